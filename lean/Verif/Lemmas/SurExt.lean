import Verif.Model.SurExt
import Verif.Spec.SurExt
import Verif.Lemmas.ChoiceSet
import Verif.Props.Dataset
import Verif.Props.ChoiceExtended
import Verif.Props.SurProj
/-! # Lemmas: from a table to a system of regressions -/
namespace LDT
namespace Su
open Mx Ls Op
open Co (part)
open Arr (Val)

theorem make_idem (a b : Bool) (n : ℤ) : Opts.make (Opts.make a b n).restricted (Opts.make a b n).details (Opts.make a b n).maxIter = Opts.make a b n := by
  unfold Opts.make
  by_cases h : n ≠ 0
  · simp [h]
  · simp [h]

theorem part_mem {α : Type} (l : List α) (q n : ℕ) (p : ℕ) (hp : p < n) : (part l (q : ℤ) (n : ℤ))[p]? = l[q + p]? := by
  unfold part
  rw [Int.toNat_natCast, Int.toNat_natCast, List.getElem?_take, if_pos hp, List.getElem?_drop]

theorem val_of_mem {a : Mat ℝ} {r i j : ℕ} (hr : a.rows = r) {v : ℝ} (h : a.mem[i + r * j]? = some v) : a.val i j = v := by
  unfold Mat.val
  have e : ((i : ℤ) + a.rows * (j : ℤ)).toNat = i + r * j := by
    rw [hr]
    have : ((i : ℤ) + (r : ℤ) * (j : ℤ)) = ((i + r * j : ℕ) : ℤ) := by push_cast; ring
    rw [this, Int.toNat_natCast]
  rw [e, h]
  rfl

theorem kept_unique {α : Type} {bad : α → Bool} {m : Mat α} {cols kept kept' : List ℤ} (h : CompleteRows bad m cols kept)
    (h' : CompleteRows bad m cols kept') : kept = kept' :=
  List.Perm.eq_of_pairwise (fun a b _ _ h1 h2 => absurd h1 (not_lt.2 (le_of_lt h2))) h.sorted h'.sorted
    ((List.perm_ext_iff_of_nodup (h.sorted.imp ne_of_lt) (h'.sorted.imp ne_of_lt)).2 fun i => by rw [h.mem, h'.mem])

theorem table_used {data : Mat (Val ℝ)} (wd : data.Wf) {kept : List ℤ} (cn : Bool) (hu : UsedRows cn data kept) (hr : 0 < data.rows)
    (hc : 0 < data.cols) {storage : List ℝ} (hs : cn = true → data.rows * data.cols ≤ storage.length) :
    ∃ tab, extTable cn data storage = .ok tab ∧ tab.rows = kept.length ∧ tab.cols = data.cols ∧
      ∀ (a b : ℕ) (row : ℤ), kept[a]? = some row → (b : ℤ) < data.cols → tab.get a b = data.get row b := by
  have hlen : ((upTo 0 data.cols).length : ℤ) = data.cols := by unfold upTo; simp; omega
  unfold extTable UsedRows at *
  cases cn with
  | true =>
    simp only [if_true] at hu ⊢
    have hm : Dataset.make data.rows data.cols true false = .ok ⟨true, false, data.rows * data.cols⟩ := by
      unfold Dataset.make; rw [if_neg (by omega)]
    have hsl : (((part storage 0 (data.rows * data.cols)).map some : List (Val ℝ)).length : ℤ) = data.rows * data.cols := by
      have := hs rfl
      have h0 : 0 ≤ data.rows * data.cols := by positivity
      rw [List.length_map]
      unfold part
      simp only [Int.toNat_zero, List.drop_zero, List.length_take]
      omega
    obtain ⟨kept', res, k1, k2, k3, k4, k5⟩ := C36_dataset_missing Option.isNone data.rows data.cols false _ hm data wd (le_refl _)
      (upTo 0 data.cols) (fun k hk => mem_upTo.1 hk) (by simp) ((part storage 0 (data.rows * data.cols)).map some) hsl
    have : kept' = kept := kept_unique k1 hu
    subst this
    rw [hm, Outcome.ok_bind]
    exact ⟨res, k2, k3, by rw [k4, hlen], fun a b row ha hb => k5 a b row b ha (by rw [getElem?_upTo, if_pos (by omega), zero_add])⟩
  | false =>
    simp only [Bool.false_eq_true, if_false] at hu ⊢
    subst hu
    refine ⟨data, rfl, by unfold upTo; simp; omega, rfl, fun a b row ha hb => ?_⟩
    rw [getElem?_upTo] at ha
    split_ifs at ha
    have := Option.some.inj ha
    rw [← this, zero_add]

/-- The table of numbers `t` holds `Y` and `X` side by side. -/
structure Beside {N m k : ℕ} (t : Mat ℝ) (Y : Matrix (Fin N) (Fin m) ℝ) (X : Matrix (Fin N) (Fin k) ℝ) : Prop where
  rows : t.rows = N
  y : IsM (⟨N, m, some (part t.mem 0 ((N : ℤ) * m))⟩ : Mat ℝ) Y
  x : IsM (⟨N, k, some (part t.mem ((m : ℤ) * N) ((N : ℤ) * k))⟩ : Mat ℝ) X

theorem get_mem' {tab : Mat (Val ℝ)} {N : ℕ} (hr : tab.rows = N) {i j : ℕ} {v : Val ℝ} (h : tab.get i j = .ok v) : tab.mem[i + N * j]? = some v := by
  rw [mul_comm]; exact Dc.get_mem hr h

theorem isM_block {N c : ℕ} {l : List ℝ} {q : ℕ} {M : Matrix (Fin N) (Fin c) ℝ} (hl : q + N * c ≤ l.length)
    (h : ∀ (i : Fin N) (j : Fin c), l[q + ((i : ℕ) + N * (j : ℕ))]? = some (M i j)) :
    IsM (⟨N, c, some (part l (q : ℤ) ((N : ℤ) * c))⟩ : Mat ℝ) M := by
  refine ⟨sized_part l q N c (by omega) (by exact_mod_cast hl), fun i j => ?_⟩
  refine val_of_mem rfl ?_
  have hlt : (i : ℕ) + N * (j : ℕ) < N * c := by
    calc (i : ℕ) + N * (j : ℕ) < N + N * (j : ℕ) := by have := i.2; omega
      _ = N * ((j : ℕ) + 1) := by ring
      _ ≤ N * c := Nat.mul_le_mul_left _ j.2
  have := part_mem l q (N * c) ((i : ℕ) + N * (j : ℕ)) hlt
  push_cast at this
  show (part l (q : ℤ) ((N : ℤ) * c))[(i : ℕ) + N * (j : ℕ)]? = _
  rw [this]
  exact h i j

theorem beside {tab : Mat (Val ℝ)} {N m k : ℕ} {Y : Matrix (Fin N) (Fin m) ℝ} {X : Matrix (Fin N) (Fin k) ℝ} (hr : tab.rows = N)
    (hc : tab.cols = ((m + k : ℕ) : ℤ)) (hY : ∀ (i : Fin N) (j : Fin m), tab.get ((i : ℕ) : ℤ) ((j : ℕ) : ℤ) = .ok (some (Y i j)))
    (hX : ∀ (i : Fin N) (l : Fin k), tab.get ((i : ℕ) : ℤ) ((m + (l : ℕ) : ℕ) : ℤ) = .ok (some (X i l))) :
    ∃ t, Dc.numbers tab = some t ∧ Beside t Y X := by
  have ek : (tab.rows * tab.cols).toNat = N * (m + k) := by rw [hr, hc]; exact_mod_cast Int.toNat_natCast (N * (m + k))
  -- every cell
  have cell : ∀ p, p < N * (m + k) → ∃ v : ℝ, tab.mem[p]? = some (some v) := fun p hp => by
    have hN : 0 < N := by rcases Nat.eq_zero_or_pos N with h | h; · rw [h, zero_mul] at hp; omega
                          · exact h
    have hq : p / N < m + k := Nat.div_lt_of_lt_mul hp
    have hi : p % N < N := Nat.mod_lt _ hN
    have hpe : p % N + N * (p / N) = p := by rw [Nat.mod_add_div]
    by_cases hj : p / N < m
    · exact ⟨_, by rw [← hpe]; exact get_mem' hr (hY ⟨_, hi⟩ ⟨_, hj⟩)⟩
    · have := get_mem' hr (hX ⟨_, hi⟩ ⟨p / N - m, by omega⟩)
      simp only at this
      rw [show m + (p / N - m) = p / N by omega, hpe] at this
      exact ⟨_, this⟩
  have hlen : N * (m + k) ≤ tab.mem.length := by
    by_contra hlt
    push Not at hlt
    obtain ⟨v, hv⟩ := cell tab.mem.length hlt
    rw [List.getElem?_eq_none (le_refl _)] at hv
    cases hv
  have hall : ((tab.mem.take (tab.rows * tab.cols).toNat).all Option.isSome) = true := by
    rw [ek, List.all_eq_true]
    intro v hv
    obtain ⟨p, hp, rfl⟩ := List.getElem_of_mem hv
    rw [List.length_take] at hp
    obtain ⟨w, hw⟩ := cell p (by omega)
    rw [List.getElem_take]
    rw [List.getElem?_eq_getElem (by omega)] at hw
    rw [Option.some.inj hw]
    rfl
  refine ⟨_, by unfold Dc.numbers; rw [if_pos hall], hr, ?_, ?_⟩
  · have := isM_block (N := N) (c := m) (l := ((tab.mem.take (tab.rows * tab.cols).toNat).map fun v => v.getD 0)) (q := 0) (M := Y) (by
      rw [List.length_map, List.length_take, ek, zero_add]
      have : N * m ≤ N * (m + k) := Nat.mul_le_mul_left _ (by omega)
      omega) (fun i j => by
      rw [zero_add, List.getElem?_map, ek, List.getElem?_take, if_pos, get_mem' hr (hY i j)]
      · rfl
      · calc (i : ℕ) + N * (j : ℕ) < N + N * (j : ℕ) := by have := i.2; omega
          _ = N * ((j : ℕ) + 1) := by ring
          _ ≤ N * (m + k) := Nat.mul_le_mul_left _ (by have := j.2; omega))
    exact this
  · have := isM_block (N := N) (c := k) (l := ((tab.mem.take (tab.rows * tab.cols).toNat).map fun v => v.getD 0)) (q := m * N) (M := X) (by
      rw [List.length_map, List.length_take, ek]
      have : m * N + N * k = N * (m + k) := by ring
      omega) (fun i l => by
      have e : m * N + ((i : ℕ) + N * (l : ℕ)) = (i : ℕ) + N * (m + (l : ℕ)) := by ring
      rw [e, List.getElem?_map, ek, List.getElem?_take, if_pos, get_mem' hr (hX i l)]
      · rfl
      · calc (i : ℕ) + N * (m + (l : ℕ)) < N + N * (m + (l : ℕ)) := by have := i.2; omega
          _ = N * (m + (l : ℕ) + 1) := by ring
          _ ≤ N * (m + k) := Nat.mul_le_mul_left _ (by have := l.2; omega))
    push_cast at this
    exact this

/-- The object was made for at least this table and these new regressors, and the arrays are as large as it says. -/
structure Made (u : ExtSetup) (N0 m0 k0 n0 : ℤ) (data : Mat (Val ℝ)) (m k : ℕ) (newX : Option (Mat ℝ)) (storage work : List ℝ) : Prop where
  wf : data.Wf
  rows : 0 < data.rows
  rows_le : data.rows ≤ N0
  m_pos : 0 < m
  k_pos : 0 < k
  m_le : (m : ℤ) ≤ m0
  k_le : (k : ℤ) ≤ k0
  new_le : newRows newX ≤ n0
  storage : extStorage u N0 m0 k0 n0 ≤ storage.length
  work : extWork u N0 m0 k0 n0 ≤ work.length

theorem projStorage_le {v : Bool} {n m n0 m0 : ℤ} (hn : 0 ≤ n) (hm : 0 ≤ m) (a : n ≤ n0) (b : m ≤ m0) : projStorage v n m ≤ projStorage v n0 m0 := by
  unfold projStorage
  have h1 : m * n ≤ m0 * n0 := mul_le_mul b a hn (by omega)
  have h2 : m * m ≤ m0 * m0 := mul_le_mul b b hm (by omega)
  cases v <;> simp <;> omega

theorem projWork_grows {r v : Bool} {m k m0 k0 : ℤ} (hm : 0 ≤ m) (hk : 0 ≤ k) (a : m ≤ m0) (b : k ≤ k0) : projWork r v m k ≤ projWork r v m0 k0 := by
  unfold projWork
  have h1 : k * m ≤ k0 * m0 := mul_le_mul b a hm (by omega)
  have h2 : m * (k * m) ≤ m0 * (k0 * m0) := mul_le_mul a h1 (by positivity) (by omega)
  cases v <;> cases r <;> simp <;> nlinarith

/-- The work array of a restricted model is large enough for its projections. -/
theorem projWork_le {a b v : Bool} {i : ℤ} (hi : i ≠ 0) {N m k : ℤ} (hN : 1 ≤ N) (hm : 1 ≤ m) (hk : 1 ≤ k) (r : Bool) :
    projWork r v m k ≤ workSize (Opts.make a b i) N m k := by
  unfold projWork workSize Opts.make
  rw [if_pos hi]
  simp only [if_true]
  have h1 : 0 ≤ m * (k * m) := by positivity
  have h2 : m * (k * m) ≤ N * m * (k * m) := by nlinarith
  have h3 : m ≤ N * m := by nlinarith
  have h4 : k ≤ k * k := by nlinarith
  have h5 : 0 ≤ (k * m) * (k * m) := by positivity
  refine le_trans ?_ (le_max_left _ _)
  have h6 : 0 ≤ k * m := by positivity
  cases v <;> cases r <;> simp <;> nlinarith

theorem extended_eq {lu : List ℝ → List ℝ} {f : Fns ℝ} {u : ExtSetup} {N0 m0 k0 n0 : ℤ} {other : Outcome ExtRes} {data : Mat (Val ℝ)} {m k : ℕ}
    {R : Option (Mat ℝ)} {maxProb : ℝ} {newX : Option (Mat ℝ)} {checks : Option (SOpt.Checks ℝ)} {storage work : List ℝ}
    (h : Made u N0 m0 k0 n0 data m k newX storage work) {kept : List ℤ} {Y : Matrix (Fin kept.length) (Fin m) ℝ}
    {X : Matrix (Fin kept.length) (Fin k) ℝ} (hs : Sample u.checkNan data kept Y X) :
    ∃ t, Beside t Y X ∧ extended lu f u N0 m0 k0 n0 other data m R maxProb newX checks storage work =
      extTail lu f u N0 m0 k0 n0 t m k R maxProb newX checks (if u.checkNan then N0 * (m0 + k0) else 0) storage work := by
  have hm := h.m_pos
  have hk := h.k_pos
  have hml := h.m_le
  have hkl := h.k_le
  have hr := h.rows
  have hrl := h.rows_le
  have hcols : data.cols - (m : ℤ) = k := by rw [hs.cols]; ring
  have hcp : 0 < data.cols := by rw [hs.cols]; omega
  have hprod : data.rows * data.cols ≤ N0 * (m0 + k0) := by
    rw [hs.cols]; exact mul_le_mul hrl (by omega) (by omega) (by omega)
  have hopt : (⟨u.opts.restricted, u.checkNan, u.opts.details, u.opts.maxIter, (projSetup u m0 k0 n0).2.1⟩ : ExtSetup).opts = u.opts := make_idem _ _ _
  have hpv : 0 < newRows newX → 0 < n0 ∧ (projSetup u m0 k0 n0).2.1 = u.doVar := fun hp => by
    have := h.new_le
    have h0 : 0 < n0 := by omega
    unfold projSetup
    rw [if_pos h0]
    exact ⟨h0, rfl⟩
  have hst : extStorage ⟨u.opts.restricted, u.checkNan, u.opts.details, u.opts.maxIter, (projSetup u m0 k0 n0).2.1⟩ data.rows m k (newRows newX) ≤
      extStorage u N0 m0 k0 n0 := by
    unfold extStorage
    rw [hopt]
    have e1 := storageSize_mono u.opts (N := data.rows) (m := m) (k := k) (by omega) (by omega) (by omega) hrl hml hkl
    have e2 : (if u.checkNan then data.rows * ((m : ℤ) + k) else 0) ≤ if u.checkNan then N0 * (m0 + k0) else 0 := by
      split_ifs
      · rw [← hs.cols]; exact hprod
      · exact le_refl _
    have e3 : (if newRows newX > 0 then projStorage (projSetup u m0 k0 n0).2.1 (newRows newX) m else 0) ≤ if n0 > 0 then projStorage u.doVar n0 m0 else 0 := by
      by_cases hp : newRows newX > 0
      · obtain ⟨q1, q2⟩ := hpv hp
        rw [if_pos hp, if_pos q1, q2]
        exact projStorage_le (by omega) (by omega) h.new_le hml
      · rw [if_neg hp]
        by_cases q1 : n0 > 0
        · rw [if_pos q1]
          have := projStorage_le (v := u.doVar) (n := 0) (m := 0) (le_refl _) (le_refl _) q1.le (show (0 : ℤ) ≤ m0 by omega)
          have z : projStorage u.doVar 0 0 = 0 := by unfold projStorage; simp
          omega
        · rw [if_neg q1]
    dsimp only
    omega
  have hwk : extWork ⟨u.opts.restricted, u.checkNan, u.opts.details, u.opts.maxIter, (projSetup u m0 k0 n0).2.1⟩ data.rows m k (newRows newX) ≤
      extWork u N0 m0 k0 n0 := by
    have e1 := workSize_mono u.opts (N := data.rows) (m := m) (k := k) (by omega) (by omega) (by omega) hrl hml hkl
    unfold extWork
    rw [hopt]
    dsimp only
    by_cases hp : newRows newX > 0
    · obtain ⟨q1, q2⟩ := hpv hp
      rw [if_pos hp, if_pos q1, q2]
      refine max_le (le_trans (max_le_max (le_refl _) e1) (le_max_left _ _)) ?_
      by_cases hi : u.maxIter = 0
      · have : u.opts.restricted = u.restricted := by unfold ExtSetup.opts Opts.make; rw [if_neg (by simp [hi])]
        rw [this]
        exact le_trans (projWork_grows (by omega) (by omega) hml hkl) (le_max_right _ _)
      · refine le_trans (projWork_le hi (N := data.rows) (by omega) (by omega) (by omega) _ (a := u.restricted) (b := u.details)) ?_
        exact le_trans e1 (le_trans (le_max_right _ _) (le_max_left _ _))
    · rw [if_neg hp]
      have : max 0 (workSize u.opts data.rows m k) ≤ max 0 (workSize u.opts N0 m0 k0) := max_le_max (le_refl _) e1
      split_ifs
      · exact le_trans this (le_max_left _ _)
      · exact this
  have hmk : extMake ⟨u.opts.restricted, u.checkNan, u.opts.details, u.opts.maxIter, (projSetup u m0 k0 n0).2.1⟩ data.rows m k = .ok () := by
    unfold extMake Dataset.make
    dsimp only
    split_ifs
    · omega
    · rfl
    · rfl
  have hstor : u.checkNan = true → data.rows * data.cols ≤ storage.length := fun hc => by
    have := h.storage
    unfold extStorage at this
    rw [if_pos hc] at this
    have z1 : storageSize u.opts 0 0 0 ≤ storageSize u.opts N0 m0 k0 := storageSize_mono _ (le_refl _) (le_refl _) (le_refl _) (by omega) (by omega) (by omega)
    have z0 : storageSize u.opts 0 0 0 = 0 := by unfold storageSize; simp
    have z2 : 0 ≤ (if n0 > 0 then projStorage u.doVar n0 m0 else 0) := by
      split_ifs with q1
      · have := projStorage_le (v := u.doVar) (n := 0) (m := 0) (le_refl _) (le_refl _) q1.le (show (0 : ℤ) ≤ m0 by omega)
        have z : projStorage u.doVar 0 0 = 0 := by unfold projStorage; simp
        omega
      · exact le_refl _
    omega
  obtain ⟨tab, a1, a2, a3, a4⟩ := table_used h.wf u.checkNan hs.used hr hcp hstor
  obtain ⟨t, b1, b2⟩ := beside (tab := tab) (Y := Y) (X := X) a2 (by rw [a3, hs.cols]; push_cast; rfl)
    (fun i j => by rw [← hs.dependent i j]; exact a4 i j _ (List.getElem?_eq_getElem i.2) (by rw [hs.cols]; have := j.2; omega))
    (fun i l => by
      rw [← hs.regressors i l]
      exact a4 i (m + (l : ℕ)) _ (List.getElem?_eq_getElem i.2) (by rw [hs.cols]; have := l.2; push_cast; omega))
  refine ⟨t, b2, ?_⟩
  unfold extended
  dsimp only
  rw [hcols, if_neg (by omega), hmk, Outcome.ok_bind, if_neg (by omega), if_neg (by rintro ⟨_, q⟩; omega), a1, Outcome.ok_bind, b1]

end Su
end LDT
