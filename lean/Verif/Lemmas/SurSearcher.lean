import Verif.Spec.SurSearcher
import Verif.Props.SurSimFit
import Verif.Props.ChoiceSearch
/-! # Lemmas for C126 -/
namespace LDT
namespace Su
open Mx Op Ls Score
open Dc (bind_ok)
open Arr (Val)
open Matrix

theorem kept_in {source : Mat (Val ℝ)} {cols kept : List ℤ} (h : CompleteRows Option.isNone source cols kept) {r : ℤ} (hr : r ∈ kept) :
    0 ≤ r ∧ r < source.rows := ⟨((h.mem r).1 hr).1, ((h.mem r).1 hr).2.1⟩

theorem kept_cell {source : Mat (Val ℝ)} {cols kept : List ℤ} (h : CompleteRows Option.isNone source cols kept) {r c : ℤ} (hr : r ∈ kept) (hc : c ∈ cols) :
    ∃ x, source.get r c = .ok (some x) := by
  obtain ⟨-, -, hh⟩ := (h.mem r).1 hr
  obtain ⟨v, e, hn⟩ := hh c hc
  cases v with
  | none => cases hn
  | some x => exact ⟨x, e⟩

theorem system_exists {source : Mat (Val ℝ)} {inner cur kept : List ℤ} (h : CompleteRows Option.isNone source (inner ++ cur) kept) :
    ∃ Y X, SystemSample source inner cur kept Y X := by
  have h1 : ∀ (i : Fin kept.length) (j : Fin inner.length), ∃ x, source.get (kept.get i) (inner.get j) = .ok (some x) := fun i j =>
    kept_cell h (List.get_mem _ _) (List.mem_append_left _ (List.get_mem _ _))
  have h2 : ∀ (i : Fin kept.length) (j : Fin cur.length), ∃ x, source.get (kept.get i) (cur.get j) = .ok (some x) := fun i j =>
    kept_cell h (List.get_mem _ _) (List.mem_append_right _ (List.get_mem _ _))
  exact ⟨fun i j => (h1 i j).choose, fun i j => (h2 i j).choose, h, fun i j => (h1 i j).choose_spec, fun i j => (h2 i j).choose_spec⟩

theorem kept_le {source : Mat (Val ℝ)} (wd : source.Wf) {cols kept : List ℤ} (h : CompleteRows Option.isNone source cols kept) :
    (kept.length : ℤ) ≤ source.rows := by
  have hsub : kept ⊆ upTo 0 source.rows := fun r hr => mem_upTo.2 (kept_in h hr)
  have hnd : kept.Nodup := h.sorted.imp (fun h => ne_of_lt h)
  have := (List.Nodup.subperm hnd hsub).length_le
  rw [length_upTo] at this
  have := wd.rows_nonneg
  omega

theorem get_lt {α : Type} {m : Mat α} {i j : ℤ} {v : α} (h : m.get i j = .ok v) : i + m.rows * j < m.mem.length ∧ m.data.isSome := by
  unfold Mat.get at h
  split_ifs at h with h0
  unfold Mat.get0 Mx.read at h
  constructor
  · by_contra hc
    split_ifs at h with h1
    rw [List.getElem?_eq_none (by omega)] at h
    cases h
  · cases hd : m.data with
    | some l => rfl
    | none => rw [hd] at h0; exact absurd rfl h0

/-- What is read for a model. -/
theorem read_sample {source : Mat (Val ℝ)} (wd : source.Wf) {cols : List ℤ} (hc : ∀ k ∈ cols, 0 ≤ k ∧ k < source.cols) {storage : List (Val ℝ)}
    (hst : (storage.length : ℤ) = source.rows * cols.length) (hr : 0 < source.rows) (hl : 0 < cols.length) :
    ∃ ds m kept, Dataset.make source.rows cols.length true true = .ok ds ∧ ds.calculate Option.isNone source (some cols) storage = .ok m ∧
      CompleteRows Option.isNone source cols kept ∧ m.rows = kept.length ∧ m.cols = cols.length ∧
      (∀ (a b : ℕ) (r c : ℤ), kept[a]? = some r → cols[b]? = some c → m.get a b = source.get r c) := by
  obtain ⟨ds, h1⟩ : ∃ ds, Dataset.make source.rows cols.length true true = .ok ds := by
    unfold Dataset.make
    rw [if_neg (by omega)]
    exact ⟨_, rfl⟩
  have hz : ds.storageSize = source.rows * cols.length := by
    unfold Dataset.make at h1
    split_ifs at h1
    rw [← Outcome.ok.inj h1]
  obtain ⟨kept, m, k1, k2, k3, k4, k5⟩ := C36_dataset_missing Option.isNone source.rows cols.length true ds h1 source wd (le_refl _)
    cols hc (by simp) storage (by rw [hst, hz])
  exact ⟨ds, m, kept, h1, by simpa using k2, k1, k3, k4, k5⟩

section
variable {source : Mat (Val ℝ)} {cols kept : List ℤ} {m : Mat (Val ℝ)} (k1 : CompleteRows Option.isNone source cols kept)
  (k3 : m.rows = kept.length) (k4 : m.cols = cols.length)
  (k5 : ∀ (a b : ℕ) (r c : ℤ), kept[a]? = some r → cols[b]? = some c → m.get a b = source.get r c)
include k1 k3 k4 k5

theorem read_wf (h0 : 0 < kept.length) (hl : 0 < cols.length) : m.Wf := by
  have ha : kept[kept.length - 1]? = some (kept[kept.length - 1]'(by omega)) := List.getElem?_eq_getElem _
  have hb : cols[cols.length - 1]? = some (cols[cols.length - 1]'(by omega)) := List.getElem?_eq_getElem _
  obtain ⟨x, hx⟩ := kept_cell k1 (List.mem_of_getElem? ha) (List.mem_of_getElem? hb)
  obtain ⟨g1, g2⟩ := get_lt ((k5 _ _ _ _ ha hb).trans hx)
  refine ⟨by omega, by omega, g2, ?_⟩
  rw [k3] at g1 ⊢
  rw [k4]
  push_cast [Nat.cast_sub h0, Nat.cast_sub hl] at g1
  nlinarith

theorem read_table (h0 : 0 < kept.length) (hl : 0 < cols.length) : TableOf source cols kept (Dc.tableOf m) := by
  have wf := read_wf k1 k3 k4 k5 h0 hl
  have hlen : (m.mem.take (m.rows * m.cols).toNat).length = kept.length * cols.length := by
    rw [List.length_take]
    have := wf.size
    rw [k3, k4] at this ⊢
    have e : ((kept.length : ℤ) * cols.length).toNat = kept.length * cols.length := by exact_mod_cast Int.toNat_natCast (kept.length * cols.length)
    rw [e]
    have : kept.length * cols.length ≤ m.mem.length := by exact_mod_cast this
    omega
  have wt : (Dc.tableOf m).Wf := by
    refine ⟨wf.rows_nonneg, wf.cols_nonneg, rfl, ?_⟩
    show m.rows * m.cols ≤ (((m.mem.take (m.rows * m.cols).toNat).map fun v => v.getD 0).length : ℤ)
    rw [List.length_map, hlen, k3, k4]
    push_cast
    exact le_refl _
  refine ⟨k1, wt, k3, k4, fun a b r c ha hb => ?_⟩
  obtain ⟨x, hx⟩ := kept_cell k1 (List.mem_of_getElem? ha) (List.mem_of_getElem? hb)
  refine ⟨x, hx, ?_⟩
  have hal : a < kept.length := (List.getElem?_eq_some_iff.mp ha).1
  have hbl : b < cols.length := (List.getElem?_eq_some_iff.mp hb).1
  obtain ⟨e1, -⟩ := Dc.tableOf_cell k3 k4 hal hbl ((k5 a b r c ha hb).trans hx)
  have inr : (Dc.tableOf m).InR a b := ⟨by omega, by show (a : ℤ) < m.rows; omega, by omega, by show (b : ℤ) < m.cols; omega⟩
  obtain ⟨v, hv⟩ := get0_ok wt inr
  rw [← get_eq_get0 wt inr] at hv
  have hm := getR_mem (T := Dc.tableOf m) (n := kept.length) k3 hv
  rw [hv]
  rw [List.getD_eq_getElem?_getD, show a + b * kept.length = a + kept.length * b by ring, hm] at e1
  rw [← e1]
  rfl

end

/-- The sample for `SurExtended`. -/
theorem read_system {source : Mat (Val ℝ)} {inner cur kept : List ℤ} {m : Mat (Val ℝ)} (k3 : m.rows = kept.length) (k4 : m.cols = (inner ++ cur).length)
    (k5 : ∀ (a b : ℕ) (r c : ℤ), kept[a]? = some r → (inner ++ cur)[b]? = some c → m.get a b = source.get r c)
    {Y : Matrix (Fin kept.length) (Fin inner.length) ℝ} {X : Matrix (Fin kept.length) (Fin cur.length) ℝ} (hs : SystemSample source inner cur kept Y X) :
    ∃ (I : List ℤ) (hI : I.length = kept.length), Sample false m I (fun i j => Y (Fin.cast hI i) j) (fun i j => X (Fin.cast hI i) j) := by
  have hkl : (upTo 0 (kept.length : ℤ)).length = kept.length := by rw [length_upTo]; omega
  have hkept : ∀ i : Fin (upTo 0 (kept.length : ℤ)).length, (upTo 0 (kept.length : ℤ)).get i = ((i : ℕ) : ℤ) := fun i => by
    have h := getElem?_upTo 0 (kept.length : ℤ) i
    rw [List.getElem?_eq_getElem i.2] at h
    rw [if_pos (by have := i.2; omega), zero_add] at h
    exact Option.some.inj h
  have hrow : ∀ i : Fin (upTo 0 (kept.length : ℤ)).length, kept[(i : ℕ)]? = some (kept.get (Fin.cast hkl i)) := fun i => by
    rw [List.getElem?_eq_getElem (by have := i.2; omega)]; rfl
  refine ⟨upTo 0 (kept.length : ℤ), hkl, ⟨by rw [k4, List.length_append]; push_cast; rfl, ?_, fun i j => ?_, fun i l => ?_⟩⟩
  · unfold UsedRows
    rw [if_neg (by simp), k3]
  · rw [hkept, k5 i j _ (inner.get j) (hrow i) (by rw [List.getElem?_append_left j.2, List.getElem?_eq_getElem j.2]; rfl)]
    exact hs.dependent _ _
  · rw [hkept, k5 i (inner.length + (l : ℕ)) _ (cur.get l) (hrow i) (by
      rw [List.getElem?_append_right (by omega), Nat.add_sub_cancel_left, List.getElem?_eq_getElem l.2]; rfl)]
    exact hs.regressors _ _

/-- `C123_estimate` for rows that are counted in another way. -/
theorem estimate_rows (lu : List ℝ → List ℝ) (f : Fns ℝ) {u : ExtSetup} {N0 m0 k0 n0 : ℤ} {other : Outcome ExtRes} {data : Mat (Val ℝ)} {N m k n : ℕ}
    {maxProb : ℝ} {newX : Option (Mat ℝ)} {checks : Option (SOpt.Checks ℝ)} {storage work : List ℝ}
    (h : Made u N0 m0 k0 n0 data m k newX storage work) (hr : u.restricted = false) (hi : u.maxIter = 0) (hnan : u.checkNan = false)
    {Y : Matrix (Fin N) (Fin m) ℝ} {X : Matrix (Fin N) (Fin k) ℝ}
    (hs : ∃ (I : List ℤ) (hI : I.length = N), Sample false data I (fun i j => Y (Fin.cast hI i) j) (fun i j => X (Fin.cast hI i) j))
    {Z : Matrix (Fin n) (Fin k) ℝ} (hz : NewRows newX Z) :
    (¬ (EnoughObs checks N k ∧ Estimable u.details Y X) →
      extended lu f u N0 m0 k0 n0 other data m none maxProb newX checks storage work = .throws) ∧
    (EnoughObs checks N k → Estimable u.details Y X → ∃ B G a b,
      (∀ B', LeastSquares Y X B' ↔ B' = B) ∧ G * (Xᵀ * X) = 1 ∧ GreatestColumn (Xᵀ * X) a ∧ GreatestColumn G b ∧
      let S := cov (left Y X B)
      let A := ifDetails u.details (Akaike N (m * k) S)
      let C := ifDetails u.details (Schwarz N (m * k) S)
      let D := ifDetails u.details (Determination Y (left Y X B))
      (¬ Accepted checks (.num (a * b)) A C D →
        extended lu f u N0 m0 k0 n0 other data m none maxProb newX checks storage work = .throws) ∧
      (Accepted checks (.num (a * b)) A C D → ∃ r,
        extended lu f u N0 m0 k0 n0 other data m none maxProb newX checks storage work = .ok r ∧
        Held f u.details u.doVar Y X Z B G r ∧ r.condition = a * b ∧ r.aic = A ∧ r.sic = C ∧ r.r2 = D)) := by
  obtain ⟨I, hI, hs⟩ := hs
  subst hI
  exact C123_estimate lu f h hr hi (by rw [hnan]; exact hs) hz

/-- A sample without rows is refused. -/
theorem extended_empty {lu : List ℝ → List ℝ} {f : Fns ℝ} {u : ExtSetup} {N0 m0 k0 : ℤ} {other : Outcome ExtRes} {data : Mat (Val ℝ)} {m k : ℕ}
    {R : Option (Mat ℝ)} {maxProb : ℝ} {checks : Option (SOpt.Checks ℝ)} {storage work : List ℝ} (hr : data.rows = 0) (hc : data.cols = m + k)
    (hnan : u.checkNan = false) (hi : u.maxIter = 0) :
    extended lu f u N0 m0 k0 0 other data m R maxProb none checks storage work = .throws := by
  unfold extended
  dsimp only
  rw [if_neg (by omega)]
  have hmk : ∀ t : ExtSetup, t.checkNan = false → extMake t data.rows m (data.cols - m) = .ok () := fun t ht => by unfold extMake; rw [ht]; rfl
  rw [hmk ⟨u.opts.restricted, u.checkNan, u.opts.details, u.opts.maxIter, (projSetup u m0 k0 0).2.1⟩ hnan, Outcome.ok_bind]
  have both : ∀ {p q : Prop} [Decidable p] [Decidable q] (x : Outcome ExtRes), ¬ q → x = .throws →
      (if p then Outcome.throws else if q then .ub else x) = .throws := fun x hq hx => by
    rw [if_neg hq, hx]; exact ite_self _
  refine both _ (fun h2 => ?_) ?_
  · rw [hnan] at h2; exact absurd h2.1 (by simp)
  · unfold extTable
    rw [hnan, if_neg (by simp), Outcome.ok_bind]
    have hnum : Dc.numbers data = some ⟨data.rows, data.cols, some []⟩ := by
      unfold Dc.numbers
      rw [hr, zero_mul]
      rfl
    rw [hnum]
    dsimp only
    unfold extTail
    dsimp only
    by_cases ho : fewObs checks data.rows (data.cols - m)
    · rw [if_pos ho]
    rw [if_neg ho, if_neg (by exact id)]
    have hR : extR u ((m : ℤ) * (data.cols - m)) R = .ok R := by
      unfold extR
      have : ¬ u.opts.maxIter > 0 := by
        unfold ExtSetup.opts Opts.make
        rw [hi]; simp
      rw [if_neg this]
    rw [hR, Outcome.ok_bind]
    have hsur : ∀ y x s, y.rows = 0 → sur lu f u.opts N0 m0 k0 y x R maxProb s work = .throws := fun y x s hy =>
      C88_sizes _ _ _ _ _ _ _ _ _ _ _ _ (Or.inl (by rw [hy]; norm_num))
    rw [hsur _ _ _ hr]
    rfl

/-- The inverse of the moments has no negative variance. -/
theorem inverse_diag {N k : ℕ} {X : Matrix (Fin N) (Fin k) ℝ} {G : Matrix (Fin k) (Fin k) ℝ} (h : G * (Xᵀ * X) = 1) (l : Fin k) : 0 ≤ G l l := by
  have h2 : (Xᵀ * X) * G = 1 := mul_eq_one_comm.1 h
  have h3 : Gᵀ * (Xᵀ * X) = 1 := by
    have := congrArg Matrix.transpose h2
    rw [transpose_mul, transpose_mul, transpose_transpose, transpose_one] at this
    exact this
  have e : G = (X * G)ᵀ * (X * G) := by
    rw [transpose_mul, ← Matrix.mul_assoc, Matrix.mul_assoc Gᵀ, h3, Matrix.one_mul]
  rw [e, mul_apply]
  exact Finset.sum_nonneg fun i _ => by rw [transpose_apply]; exact mul_self_nonneg _

theorem cov_diag {N m : ℕ} (E : Matrix (Fin N) (Fin m) ℝ) (j : Fin m) : 0 ≤ cov E j j := by
  unfold cov
  exact div_nonneg (Finset.sum_nonneg fun i _ => mul_self_nonneg _) (Nat.cast_nonneg _)

end Su
end LDT
