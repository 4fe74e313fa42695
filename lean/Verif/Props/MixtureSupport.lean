import Verif.Props.Mixture
import Verif.Props.DistSupport
import Verif.Lemmas.ClusterMergeR
/-!
# C109: listing the support of a discrete mixture, and sampling

`GetPmfSupportSize` counts the possible integers of a window, `GetPmfSupport` lists them with the masses of the mixture, and `GetSample`
chooses components in proportion to their weights.
-/
namespace LDT
namespace Di
open Op MeasureTheory Set

/-! ## The bounds -/

theorem dblMin_pos : (0 : ℝ) < dblMin := zpow_pos (by norm_num) _

theorem dblMin_lt : dblMin < 1 := by
  have : (2 : ℝ) ^ (-1022 : ℤ) < 2 ^ (0 : ℤ) := zpow_lt_zpow_right₀ (by norm_num) (by norm_num)
  simpa [dblMin] using this

theorem fmin_fold : ∀ (l : List Dist) (a : Dbl ℝ), isNan a = false →
    l.foldl (fun a d => fminD a d.minimum) a = l.foldl (fun a d => if d.minimum.lt a then d.minimum else a) a
  | [], a, _ => rfl
  | d :: l, a, ha => by
    simp only [List.foldl_cons]
    have e : fminD a d.minimum = if d.minimum.lt a then d.minimum else a := by simp [fminD, ha]
    rw [e]
    refine fmin_fold l _ ?_
    split_ifs
    · rcases minimum_cases d with h | ⟨x, h⟩ <;> rw [h] <;> rfl
    · exact ha

theorem fmax_fold : ∀ (l : List Dist) (a : Dbl ℝ), isNan a = false →
    l.foldl (fun a d => fmaxD a d.maximum) a = l.foldl (fun a d => if a.lt d.maximum then d.maximum else a) a
  | [], a, _ => rfl
  | d :: l, a, ha => by
    simp only [List.foldl_cons]
    have e : fmaxD a d.maximum = if a.lt d.maximum then d.maximum else a := by simp [fmaxD, ha]
    rw [e]
    refine fmax_fold l _ ?_
    split_ifs
    · rcases maximum_cases d with h | ⟨x, h⟩ <;> rw [h] <;> rfl
    · exact ha

theorem min_start {ws : List ℝ} {ds : List Dist} {m : Mix} (hm : makeMix ws ds = .ok m) {A : ℝ} (hA : m.minimum = .num A) (c : ℝ) :
    ds.foldl (fun a d => fminD a d.minimum) (.num c) = .num (min c A) := by
  obtain ⟨⟨d0, hd0, e0⟩, hall⟩ := C107_minimum ws ds m hm
  rw [fmin_fold _ _ rfl]
  obtain ⟨h1, h2, h3⟩ := fold_min ds (.num c) (by simp)
  generalize ds.foldl (fun a d => if d.minimum.lt a then d.minimum else a) (.num c) = r at h1 h2 h3
  have k0 := h2 d0 hd0
  rw [← e0, hA] at k0
  rcases h1 with h1 | ⟨d, hd, h1⟩
  · subst h1
    have : c ≤ A := by simpa [Dbl.lt] using k0
    rw [min_eq_left this]
  · have k := hall d hd
    rw [hA, ← h1] at k
    rcases minimum_cases d with h | ⟨x, h⟩
    · rw [h1, h] at k; simp [Dbl.lt] at k
    · rw [h] at h1; subst h1
      have a1 : A ≤ x := by simpa [Dbl.lt] using k
      have a2 : x ≤ A := by simpa [Dbl.lt] using k0
      have : x ≤ c := by
        rcases h3 with h3 | h3
        · exact (show x < c by simpa [Dbl.lt] using h3).le
        · injection h3 with h3; exact h3.le
      have hx : x = A := le_antisymm a2 a1
      rw [← hx, min_eq_right this]

theorem max_start {ws : List ℝ} {ds : List Dist} {m : Mix} (hm : makeMix ws ds = .ok m) (c : ℝ) :
    (∀ B, m.maximum = .num B → ds.foldl (fun a d => fmaxD a d.maximum) (.num c) = .num (max c B)) ∧
    (m.maximum = .pinf → ds.foldl (fun a d => fmaxD a d.maximum) (.num c) = .pinf) := by
  obtain ⟨⟨d0, hd0, e0⟩, hall⟩ := C107_maximum ws ds m hm
  rw [fmax_fold _ _ rfl]
  obtain ⟨h1, h2, h3⟩ := fold_max ds (.num c) (by simp)
  generalize ds.foldl (fun a d => if a.lt d.maximum then d.maximum else a) (.num c) = r at h1 h2 h3
  have k0 := h2 d0 hd0
  rw [← e0] at k0
  constructor
  · intro B hB
    rw [hB] at k0
    rcases h1 with h1 | ⟨d, hd, h1⟩
    · subst h1
      have : B ≤ c := by simpa [Dbl.lt] using k0
      rw [max_eq_left this]
    · have k := hall d hd
      rw [hB, ← h1] at k
      rcases maximum_cases d with h | ⟨x, h⟩
      · rw [h1, h] at k; simp [Dbl.lt] at k
      · rw [h] at h1; subst h1
        have a1 : x ≤ B := by simpa [Dbl.lt] using k
        have a2 : B ≤ x := by simpa [Dbl.lt] using k0
        have : c ≤ x := by
          rcases h3 with h3 | h3
          · exact (show c < x by simpa [Dbl.lt] using h3).le
          · injection h3 with h3; exact h3.ge
        have hx : x = B := le_antisymm a1 a2
        rw [← hx, max_eq_right this]
  · intro hB
    rw [hB] at k0
    rcases h1 with h1 | ⟨d, hd, h1⟩
    · subst h1; simp [Dbl.lt] at k0
    · rcases maximum_cases d with h | ⟨x, h⟩
      · rw [h1, h]
      · rw [h1, h] at k0; simp [Dbl.lt] at k0

theorem bounds_lo {ws : List ℝ} {ds : List Dist} {m : Mix} (hm : makeMix ws ds = .ok m) {A : ℝ} (hA : m.minimum = .num A) (lo hi : ℝ) :
    (m.bounds lo hi).1 = .num (max lo (min dblMax A)) := by
  have e := min_start hm hA dblMax
  obtain ⟨rfl, -⟩ := good_of_make hm
  unfold Mix.bounds
  dsimp only
  rw [e]
  unfold fmaxD
  simp only [isNan, Dbl.lt, decide_eq_true_eq]
  rw [if_neg (by simp)]
  split_ifs with h
  · rw [max_eq_right h.le]
  · rw [max_eq_left (not_lt.mp h)]

theorem bounds_hi {ws : List ℝ} {ds : List Dist} {m : Mix} (hm : makeMix ws ds = .ok m) (lo hi : ℝ) :
    (∀ B, m.maximum = .num B → (m.bounds lo hi).2 = .num (min hi (max dblMin B))) ∧ (m.maximum = .pinf → (m.bounds lo hi).2 = .num hi) := by
  obtain ⟨e1, e2⟩ := max_start hm dblMin
  obtain ⟨rfl, -⟩ := good_of_make hm
  unfold Mix.bounds
  constructor
  · intro B hB
    dsimp only
    rw [e1 B hB]
    unfold fminD
    simp only [isNan, Dbl.lt, decide_eq_true_eq]
    rw [if_neg (by simp)]
    split_ifs with h
    · rw [min_eq_right h.le]
    · rw [min_eq_left (not_lt.mp h)]
  · intro hB
    dsimp only
    rw [e2 hB]
    simp [fminD, isNan, Dbl.lt]

/-! ## The size -/

/-- The integers of the window that are not outside the reported range. -/
noncomputable def Mix.window (m : Mix) (lo hi : ℤ) : Finset ℤ :=
  (Finset.Icc lo hi).filter fun k : ℤ => (Dbl.num (k : ℝ)).lt m.minimum = false ∧ m.maximum.lt (Dbl.num (k : ℝ)) = false

theorem trunc_add_int {n : ℤ} {e : ℝ} (hn : 0 ≤ n) (he : 0 ≤ e) (h1 : e < 1) : trunc (n + e) = n := by
  have hn' : (0 : ℝ) ≤ n := by exact_mod_cast hn
  unfold trunc
  rw [if_pos (by linarith)]
  rw [Int.floor_eq_iff]
  constructor <;> linarith

/-- The number of possible integers of the window, if there is one, the range begins at an integer and does not end at a negative number. -/
theorem C109_size (ws : List ℝ) (ds : List Dist) (m : Mix) (hm : makeMix ws ds = .ok m) (A : ℤ) (hA : m.minimum = .num A)
    (hB : m.maximum = .pinf ∨ ∃ B : ℤ, 0 ≤ B ∧ m.maximum = .num B) (lo hi : ℤ) (hhi : (hi : ℝ) ≤ dblMax) (hne : (m.window lo hi).Nonempty) :
    m.supportSize lo hi = .ok ((m.window lo hi).card : ℤ) := by
  obtain ⟨k, hk⟩ := hne
  have hk' := hk
  simp only [Mix.window, Finset.mem_filter, Finset.mem_Icc, hA] at hk
  obtain ⟨⟨hk1, hk2⟩, hk3, hk4⟩ := hk
  have hk3 : A ≤ k := by
    have : (A : ℝ) ≤ k := by simpa [Dbl.lt] using hk3
    exact_mod_cast this
  have hAmax : (A : ℝ) ≤ dblMax := le_trans (by exact_mod_cast hk3.trans hk2) hhi
  have e1 : (m.bounds lo hi).1 = .num ((max lo A : ℤ) : ℝ) := by
    rw [bounds_lo hm hA, min_eq_right hAmax]; push_cast; rfl
  rcases hB with hB | ⟨B, hB0, hB⟩
  · have hw : m.window lo hi = Finset.Icc (max lo A) hi := by
      ext j
      simp only [Mix.window, Finset.mem_filter, Finset.mem_Icc, hA, hB, Dbl.lt, decide_eq_false_iff_not, not_lt, Int.cast_le]
      simp; omega
    rw [hw, window_size (by omega)]
    unfold Mix.supportSize
    rw [e1, (bounds_hi hm lo hi).2 hB]
    simp only [subD, scaleD, addD]
    rw [show (hi : ℝ) + -1 * ((max lo A : ℤ) : ℝ) = ((hi - max lo A : ℤ) : ℝ) by push_cast; ring, trunc_int]
  · have hk4 : k ≤ B := by
      have : (k : ℝ) ≤ B := by simpa [Dbl.lt, hB] using hk4
      exact_mod_cast this
    have hw : m.window lo hi = Finset.Icc (max lo A) (min hi B) := by
      ext j
      simp only [Mix.window, Finset.mem_filter, Finset.mem_Icc, hA, hB, Dbl.lt, decide_eq_false_iff_not, not_lt, Int.cast_le]
      omega
    rw [hw, window_size (by omega)]
    unfold Mix.supportSize
    rw [e1, (bounds_hi hm lo hi).1 B hB]
    simp only [subD, scaleD, addD]
    have key : ∃ e : ℝ, 0 ≤ e ∧ e < 1 ∧ min (hi : ℝ) (max dblMin B) = ((min hi B : ℤ) : ℝ) + e := by
      by_cases h1 : 1 ≤ B
      · refine ⟨0, le_rfl, one_pos, ?_⟩
        have : (1 : ℝ) ≤ B := by exact_mod_cast h1
        rw [max_eq_right (by linarith [dblMin_lt])]; push_cast; ring
      · have : B = 0 := by omega
        subst this
        rw [Int.cast_zero, max_eq_left dblMin_pos.le]
        by_cases h2 : hi ≤ 0
        · have : (hi : ℝ) ≤ 0 := by exact_mod_cast h2
          exact ⟨0, le_rfl, one_pos, by rw [min_eq_left (by linarith [dblMin_pos]), min_eq_left h2]; ring⟩
        · have : (1 : ℝ) ≤ hi := by exact_mod_cast (show 1 ≤ hi by omega)
          exact ⟨dblMin, dblMin_pos.le, dblMin_lt, by rw [min_eq_right (by linarith [dblMin_lt]), min_eq_right (by omega)]; simp⟩
    obtain ⟨e, he0, he1, he⟩ := key
    rw [he, show ((min hi B : ℤ) : ℝ) + e + -1 * ((max lo A : ℤ) : ℝ) = ((min hi B - max lo A : ℤ) : ℝ) + e by push_cast; ring,
      trunc_add_int (by omega) he0 he1]

/-! ## The list -/

theorem value_ok {m : Mix} (hc : ∀ d ∈ m.ds, d.isDiscrete = true) (log : Bool) (x : ℝ) : ∃ v, m.value log x = .ok v := by
  have : m.pdf x = .ok (m.avg fun d => d.pdf x) := by
    unfold Mix.pdf
    rw [if_neg (by rw [type_discrete hc]; simp)]
  cases log
  · exact ⟨_, this⟩
  · exact ⟨_, by show m.logPdf x = _; unfold Mix.logPdf; rw [this]; rfl⟩

/-- The listed points are the integers from the first possible one of the window on, in order, with the masses of the mixture or their logarithms. -/
theorem C109_points (ws : List ℝ) (ds : List Dist) (m : Mix) (hm : makeMix ws ds = .ok m) (hc : ∀ d ∈ ds, d.isDiscrete = true) (A : ℤ)
    (hA : m.minimum = .num A) (hmax : (A : ℝ) ≤ dblMax) (lo hi : ℤ) (log : Bool) (n : ℕ) (hn : 0 < n) :
    ∃ L, m.support log n false lo hi = .ok L ∧ L.length = n ∧
      ∀ i (h : i < L.length), L[i].1 = ((max lo A + i : ℤ) : ℝ) ∧ (if log then m.logPdf ((max lo A + i : ℤ) : ℝ) else m.pdf ((max lo A + i : ℤ) : ℝ)) = .ok L[i].2 := by
  have e1 : (m.bounds lo hi).1 = .num ((max lo A : ℤ) : ℝ) := by
    rw [bounds_lo hm hA, min_eq_right hmax]; push_cast; rfl
  obtain ⟨rfl, -⟩ := good_of_make hm
  choose v hv using fun x => value_ok (m := ⟨ws, ds⟩) hc log x
  refine ⟨(List.range n).map fun i : ℕ => (((max lo A : ℤ) : ℝ) + i, v (((max lo A : ℤ) : ℝ) + i)), ?_, by simp, ?_⟩
  · unfold Mix.support
    rw [if_neg (by omega), if_neg (by rw [type_discrete hc]; simp), e1]
    simp only [Bool.false_eq_true, if_false]
    refine Cl.mapM_ok _ _ _ fun i _ => ?_
    rw [hv]; rfl
  · intro i h
    simp only [List.getElem_map, List.getElem_range]
    have : ((max lo A : ℤ) : ℝ) + i = ((max lo A + i : ℤ) : ℝ) := by push_cast; rfl
    rw [this]
    exact ⟨rfl, hv _⟩

/-- For a plot with three entries per point, each value stands between two zeros at the same point. -/
theorem C109_plot (ws : List ℝ) (ds : List Dist) (m : Mix) (hm : makeMix ws ds = .ok m) (hc : ∀ d ∈ ds, d.isDiscrete = true) (A : ℤ)
    (hA : m.minimum = .num A) (hmax : (A : ℝ) ≤ dblMax) (lo hi : ℤ) (log : Bool) (n : ℕ) (hn : 0 < n) :
    ∃ L, m.support log (3 * n) true lo hi = .ok L ∧ L.length = 3 * n ∧ ∀ i, i < n → ∃ v,
      (if log then m.logPdf ((max lo A + i : ℤ) : ℝ) else m.pdf ((max lo A + i : ℤ) : ℝ)) = .ok v ∧
      L[3 * i]? = some (((max lo A + i : ℤ) : ℝ), .num 0) ∧ L[3 * i + 1]? = some (((max lo A + i : ℤ) : ℝ), v) ∧ L[3 * i + 2]? = some (((max lo A + i : ℤ) : ℝ), .num 0) := by
  have e1 : (m.bounds lo hi).1 = .num ((max lo A : ℤ) : ℝ) := by
    rw [bounds_lo hm hA, min_eq_right hmax]; push_cast; rfl
  obtain ⟨rfl, -⟩ := good_of_make hm
  choose v hv using fun x => value_ok (m := ⟨ws, ds⟩) hc log x
  set a : ℝ := ((max lo A : ℤ) : ℝ) with ha
  refine ⟨(List.range n).flatMap fun i : ℕ => [(a + i, Dbl.num 0), (a + i, v (a + i)), (a + i, Dbl.num 0)], ?_, by simp [List.length_flatMap]; omega, fun i hi' => ?_⟩
  · unfold Mix.support
    rw [if_neg (by omega), if_neg (by rw [type_discrete hc]; simp), e1, Nat.mul_div_cancel_left n (by omega)]
    simp only [if_true]
    rw [Cl.mapM_ok _ (fun i : ℕ => [(a + (i : ℝ), Dbl.num 0), (a + (i : ℝ), v (a + i)), (a + (i : ℝ), Dbl.num 0)]) _ (fun i _ => by rw [hv]; rfl)]
    show Outcome.ok _ = _
    rw [List.flatMap_def]
  · have t := triple_getElem (fun i : ℕ => (a + (i : ℝ), Dbl.num (0 : ℝ))) (fun i : ℕ => (a + (i : ℝ), v (a + i))) (fun i : ℕ => (a + (i : ℝ), Dbl.num (0 : ℝ))) n i hi'
    have e : ((max lo A + i : ℤ) : ℝ) = a + i := by rw [ha]; push_cast; rfl
    rw [e]
    exact ⟨v (a + i), hv _, t 0 (by omega), t 1 (by omega), t 2 (by omega)⟩

/-- Nothing is listed for a mixture with a continuous component, nor for length zero. -/
theorem C109_refused (ws : List ℝ) (ds : List Dist) (m : Mix) (hm : makeMix ws ds = .ok m) (log plot : Bool) (lo hi : ℝ) (n : ℕ)
    (h : n = 0 ∨ ∃ d ∈ ds, d.isDiscrete = false) : m.support log n plot lo hi = .throws := by
  obtain ⟨rfl, G⟩ := good_of_make hm
  unfold Mix.support
  by_cases hn : n = 0
  · rw [if_pos hn]
  · rw [if_neg hn]
    rcases h with h | ⟨d, hd, hc⟩
    · exact absurd h hn
    · rw [if_pos]
      intro hh
      unfold mixType at hh
      by_cases ha : ds.all (fun d => d.isDiscrete) = true
      · have := List.all_eq_true.mp ha d hd
        rw [hc] at this; cases this
      · dsimp only at hh
        rw [if_neg ha] at hh
        split_ifs at hh

/-- A window around a bounded range lists everything: the masses add up to one. -/
theorem C109_complete (ws : List ℝ) (ds : List Dist) (m : Mix) (hm : makeMix ws ds = .ok m) (hc : ∀ d ∈ ds, d.isDiscrete = true) (hd : ∀ d ∈ ds, IsMass d.pdf)
    (A B : ℤ) (hA : m.minimum = .num A) (hB : m.maximum = .num B) (hAB : A ≤ B) (hB0 : 0 ≤ B) (lo hi : ℤ) (h1 : lo ≤ A) (h2 : B ≤ hi) (hhi : (hi : ℝ) ≤ dblMax) :
    ∃ N : ℕ, m.supportSize lo hi = .ok (N : ℤ) ∧ ∃ L, m.support false N false lo hi = .ok L ∧ (L.map fun z => real z.2).sum = 1 := by
  have hw : m.window lo hi = Finset.Icc A B := by
    ext j
    simp only [Mix.window, Finset.mem_filter, Finset.mem_Icc, hA, hB, Dbl.lt, decide_eq_false_iff_not, not_lt, Int.cast_le]
    omega
  have hs := C109_size ws ds m hm A hA (.inr ⟨B, hB0, hB⟩) lo hi hhi (by rw [hw]; exact Finset.nonempty_Icc.mpr hAB)
  rw [hw] at hs
  refine ⟨_, hs, ?_⟩
  have hcard : (Finset.Icc A B).card = (B - A + 1).toNat := by rw [Int.card_Icc]; congr 1; omega
  rw [hcard]
  obtain ⟨L, hL, hlen, hget⟩ := C109_points ws ds m hm hc A hA (le_trans (by exact_mod_cast hAB.trans h2) hhi) lo hi false (B - A + 1).toNat (by omega)
  refine ⟨L, hL, ?_⟩
  obtain ⟨f, hf, hM, hW⟩ := C107_mass ws ds m hm hc hd
  have e : (L.map fun z => real z.2) = (List.range (B - A + 1).toNat).map fun i : ℕ => real (f ((A + i : ℤ) : ℝ)) := by
    apply List.ext_getElem
    · simp [hlen]
    · intro i h3 h4
      have h3' : i < L.length := by simpa using h3
      have := (hget i h3').2
      rw [if_neg (by simp), hf, max_eq_right h1] at this
      injection this with this
      rw [List.getElem_map, ← this]
      simp
  rw [e, sum_int (fun k => real (f (k : ℝ))) A, show A + ((B - A + 1).toNat : ℤ) - 1 = B by omega]
  have ht : HasSum (fun k : ℤ => real (f k) * 1) 1 := hM.total
  have hz : ∀ k : ℤ, k ∉ Finset.Icc A B → real (f k) * 1 = 0 := by
    intro k hk
    rw [Finset.mem_Icc] at hk
    rw [mul_one, hW k]
    have : ∀ d ∈ ds, d.mass k = 0 := by
      intro d hd'
      have m1 := (C107_minimum ws ds m hm).2 d hd'
      have m2 := (C107_maximum ws ds m hm).2 d hd'
      rw [hA] at m1
      rw [hB] at m2
      show real (d.pdf k) = 0
      have himp : d.impossible (k : ℝ) = true := by
        unfold Dist.impossible
        rw [Bool.or_eq_true]
        by_cases hlt : k < A
        · left
          have hlt' : (k : ℝ) < A := by exact_mod_cast hlt
          rcases minimum_cases d with h | ⟨x, h⟩
          · rw [h] at m1; simp [Dbl.lt] at m1
          · rw [h] at m1 ⊢
            have : (A : ℝ) ≤ x := by simpa [Dbl.lt] using m1
            simp only [Dbl.lt, decide_eq_true_eq]; linarith
        · right
          have hlt' : (B : ℝ) < k := by exact_mod_cast (show B < k by omega)
          rcases maximum_cases d with h | ⟨x, h⟩
          · rw [h] at m2; simp [Dbl.lt] at m2
          · rw [h] at m2 ⊢
            have : x ≤ (B : ℝ) := by simpa [Dbl.lt] using m2
            simp only [Dbl.lt, decide_eq_true_eq]; linarith
      rw [Dist.pdf, if_pos himp]; rfl
    show Weighted ws (ds.map fun d => d.mass k) = 0
    have e0 : (ds.map fun d => d.mass k) = ds.map fun _ => (0 : ℝ) := List.map_congr_left this
    rw [e0]
    unfold Weighted
    have : ∀ (ws : List ℝ) (ds : List Dist), (List.zipWith (· * ·) ws (ds.map fun _ => (0 : ℝ))).sum = 0 := by
      intro ws
      induction ws with
      | nil => simp
      | cons w ws ih => intro ds; cases ds with
        | nil => simp
        | cons d ds => simpa using ih ds
    rw [this, zero_div]
  have := (hasSum_sum_of_ne_finset_zero hz).unique ht
  simpa using this

/-- A range that ends below zero is counted up to the smallest positive number: three possible integers are counted as six. -/
theorem C109_negative_violated : ∃ d m, make .uniformDis (-5 : ℤ) (-3 : ℤ) = .ok d ∧ makeMix [1] [d] = .ok m ∧ (m.window (-10) 10).card = 3 ∧
    m.supportSize (-10 : ℤ) (10 : ℤ) = .ok 6 := by
  have h0 : make .uniformDis (-5 : ℤ) (-3 : ℤ) = .ok ⟨.uniformDis, (-5 : ℤ), (-3 : ℤ)⟩ := by simp only [make]; rw [if_neg (by norm_num)]
  have hm : makeMix [1] [⟨.uniformDis, (-5 : ℤ), (-3 : ℤ)⟩] = .ok ⟨[1], [⟨.uniformDis, (-5 : ℤ), (-3 : ℤ)⟩]⟩ := by simp [makeMix]
  refine ⟨_, _, h0, hm, ?_, ?_⟩
  all_goals
    have hA : (Mix.mk [1] [⟨.uniformDis, (-5 : ℤ), (-3 : ℤ)⟩]).minimum = .num ((-5 : ℤ) : ℝ) := by simp [Mix.minimum, Dist.minimum, Dbl.lt]
    have hB : (Mix.mk [1] [⟨.uniformDis, (-5 : ℤ), (-3 : ℤ)⟩]).maximum = .num ((-3 : ℤ) : ℝ) := by simp [Mix.maximum, Dist.maximum, Dbl.lt]
  · have hw : (Mix.mk [1] [⟨.uniformDis, (-5 : ℤ), (-3 : ℤ)⟩]).window (-10) 10 = Finset.Icc (-5) (-3) := by
      ext j
      simp only [Mix.window, Finset.mem_filter, Finset.mem_Icc, hA, hB, Dbl.lt, decide_eq_false_iff_not, not_lt, Int.cast_le]
      omega
    rw [hw]; rfl
  · have hmax : (1 : ℝ) ≤ dblMax := by
      unfold dblMax
      have h1 : (2 : ℝ) ^ (-52 : ℤ) ≤ 1 := by norm_num
      have h2 : (1 : ℝ) ≤ 2 ^ (1023 : ℤ) := one_le_zpow₀ (by norm_num) (by norm_num)
      have h3 : (1 : ℝ) ≤ 2 - 2 ^ (-52 : ℤ) := by linarith
      exact one_le_mul_of_one_le_of_one_le h3 h2
    have b1 := bounds_lo hm hA ((-10 : ℤ) : ℝ) ((10 : ℤ) : ℝ)
    have b2 := (bounds_hi hm ((-10 : ℤ) : ℝ) ((10 : ℤ) : ℝ)).1 _ hB
    have s1 : max ((-10 : ℤ) : ℝ) (min dblMax ((-5 : ℤ) : ℝ)) = ((-5 : ℤ) : ℝ) := by
      rw [min_eq_right (by push_cast; linarith)]; norm_num
    have s2 : min ((10 : ℤ) : ℝ) (max dblMin ((-3 : ℤ) : ℝ)) = dblMin := by
      have := dblMin_pos
      have := dblMin_lt
      rw [max_eq_left (by push_cast; linarith), min_eq_right (by push_cast; linarith)]
    rw [s1] at b1
    rw [s2] at b2
    unfold Mix.supportSize
    rw [b1, b2]
    simp only [subD, scaleD, addD]
    rw [show dblMin + -1 * ((-5 : ℤ) : ℝ) = ((5 : ℤ) : ℝ) + dblMin by push_cast; ring, trunc_add_int (by norm_num) dblMin_pos.le dblMin_lt]
    rfl

/-! ## Sampling -/

theorem pick_aux : ∀ (ws : List ℝ) (s un : ℝ), s ≤ un → un < s + ws.sum →
    let j := (ws.scanl (· + ·) s).tail.findIdx fun a => decide (un < a)
    j < ws.length ∧ s + (ws.take j).sum ≤ un ∧ un < s + (ws.take (j + 1)).sum
  | [], s, un, h, h' => by simp at h'; linarith
  | w :: ws, s, un, h, h' => by
    have e : ((w :: ws).scanl (· + ·) s).tail = (s + w) :: (ws.scanl (· + ·) (s + w)).tail := by
      cases ws <;> simp [List.scanl]
    rw [e, List.findIdx_cons]
    by_cases hu : un < s + w
    · simp [hu, h]
    · obtain ⟨h1, h2, h3⟩ := pick_aux ws (s + w) un (not_lt.mp hu) (by simpa [add_assoc] using h')
      simp only [hu, decide_false, cond_false]
      refine ⟨by simpa using h1, by simpa [add_assoc] using h2, by simpa [add_assoc] using h3⟩

/-- The draws that choose a component form an interval whose length is its weight. -/
theorem C109_choice (ws : List ℝ) (ds : List Dist) (m : Mix) (hm : makeMix ws ds = .ok m) (j : ℕ) (hj : j < ws.length) :
    {un : ℝ | 0 ≤ un ∧ un < ws.sum ∧ m.pick un = j} = Ico (ws.take j).sum ((ws.take j).sum + ws[j]) ∧
      volume {un : ℝ | 0 ≤ un ∧ un < ws.sum ∧ m.pick un = j} = ENNReal.ofReal ws[j] := by
  obtain ⟨rfl, G⟩ := good_of_make hm
  have hpos : ∀ w ∈ ws, 0 < w := G.pos
  have hlen : ws.length = ds.length := G.len
  have mono : ∀ i k : ℕ, i ≤ k → (ws.take i).sum ≤ (ws.take k).sum := by
    intro i k hik
    obtain ⟨r, hr⟩ := List.take_prefix_take_left (l := ws) hik
    rw [← hr, List.sum_append]
    have : 0 ≤ r.sum := List.sum_nonneg fun w hw => (hpos w (List.mem_of_mem_take (by rw [← hr]; exact List.mem_append_right _ hw))).le
    linarith
  have hstep : ∀ i (h : i < ws.length), (ws.take (i + 1)).sum = (ws.take i).sum + ws[i] := fun i h => by
    rw [List.take_succ_eq_append_getElem h, List.sum_append]; simp
  have hset : {un : ℝ | 0 ≤ un ∧ un < ws.sum ∧ (Mix.mk ws ds).pick un = j} = Ico (ws.take j).sum ((ws.take j).sum + ws[j]) := by
    ext un
    simp only [mem_setOf_eq, mem_Ico]
    have main : 0 ≤ un → un < ws.sum → (Mix.mk ws ds).pick un < ws.length ∧ (ws.take ((Mix.mk ws ds).pick un)).sum ≤ un ∧ un < (ws.take ((Mix.mk ws ds).pick un + 1)).sum := by
      intro h0 h1
      obtain ⟨a1, a2, a3⟩ := pick_aux ws 0 un h0 (by simpa using h1)
      unfold Mix.pick
      simp only
      rw [if_pos (hlen ▸ a1)]
      exact ⟨a1, by simpa using a2, by simpa using a3⟩
    constructor
    · rintro ⟨h0, h1, h2⟩
      obtain ⟨a1, a2, a3⟩ := main h0 h1
      rw [h2] at a1 a2 a3
      rw [hstep j hj] at a3
      exact ⟨a2, a3⟩
    · rintro ⟨h0, h1⟩
      have p0 : 0 ≤ un := le_trans (by simpa using mono 0 j (by omega)) h0
      have p1 : un < ws.sum := by
        rw [← hstep j hj] at h1
        refine lt_of_lt_of_le h1 ?_
        simpa using mono (j + 1) ws.length (by omega)
      refine ⟨p0, p1, ?_⟩
      obtain ⟨a1, a2, a3⟩ := main p0 p1
      generalize (Mix.mk ws ds).pick un = i at a1 a2 a3
      rcases lt_trichotomy i j with h | h | h
      · have := mono (i + 1) j (by omega); linarith
      · exact h
      · have := mono (j + 1) i (by omega)
        rw [hstep j hj] at this; linarith
  refine ⟨hset, ?_⟩
  rw [hset, Real.volume_Ico]
  congr 1; ring

/-- The hypotheses are met: a die and a Poisson count. -/
example : ∃ d e m, make .uniformDis (1 : ℤ) (6 : ℤ) = .ok d ∧ make .poisson 1 0 = .ok e ∧ makeMix [1, 2] [d, e] = .ok m ∧ m.minimum = .num ((0 : ℤ) : ℝ) ∧ m.maximum = .pinf ∧
    d.isDiscrete = true ∧ e.isDiscrete = true ∧ IsMass d.pdf ∧ IsMass e.pdf := by
  have h0 : make .uniformDis (1 : ℤ) (6 : ℤ) = .ok ⟨.uniformDis, (1 : ℤ), (6 : ℤ)⟩ := by simp only [make]; rw [if_neg (by norm_num)]
  have h1 : make .poisson 1 0 = .ok ⟨.poisson, 1, 0⟩ := by simp only [make]; rw [if_neg (by norm_num)]
  refine ⟨_, _, ⟨[1, 2], [⟨.uniformDis, (1 : ℤ), (6 : ℤ)⟩, ⟨.poisson, 1, 0⟩]⟩, h0, h1, by norm_num [makeMix], ?_, ?_, rfl, rfl, (C99_uniform 1 6 _ h0).1, (C99_poisson 1 0 (by norm_num) _ h1).1⟩
  · simp [Mix.minimum, Dist.minimum, Dbl.lt]
  · simp [Mix.maximum, Dist.maximum, Dbl.lt]

end Di
end LDT
