import Verif.Model.Descriptive
import Verif.Spec.Descriptive
import Verif.Props.MatrixStat
import Verif.Props.Array
import Verif.Lemmas.Moments
import Mathlib.Tactic.Positivity
/-!
# C79: class `Descriptive`, extremes, sums and moments
-/
namespace LDT
namespace De
open Mx Stat
open Arr (Val Ext ltMin gtMax toExt sqrtV pow15V csum shift extremeLoop)

/-! ## Extremes -/

section
variable {K : Type} [Field K] [LinearOrder K]

theorem minFold (xs : List (Val K)) : ∀ (s : Ext K) (i : Int) (n : Nat) (j : Int),
    foldPos minStep s xs i = (extremeLoop ltMin false n xs (s, j)).1 := by
  induction xs with
  | nil => intro s i n j; rfl
  | cons x t ih =>
    intro s i n j
    simp only [foldPos, extremeLoop, minStep]
    by_cases h : ltMin x s
    · simp only [h, if_true, Bool.false_eq_true, false_and, if_false]; exact ih _ _ _ _
    · simp only [h, Bool.false_eq_true, false_and, if_false]; exact ih _ _ _ _

theorem maxFold (xs : List (Val K)) : ∀ (s : Ext K) (i : Int) (n : Nat) (j : Int),
    foldPos maxStep s xs i = (extremeLoop gtMax false n xs (s, j)).1 := by
  induction xs with
  | nil => intro s i n j; rfl
  | cons x t ih =>
    intro s i n j
    simp only [foldPos, extremeLoop, maxStep]
    by_cases h : gtMax x s
    · simp only [h, if_true, Bool.false_eq_true, false_and, if_false]; exact ih _ _ _ _
    · simp only [h, Bool.false_eq_true, false_and, if_false]; exact ih _ _ _ _

theorem minimum_eq {m : Mat (Val K)} {xs : List (Val K)} (h : IsCells m xs) :
    minimum m = .ok (Arr.minIndex false xs).1 := by
  unfold minimum Arr.minIndex
  rw [← h.len]
  by_cases h0 : xs.length = 0
  · rw [if_pos (by omega), if_pos h0]
  · rw [if_neg (by omega), if_neg h0, scanCells_eq m.mem 0 _ _ xs (isCells_read h), minFold]

theorem maximum_eq {m : Mat (Val K)} {xs : List (Val K)} (h : IsCells m xs) :
    maximum m = .ok (Arr.maxIndex false xs).1 := by
  unfold maximum Arr.maxIndex
  rw [← h.len]
  by_cases h0 : xs.length = 0
  · rw [if_pos (by omega), if_pos h0]
  · rw [if_neg (by omega), if_neg h0, scanCells_eq m.mem 0 _ _ xs (isCells_read h), maxFold]

theorem obs_of_mem {xs : List (Val K)} {x : K} (h : some x ∈ xs) : ∃ i, Arr.Obs xs i := by
  obtain ⟨i, hi⟩ := List.mem_iff_getElem?.1 h
  exact ⟨i, x, hi⟩

/-- **C79**, the extremes: with at least one number among the cells, the least and the greatest of the numbers; NaNs are
skipped. -/
theorem C79_extremes (m : Mat (Val K)) (xs : List (Val K)) (h : IsCells m xs) (hn : ∃ x, some x ∈ xs) :
    (∃ a, minimum m = .ok (.val a) ∧ some a ∈ xs ∧ ∀ y, some y ∈ xs → a ≤ y) ∧
    (∃ b, maximum m = .ok (.val b) ∧ some b ∈ xs ∧ ∀ y, some y ∈ xs → y ≤ b) := by
  obtain ⟨x, hx⟩ := hn
  constructor
  · obtain ⟨a, i, e, hi, hl, -⟩ := Arr.C40_min false xs (obs_of_mem hx)
    exact ⟨a, by rw [minimum_eq h, e], List.mem_of_getElem? hi, hl⟩
  · obtain ⟨a, i, e, hi, hl, -⟩ := Arr.C40_max false xs (obs_of_mem hx)
    exact ⟨a, by rw [maximum_eq h, e], List.mem_of_getElem? hi, hl⟩

/-- **C79**, the extremes without a number: NaN for no cell, plus and minus infinity for NaNs only. -/
theorem C79_extremes_none (m : Mat (Val K)) (n : Nat) (h : IsCells m (List.replicate n none)) :
    minimum m = .ok (if n = 0 then .nan else .posInf) ∧ maximum m = .ok (if n = 0 then .nan else .negInf) := by
  obtain ⟨e1, e2⟩ := Arr.C40_no_observation false (List.replicate n (none : Val K)) (by
    intro v hv; exact (List.mem_replicate.1 hv).2)
  rw [minimum_eq h, maximum_eq h, e1, e2]
  by_cases h0 : n = 0
  · subst h0; exact ⟨rfl, rfl⟩
  · have : List.replicate n (none : Val K) ≠ [] := by simpa using h0
    simp only [if_neg this, if_neg h0, and_self]

/-- **C79**, the extremes of sorted numbers are found at the ends, without a look at the other cells. -/
theorem C79_extremes_sorted (m : Mat (Val K)) (xs : List K) (h : IsCells m (xs.map some)) (hs : xs.Pairwise (· ≤ ·)) :
    minimumSorted m = minimum m ∧ maximumSorted m = maximum m := by
  by_cases h0 : xs = []
  · subst h0
    have hl : m.length = 0 := by rw [← h.len]; rfl
    simp [minimumSorted, minimum, maximumSorted, maximum, hl]
  have hpos : 0 < xs.length := List.length_pos_iff.2 h0
  have hl : m.length ≠ 0 := by rw [← h.len, List.length_map]; omega
  obtain ⟨⟨a, ea, ma, la⟩, b, eb, mb, lb⟩ := C79_extremes m _ h ⟨xs[0], by simp⟩
  have sorted : ∀ i j (hi : i < xs.length) (hj : j < xs.length), i ≤ j → xs[i] ≤ xs[j] := by
    intro i j hi hj hij
    rcases Nat.lt_or_ge i j with h | h
    · exact List.pairwise_iff_getElem.1 hs i j hi hj h
    · have : i = j := by omega
      subst this; exact le_refl _
  constructor
  · rw [ea]
    unfold minimumSorted
    rw [if_neg hl]
    have := isCells_read h 0 (some xs[0]) (by simp [hpos])
    rw [show (0 : Int) + ((0 : Nat) : Int) = 0 from rfl] at this
    rw [this, Outcome.ok_bind]
    simp only [toExt, Outcome.pure_eq, Outcome.ok.injEq, Ext.val.injEq]
    apply le_antisymm
    · obtain ⟨i, hi, e⟩ := List.mem_iff_getElem.1 ma
      simp only [List.getElem_map, Option.some.injEq] at e
      rw [← e]; exact sorted 0 i hpos (by simpa using hi) (Nat.zero_le _)
    · exact la _ (by simp)
  · rw [eb]
    unfold maximumSorted
    rw [if_neg hl]
    have := isCells_read h (xs.length - 1) (some xs[xs.length - 1]) (by simp [hpos])
    rw [zero_add] at this
    rw [show m.length - 1 = ((xs.length - 1 : Nat) : Int) by rw [← h.len, List.length_map]; omega, this, Outcome.ok_bind]
    simp only [toExt, Outcome.pure_eq, Outcome.ok.injEq, Ext.val.injEq]
    apply le_antisymm
    · exact lb _ (by simp)
    · obtain ⟨i, hi, e⟩ := List.mem_iff_getElem.1 mb
      simp only [List.getElem_map, Option.some.injEq] at e
      rw [← e]; simp only [List.length_map] at hi; exact sorted i _ hi (by omega) (by omega)

end

/-! ## Sums -/

section
variable {K : Type} [Field K] [DecidableEq K]

theorem sumFold (l : List K) : ∀ (s : K) (i : Int),
    foldPos (fun s _ d => vadd s d) (some s) (l.map some) i = some (s + l.sum) := by
  induction l with
  | nil => intro s i; simp [foldPos]
  | cons x t ih => intro s i; simp only [List.map_cons, foldPos, vadd_some, ih, List.sum_cons, add_assoc]

/-- **C79**, the sum. -/
theorem C79_sum (m : Mat (Val K)) (l : List K) (h : IsCells m (l.map some)) : sum m = .ok (some l.sum) := by
  unfold sum Mat.sum
  rw [← h.len, scanCells_eq m.mem 0 _ _ _ (isCells_read h), sumFold, zero_add]

theorem squareFold (l : List K) : ∀ (s : K) (i : Int),
    foldPos squareStep (some s) (l.map some) i = some (s + (l.map (fun x => x ^ 2)).sum) := by
  induction l with
  | nil => intro s i; simp [foldPos]
  | cons x t ih =>
    intro s i
    simp only [List.map_cons, foldPos, squareStep, vadd_some, vmul_some, ih, List.sum_cons]
    congr 1; ring

variable [CharZero K]

theorem castInt_ne (n : Nat) : (((n : Int) + 1 : Int) : K) ≠ 0 := by
  push_cast; exact Nat.cast_add_one_ne_zero n

theorem mvFold (l : List K) :
    foldPos mvStep (some 0, some 0) (l.map some) 0 = (some (mean l), some (sqSum l)) := by
  induction l using List.reverseRecOn with
  | nil => simp [foldPos, mean_nil, sqSum_nil]
  | append_singleton l x ih =>
    rw [List.map_append, List.map_singleton, foldPos_snoc, ih]
    have h : (l.length : K) + 1 ≠ 0 := Nat.cast_add_one_ne_zero _
    unfold mvStep
    simp only [List.length_map, vsub_some, vint, zero_add, vdiv_some, if_neg (castInt_ne (K := K) l.length), vadd_some,
      vmul_some, Prod.mk.injEq, Option.some.injEq, mean_snoc, sqSum_snoc]
    push_cast
    refine ⟨rfl, ?_⟩
    field_simp
    try ring

theorem centralFold (l : List K) :
    foldPos centralStep (0, some 0, some 0) (l.map some) 0 = ((l.length : Int), some (mean l), some (sqSum l)) := by
  induction l using List.reverseRecOn with
  | nil => simp [foldPos, mean_nil, sqSum_nil]
  | append_singleton l x ih =>
    rw [List.map_append, List.map_singleton, foldPos_snoc, ih]
    have h : (l.length : K) + 1 ≠ 0 := Nat.cast_add_one_ne_zero _
    unfold centralStep
    simp only [vsub_some, vint, vdiv_some, if_neg (castInt_ne (K := K) l.length), vadd_some,
      vmul_some, Prod.mk.injEq, Option.some.injEq, mean_snoc, sqSum_snoc]
    push_cast
    refine ⟨by simp, rfl, ?_⟩
    field_simp
    try ring

/-- **C79**, the sum of squares, of the numbers or of their deviations from the mean. -/
theorem C79_squares (m : Mat (Val K)) (l : List K) (h : IsCells m (l.map some)) :
    sumOfSquares m false = .ok (some (l.map (fun x => x ^ 2)).sum) ∧
    sumOfSquares m true = .ok (some (l.map (fun x => (x - mean l) ^ 2)).sum) := by
  unfold sumOfSquares
  rw [if_pos rfl, if_neg (by simp)]
  rw [← h.len, scanCells_eq m.mem 0 _ _ _ (isCells_read h), scanCells_eq m.mem 0 _ _ _ (isCells_read h), squareFold,
    centralFold, zero_add]
  exact ⟨rfl, rfl⟩

/-- **C79**, the mean of `MeanVariance`, and NaN as the variance of one number. -/
theorem C79_mean_partial (m : Mat (Val K)) (l : List K) (h : IsCells m (l.map some)) (sample : Bool) :
    (l = [] → meanVariance m sample = .ok (none, none)) ∧
    (∀ x, l = [x] → meanVariance m sample = .ok (some x, none)) ∧
    (2 ≤ l.length → ∃ v, meanVariance m sample = .ok (some (mean l), v)) := by
  have hl : m.length = l.length := by rw [← h.len, List.length_map]
  refine ⟨?_, ?_, ?_⟩
  · rintro rfl; unfold meanVariance; rw [if_pos (by rw [hl]; rfl)]
  · rintro x rfl
    unfold meanVariance
    rw [if_neg (by rw [hl]; simp), if_pos (by rw [hl]; rfl), ← h.len, scanCells_eq m.mem 0 _ _ _ (isCells_read h)]
    simp [foldPos, meanStep, vint, vdiv_some]
  · intro h2
    unfold meanVariance
    rw [if_neg (by omega), if_neg (by omega), ← h.len, scanCells_eq m.mem 0 _ _ _ (isCells_read h), mvFold]
    exact ⟨_, rfl⟩

/-- **C79 is violated by the variance of `MeanVariance`**: the two divisors are swapped. What is documented as the statistic
of a sample divides by `n`, the other one by `n - 1`. -/
theorem C79_violated_sample (m : Mat (Val K)) (l : List K) (h : IsCells m (l.map some)) (h2 : 2 ≤ l.length) :
    meanVariance m true = .ok (some (mean l), some (sqSum l / l.length)) ∧
    meanVariance m false = .ok (some (mean l), some (sqSum l / (l.length - 1))) := by
  have hl : m.length = l.length := by rw [← h.len, List.length_map]
  have n0 : (l.length : K) ≠ 0 := by rw [Nat.cast_ne_zero]; omega
  have n1 : (l.length : K) - 1 ≠ 0 := by
    intro e
    have : ((l.length : Nat) : K) = ((1 : Nat) : K) := by rw [Nat.cast_one]; linear_combination e
    have := Nat.cast_injective this
    omega
  unfold meanVariance
  simp only [hl]
  rw [if_neg (by omega), if_neg (by omega)]
  rw [show (l.length : Int) = ((l.map some).length : Int) by simp, scanCells_eq m.mem 0 _ _ _ (isCells_read h), mvFold]
  have l0 : l ≠ [] := by rintro rfl; simp at h2
  have l1 : l.length ≠ 1 := by omega
  simp [vint, vdiv_some, n0, n1, l0, l1]

/-- The two divisors give different results unless all the numbers are equal. -/
theorem C79_violated_differs (m : Mat (Val K)) (l : List K) (h : IsCells m (l.map some)) (h2 : 2 ≤ l.length)
    (hs : sqSum l ≠ 0) : meanVariance m true ≠ .ok (some (mean l), some (sqSum l / (l.length - 1))) := by
  rw [(C79_violated_sample m l h h2).1]
  have n0 : (l.length : K) ≠ 0 := by rw [Nat.cast_ne_zero]; omega
  have n1 : (l.length : K) - 1 ≠ 0 := by
    intro e
    have : ((l.length : Nat) : K) = ((1 : Nat) : K) := by rw [Nat.cast_one]; linear_combination e
    have := Nat.cast_injective this
    omega
  intro e
  simp only [Outcome.ok.injEq, Prod.mk.injEq, Option.some.injEq, true_and] at e
  rw [div_eq_div_iff n0 n1] at e
  have := mul_left_cancel₀ hs e
  exact absurd (by linear_combination -this : (1 : K) = 0) one_ne_zero

/-! ## Four moments -/

theorem csum_unit (k : Nat) (c : K) (l : List K) :
    csum k c (l.map (fun x => (x, (1 : K)))) = (l.map (fun x => (x - c) ^ k)).sum := by
  unfold csum
  rw [List.map_map]
  congr 1
  apply List.map_congr_left
  intro x _; simp

theorem unit_sums (l : List K) :
    ((l.map (fun x => (x, (1 : K)))).map (fun p => p.2 * p.1)).sum = l.sum ∧
      Arr.wsum (l.map (fun x => (x, (1 : K)))) = l.length := by
  induction l with
  | nil => simp [Arr.wsum]
  | cons x t ih =>
    unfold Arr.wsum at *
    simp only [List.map_cons, List.sum_cons, one_mul, List.length_cons]
    rw [ih.1, ih.2]; push_cast; exact ⟨rfl, by ring⟩

/-- Central sums after one more number. -/
theorem central_snoc (l : List K) (x : K) :
    let s := (x - mean l) / ((l.length : K) + 1)
    central 2 (l ++ [x]) = central 2 l + (x - mean l) * s * l.length ∧
    central 3 (l ++ [x]) = central 3 l + (x - mean l) * s * l.length * s * (l.length - 1) - 3 * s * central 2 l ∧
    central 4 (l ++ [x]) = central 4 l + (x - mean l) * s * l.length * s ^ 2 *
      (((l.length : K) + 1) ^ 2 - 3 * (l.length + 1) + 3) + 6 * s ^ 2 * central 2 l - 4 * s * central 3 l := by
  intro s
  have h : (l.length : K) + 1 ≠ 0 := Nat.cast_add_one_ne_zero _
  have hd : x - mean l = s * ((l.length : K) + 1) := by simp only [s]; field_simp
  obtain ⟨s1, s2, s3, s4⟩ := shift (l.map (fun x => (x, (1 : K)))) (mean l + s) (mean l)
  have z : csum 1 (mean l) (l.map (fun x => (x, (1 : K)))) = 0 := by
    rw [(shift (l.map (fun x => (x, (1 : K)))) (mean l) (mean l)).1, (unit_sums l).1, (unit_sums l).2, sum_eq l]; ring
  rw [z] at s2 s3 s4
  rw [(unit_sums l).2] at s2 s3 s4
  simp only [csum_unit] at s2 s3 s4
  have em : mean (l ++ [x]) = mean l + s := mean_snoc l x
  unfold central
  rw [em]
  simp only [List.map_append, List.sum_append, List.map_singleton, List.sum_singleton]
  rw [s2, s3, s4]
  have hx : x - (mean l + s) = s * l.length := by linear_combination hd
  rw [hx, hd]
  refine ⟨by ring, by ring, by ring⟩

theorem central_nil (k : Nat) : central k ([] : List K) = 0 := by simp [central]

theorem run4Fold (l : List K) :
    foldPos run4Step ⟨0, some 0, some 0, some 0, some 0⟩ (l.map some) 0 =
      ⟨l.length, some (mean l), some (central 2 l), some (central 3 l), some (central 4 l)⟩ := by
  induction l using List.reverseRecOn with
  | nil => simp [foldPos, mean_nil, central_nil]
  | append_singleton l x ih =>
    rw [List.map_append, List.map_singleton, foldPos_snoc, ih]
    obtain ⟨c2, c3, c4⟩ := central_snoc l x
    unfold run4Step
    simp only [vsub_some, vint, vdiv_some, if_neg (castInt_ne (K := K) l.length), vadd_some,
      vmul_some, Run4.mk.injEq, Option.some.injEq, mean_snoc, c2, c3, c4]
    push_cast
    refine ⟨by simp, rfl, by ring, by ring, by ring⟩

end

theorem none_of_fold {σ : Type} (bad : σ → Prop) (step : σ → Int → Val ℝ → σ) (hk : ∀ s i d, bad s → bad (step s i d))
    (hn : ∀ s i, bad (step s i none)) (xs : List (Val ℝ)) : ∀ (s : σ) (i : Int), (bad s ∨ none ∈ xs) →
    bad (foldPos step s xs i) := by
  induction xs with
  | nil => intro s i h; simpa [foldPos] using h
  | cons x t ih =>
    intro s i h
    simp only [foldPos]
    apply ih
    rcases h with h | h
    · exact .inl (hk _ _ _ h)
    · rcases List.mem_cons.1 h with h | h
      · left; rw [← h]; exact hn _ _
      · exact .inr h

theorem central_two (l : List ℝ) : central 2 l = sqSum l := rfl

theorem fourMoments_some (m : Mat (Val ℝ)) (l : List ℝ) (h : IsCells m (l.map some)) (hne : l ≠ []) (sample : Bool) :
    fourMoments m sample = .ok (some (mean l),
      (if 1 < l.length then (if sample then some (sqSum l / (l.length - 1)) else some (sqSum l / l.length)) else none),
      (if 2 < l.length then skewness sample l.length (some (central 2 l)) (some (central 3 l)) else none),
      (if 3 < l.length then kurtosis sample l.length (some (central 2 l)) (some (central 4 l)) else none)) := by
  have hl : m.length = l.length := by rw [← h.len, List.length_map]
  have hp : 0 < l.length := List.length_pos_iff.2 hne
  unfold fourMoments run4
  rw [if_neg (by omega), ← h.len, scanCells_eq m.mem 0 _ _ _ (isCells_read h), run4Fold, Outcome.ok_bind]
  simp only [Outcome.pure_eq, Outcome.ok.injEq, Prod.mk.injEq, true_and, gt_iff_lt]
  refine ⟨?_, ?_, ?_⟩
  · by_cases h1 : 1 < l.length
    · rw [if_pos (by omega), if_pos h1]
      have n0 : (l.length : ℝ) ≠ 0 := by rw [Nat.cast_ne_zero]; omega
      have n1 : (l.length : ℝ) - 1 ≠ 0 := by
        have : (1 : ℝ) < l.length := by exact_mod_cast h1
        linarith
      cases sample <;> simp [vint, vdiv_some, n0, n1, central_two]
    · rw [if_neg (by omega), if_neg h1]
  · by_cases h2 : 2 < l.length
    · rw [if_pos (by omega), if_pos h2]
    · rw [if_neg (by omega), if_neg h2]
  · by_cases h3 : 3 < l.length
    · rw [if_pos (by omega), if_pos h3]
    · rw [if_neg (by omega), if_neg h3]

theorem central_two_nonneg (l : List ℝ) : 0 ≤ central 2 l := by
  unfold central
  apply List.sum_nonneg
  intro y hy
  obtain ⟨x, -, rfl⟩ := List.mem_map.1 hy
  positivity

/-- **C79**, the four moments of at least four numbers that are not all equal, for a population. -/
theorem C79_moments_population (m : Mat (Val ℝ)) (l : List ℝ) (h : IsCells m (l.map some)) (h4 : 4 ≤ l.length)
    (hv : central 2 l ≠ 0) :
    fourMoments m false = .ok (some (mean l), some (central 2 l / l.length), some (popSkew l), some (popKurt l)) := by
  have hne : l ≠ [] := by rintro rfl; simp at h4
  have n4 : (4 : ℝ) ≤ l.length := by exact_mod_cast h4
  have v0 : 0 < central 2 l := lt_of_le_of_ne (central_two_nonneg l) (Ne.symm hv)
  rw [fourMoments_some m l h hne]
  simp only [show 1 < l.length by omega, show 2 < l.length by omega, show 3 < l.length by omega, if_true]
  simp only [skewness, kurtosis, Bool.false_eq_true, if_false, vint, sqrtV, pow15V, Option.bind_some]
  push_cast
  rw [if_neg (by linarith), if_neg (by linarith)]
  have p0 : (central 2 l) ^ (3 / 2 : ℝ) ≠ 0 := (Real.rpow_pos_of_pos v0 _).ne'
  have q0 : central 2 l * central 2 l ≠ 0 := by positivity
  simp only [vmul_some, vdiv_some, if_neg p0, if_neg q0, vsub_some]
  have n0 : (0 : ℝ) < l.length := by linarith
  have e1 : (central 2 l / l.length) ^ (3 / 2 : ℝ) = central 2 l ^ (3 / 2 : ℝ) / (l.length : ℝ) ^ (3 / 2 : ℝ) :=
    Real.div_rpow v0.le n0.le _
  have e2 : (l.length : ℝ) ^ (3 / 2 : ℝ) = l.length * Real.sqrt l.length := by
    rw [Real.sqrt_eq_rpow, ← Real.rpow_one_add' n0.le (by norm_num)]; norm_num
  unfold popSkew popKurt
  rw [e1, e2]
  have s0 : 0 < Real.sqrt (l.length : ℝ) := Real.sqrt_pos.2 n0
  congr 4
  · congr 1; field_simp
  · congr 1; field_simp

theorem sampleSkew_eq (l : List ℝ) (h4 : 3 ≤ l.length) (hv : central 2 l ≠ 0) :
    sampleSkew l = (l.length * central 3 l * Real.sqrt (central 2 l / (l.length - 1)) /
      (central 2 l * central 2 l * (l.length - 2))) * (l.length - 1) := by
  have n4 : (3 : ℝ) ≤ l.length := by exact_mod_cast h4
  have v0 : 0 < central 2 l := lt_of_le_of_ne (central_two_nonneg l) (Ne.symm hv)
  have d1 : (0 : ℝ) < l.length - 1 := by linarith
  have d2 : (0 : ℝ) < l.length - 2 := by linarith
  unfold sampleSkew
  generalize hs : Real.sqrt (central 2 l / (l.length - 1)) = s
  have s0 : 0 < s := by rw [← hs]; exact Real.sqrt_pos.2 (by positivity)
  have sq : s ^ 2 = central 2 l / (l.length - 1) := by rw [← hs]; exact Real.sq_sqrt (by positivity)
  have e : (l.map (fun x => ((x - mean l) / s) ^ 3)).sum = central 3 l / s ^ 3 := by
    unfold central
    rw [div_eq_mul_inv, ← List.sum_map_mul_right]
    congr 1
    apply List.map_congr_left
    intro x _
    rw [div_pow, div_eq_mul_inv]
  rw [e]
  have ec : central 2 l = s ^ 2 * (l.length - 1) := by rw [sq]; field_simp
  rw [ec]
  field_simp

/-- **C79**, the four moments of at least four numbers that are not all equal, for a sample. -/
theorem C79_moments_sample (m : Mat (Val ℝ)) (l : List ℝ) (h : IsCells m (l.map some)) (h4 : 4 ≤ l.length)
    (hv : central 2 l ≠ 0) :
    fourMoments m true =
      .ok (some (mean l), some (central 2 l / (l.length - 1)), some (sampleSkew l), some (sampleKurt l)) := by
  have hne : l ≠ [] := by rintro rfl; simp at h4
  have n4 : (4 : ℝ) ≤ l.length := by exact_mod_cast h4
  have v0 : 0 < central 2 l := lt_of_le_of_ne (central_two_nonneg l) (Ne.symm hv)
  rw [fourMoments_some m l h hne]
  simp only [show 1 < l.length by omega, show 2 < l.length by omega, show 3 < l.length by omega, if_true]
  rw [sampleSkew_eq l (by omega) hv]
  have d1 : (0 : ℝ) < l.length - 1 := by linarith
  have d2 : (0 : ℝ) < l.length - 2 := by linarith
  have d3 : (0 : ℝ) < l.length - 3 := by linarith
  have q0 : central 2 l * central 2 l ≠ 0 := by positivity
  simp only [skewness, kurtosis, if_true, vint]
  push_cast
  simp only [vdiv_some, if_neg d1.ne', Option.bind_some, sqrtV]
  rw [if_neg (not_lt.2 (by positivity))]
  simp only [vmul_some, vdiv_some, vsub_some]
  rw [if_neg (mul_ne_zero q0 d2.ne'), if_neg q0, if_neg (mul_ne_zero d2.ne' d3.ne'), if_neg (by linarith)]
  simp only [vmul_some, vsub_some, vadd_some]
  unfold sampleKurt popKurt
  congr 4
  congr 1
  have : (0 : ℝ) < l.length := by linarith
  field_simp
  ring

/-- **C79**, few numbers: NaN for the moments that are not defined. -/
theorem C79_moments_few (m : Mat (Val ℝ)) (l : List ℝ) (h : IsCells m (l.map some)) (sample : Bool) :
    (l = [] → fourMoments m sample = .ok (none, none, none, none)) ∧
    (l.length = 1 → fourMoments m sample = .ok (some (mean l), none, none, none)) ∧
    (l.length = 2 → ∃ v, fourMoments m sample = .ok (some (mean l), some v, none, none)) ∧
    (l.length = 3 → ∃ v s, fourMoments m sample = .ok (some (mean l), some v, s, none)) := by
  refine ⟨?_, ?_, ?_, ?_⟩
  · rintro rfl
    unfold fourMoments
    rw [if_pos (by rw [← h.len]; rfl)]
  · intro h1
    rw [fourMoments_some m l h (by rintro rfl; simp at h1)]
    simp [h1]
  · intro h1
    rw [fourMoments_some m l h (by rintro rfl; simp at h1)]
    cases sample <;> simp [h1]
  · intro h1
    rw [fourMoments_some m l h (by rintro rfl; simp at h1)]
    cases sample <;> simp [h1]

theorem vdiv_zero (a : Val ℝ) : vdiv a (some 0) = none := by
  cases a
  · rfl
  · simp [vdiv_some]

/-- **C79**, equal numbers: neither the skewness nor the kurtosis is a number. -/
theorem C79_moments_constant (m : Mat (Val ℝ)) (l : List ℝ) (h : IsCells m (l.map some)) (hne : l ≠ []) (sample : Bool)
    (hv : central 2 l = 0) :
    fourMoments m sample = .ok (some (mean l), if 1 < l.length then some 0 else none, none, none) := by
  rw [fourMoments_some m l h hne, ← central_two, hv]
  simp only [Outcome.ok.injEq, Prod.mk.injEq, true_and]
  refine ⟨?_, ?_, ?_⟩
  · cases sample <;> simp
  · cases sample
    · simp [skewness, pow15V, sqrtV, vint, vdiv_zero]
    · simp [skewness, sqrtV, vint, vdiv_zero]
  · cases sample <;> simp [kurtosis, vint, vdiv_some]

/-- **C79**, a NaN anywhere makes every moment NaN. -/
theorem C79_moments_nan (m : Mat (Val ℝ)) (xs : List (Val ℝ)) (h : IsCells m xs) (hn : none ∈ xs) (sample : Bool) :
    fourMoments m sample = .ok (none, none, none, none) := by
  have hp : 0 < xs.length := List.length_pos_iff.2 (by rintro rfl; simp at hn)
  unfold fourMoments run4
  rw [← h.len, if_neg (by omega), scanCells_eq m.mem 0 _ _ _ (isCells_read h), Outcome.ok_bind]
  have hb := none_of_fold (fun r : Run4 ℝ => r.mean = none ∧ r.m2 = none ∧ r.m3 = none ∧ r.m4 = none) run4Step
    (by
      rintro s i d ⟨a, b, c, e⟩
      unfold run4Step
      simp [a, b, c, e])
    (by
      intro s i
      unfold run4Step
      simp) xs ⟨0, some 0, some 0, some 0, some 0⟩ 0 (.inr hn)
  generalize foldPos run4Step ⟨0, some 0, some 0, some 0, some 0⟩ xs 0 = r at hb
  obtain ⟨a, b, c, e⟩ := hb
  simp only [a, b, c, e, Outcome.pure_eq, Outcome.ok.injEq, Prod.mk.injEq, true_and]
  refine ⟨?_, ?_, ?_⟩
  · cases sample <;> simp
  · split_ifs
    · cases sample <;> simp [skewness]
    · rfl
  · split_ifs
    · cases sample <;> simp [kurtosis]
    · rfl

/-! ## Non-vacuity -/

/-- Four numbers. -/
def exVec {K : Type} (l : List (Val K)) : Mat (Val K) := { rows := l.length, cols := 1, data := some l }

theorem exVec_cells {K : Type} (l : List (Val K)) : IsCells (exVec l) l where
  len := by simp [exVec, Mat.length]
  cell := by
    intro k x hk
    have hlt : k < l.length := (List.getElem?_eq_some_iff.1 hk).1
    unfold Mat.getLin
    rw [if_neg (by simp [exVec]), if_neg (by simp [exVec, Mat.length]; omega)]
    unfold Mx.read
    simp [exVec, Mat.mem, hk]

example : minimum (exVec [some (3 : ℚ), none, some 1]) = .ok (.val 1) ∧
    maximum (exVec [some (3 : ℚ), none, some 1]) = .ok (.val 3) := by decide +kernel

example : meanVariance (exVec [some (3 : ℚ), some 1]) true = .ok (some 2, some 1) ∧
    meanVariance (exVec [some (3 : ℚ), some 1]) false = .ok (some 2, some 2) := by decide +kernel

example : ∃ v s k, fourMoments (exVec (([1, 2, 3, 6] : List ℝ).map some)) true = .ok (some 3, some v, some s, some k) := by
  have := C79_moments_sample _ ([1, 2, 3, 6] : List ℝ) (exVec_cells _) (by simp) (by norm_num [central, mean])
  rw [show mean ([1, 2, 3, 6] : List ℝ) = 3 by norm_num [mean]] at this
  exact ⟨_, _, _, this⟩

end De
end LDT
