import Verif.Model.RStat
import Verif.Props.Moments
/-!
# C145: combining statistics of samples, called from R
-/
namespace LDT
namespace RStat
open Arr

/-- The list contains the weighted mean, variance, skewness, excess kurtosis, total weight and number of observations of the
sample of pairs (value, weight). -/
structure IsStats (s : Stats4) (l : List (ℝ × ℝ)) : Prop where
  mean : s.mean = some (wmean l)
  variance : s.variance = some (wcentral 2 l / wsum l)
  skewness : s.skewness = some ((wcentral 3 l / wsum l) / (wcentral 2 l / wsum l) ^ (3 / 2 : ℝ))
  kurtosis : s.kurtosis = some ((wcentral 4 l / wsum l) / (wcentral 2 l / wsum l) ^ 2 - 3)
  weight : s.weight = wsum l
  count : s.count = l.length

/-- A sample of positive weights that is not constant. -/
structure Varies (l : List (ℝ × ℝ)) : Prop where
  weights : ∀ p ∈ l, 0 < p.2
  differ : ∃ p ∈ l, ∃ q ∈ l, p.1 ≠ q.1

theorem wcentral_pos (l : List (ℝ × ℝ)) (h : Varies l) : 0 < wcentral 2 l := by
  obtain ⟨hw, p, hp, q, hq, hpq⟩ := h
  have h0 : ∀ x ∈ l.map (fun p => p.2 * (p.1 - wmean l) ^ 2), 0 ≤ x := by
    intro x hx
    obtain ⟨r, hr, rfl⟩ := List.mem_map.1 hx
    exact mul_nonneg (hw r hr).le (sq_nonneg _)
  have key : ∀ r ∈ l, r.1 ≠ wmean l → 0 < wcentral 2 l := by
    intro r hr hne
    have h1 : r.2 * (r.1 - wmean l) ^ 2 ≤ wcentral 2 l :=
      List.single_le_sum h0 _ (List.mem_map.2 ⟨r, hr, rfl⟩)
    exact lt_of_lt_of_le (mul_pos (hw r hr) (pow_pos_of_ne (sub_ne_zero.2 hne))) h1
  by_cases hpm : p.1 = wmean l
  · exact key q hq (fun e => hpq (hpm.trans e.symm))
  · exact key p hp hpm
where
  pow_pos_of_ne {x : ℝ} (h : x ≠ 0) : 0 < x ^ 2 := by positivity

theorem varies_ne (l : List (ℝ × ℝ)) (h : Varies l) : l ≠ [] := by
  obtain ⟨_, p, hp, _⟩ := h
  rintro rfl
  cases hp

theorem statsOf_run (l : List (ℝ × ℝ)) (h : Varies l) : IsStats (statsOf (run l)) l := by
  have hne := varies_ne l h
  have hv := wcentral_pos l h
  obtain ⟨m, m1, m2, m3, -⟩ := run_rep l h.weights
  have hs : (run l).sumW = wsum l := m2.hw
  have hw : (run l).sumW ≠ 0 := by rw [hs]; exact (wsum_pos l hne h.weights).ne'
  rw [rep_unique m2 hw] at m1
  obtain ⟨sk, ku⟩ := C15_skewness_kurtosis l hne h.weights hv
  refine ⟨?_, ?_, sk, ku, hs, m3⟩
  · show (run l).getMean = _
    unfold RM.getMean; rw [if_neg hw, m1]; rfl
  · show (run l).getVariance = _
    unfold RM.getVariance; rw [if_neg hw, m1, hs]; rfl

theorem isStats_unique (s : Stats4) (l : List (ℝ × ℝ)) (hs : IsStats s l) (h : Varies l) : s = statsOf (run l) := by
  have e := statsOf_run l h
  cases s
  obtain ⟨a1, a2, a3, a4, a5, a6⟩ := hs
  obtain ⟨b1, b2, b3, b4, b5, b6⟩ := e
  simp only at a1 a2 a3 a4 a5 a6
  rw [a1, a2, a3, a4, a5, a6, ← b1, ← b2, ← b3, ← b4, ← b5, ← b6]

/-- **C145**. From the statistics of two samples R gets the statistics of the two samples put together. Partial: neither sample
may be constant (`C145_violated_constant`). -/
theorem C145_pooled_partial (a b : Stats4) (xs ys : List (ℝ × ℝ)) (ha : IsStats a xs) (hb : IsStats b ys) (hx : Varies xs)
    (hy : Varies ys) : IsStats (combineStats4 a b) (xs ++ ys) := by
  have hxy : Varies (xs ++ ys) := by
    obtain ⟨hw, p, hp, q, hq, hpq⟩ := hx
    refine ⟨fun r hr => ?_, p, by simp [hp], q, by simp [hq], hpq⟩
    rcases List.mem_append.1 hr with h | h
    · exact hw r h
    · exact hy.weights r h
  have ea := isStats_unique a xs ha hx
  have eb := isStats_unique b ys hb hy
  have e1 : addStats RM.empty a = run xs := by
    have := C16_merge_statistics_partial [] xs (varies_ne xs hx) (by simp) hx.weights (wcentral_pos xs hx)
    rw [List.append_nil] at this
    rw [ea]
    exact this
  have e2 : addStats (run xs) b = run (ys ++ xs) := by
    rw [eb]
    exact C16_merge_statistics_partial xs ys (varies_ne ys hy) hx.weights hy.weights (wcentral_pos ys hy)
  have e3 : run (ys ++ xs) = run (xs ++ ys) :=
    C16_order _ _ List.perm_append_comm (fun p hp => by
      rcases List.mem_append.1 hp with h | h
      · exact hy.weights p h
      · exact hx.weights p h)
  show IsStats (statsOf (addStats (addStats RM.empty a) b)) _
  rw [e1, e2, e3]
  exact statsOf_run _ hxy

/-- **C145**. The order of the two lists makes no difference. -/
theorem C145_order_partial (a b : Stats4) (xs ys : List (ℝ × ℝ)) (ha : IsStats a xs) (hb : IsStats b ys) (hx : Varies xs)
    (hy : Varies ys) : combineStats4 a b = combineStats4 b a := by
  have hw : ∀ p ∈ xs ++ ys, 0 < p.2 := fun r hr => by
    rcases List.mem_append.1 hr with h | h
    · exact hx.weights r h
    · exact hy.weights r h
  have v1 : Varies (xs ++ ys) := by
    obtain ⟨-, p, hp, q, hq, hpq⟩ := hx
    exact ⟨hw, p, by simp [hp], q, by simp [hq], hpq⟩
  have v2 : Varies (ys ++ xs) := by
    obtain ⟨-, p, hp, q, hq, hpq⟩ := hx
    exact ⟨fun r hr => hw r (List.perm_append_comm.mem_iff.1 hr), p, by simp [hp], q, by simp [hq], hpq⟩
  rw [isStats_unique _ _ (C145_pooled_partial a b xs ys ha hb hx hy) v1,
    isStats_unique _ _ (C145_pooled_partial b a ys xs hb ha hy hx) v2,
    C16_order (xs ++ ys) (ys ++ xs) List.perm_append_comm hw]

/-- **C145**, violated: a constant sample has no skewness; its list is ignored, also its weight and its number of observations. -/
theorem C145_violated_constant (a b : Stats4) (h : b.skewness = none) (ys : List (ℝ × ℝ)) (hb : IsStats a ys) (hy : Varies ys) :
    combineStats4 a b = a ∧ combineStats4 b a = a := by
  have e1 : addStats RM.empty a = run ys := by
    have := C16_merge_statistics_partial [] ys (varies_ne ys hy) (by simp) hy.weights (wcentral_pos ys hy)
    rw [List.append_nil] at this
    rw [isStats_unique a ys hb hy]
    exact this
  have e2 : ∀ r, addStats r b = r := by
    intro r
    unfold addStats RM.combineStats
    have : fromStats 4 b.mean b.variance b.skewness b.kurtosis b.weight = none := by
      rw [h]
      unfold fromStats
      cases b.mean with
      | none => rfl
      | some mean =>
        cases b.variance with
        | none => rfl
        | some v =>
          simp only [Option.bind_eq_bind, Option.bind_some, ge_iff_le, Nat.reduceLeDiff, if_true, Option.map_some]
          cases pow15V (v * b.weight) <;> rfl
    rw [this]
  constructor
  · show statsOf (addStats (addStats RM.empty a) b) = a
    rw [e2, e1, ← isStats_unique a ys hb hy]
  · show statsOf (addStats (addStats RM.empty b) a) = a
    rw [e2, e1, ← isStats_unique a ys hb hy]

/-- Two observations with the values 1 and 3. -/
example : Varies [(1, 1), (3, 2)] := ⟨by simp, (1, 1), by simp, (3, 2), by simp, by norm_num⟩

/-- Such a list exists for every sample that is not constant. -/
example (l : List (ℝ × ℝ)) (h : Varies l) : ∃ s, IsStats s l := ⟨_, statsOf_run l h⟩

end RStat
end LDT
