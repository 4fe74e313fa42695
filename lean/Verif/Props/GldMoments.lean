import Verif.Lemmas.GldMoments
/-! # C135: the moments of a generalized lambda distribution -/
namespace LDT
namespace Gl
open Op MeasureTheory Filter Topology Set

section
variable (F : Fns) (g : Gld)

theorem bind_ok' {α β : Type} (x : α) (f : α → Outcome β) : (Outcome.ok x >>= f) = f x := rfl

/-- The first moment as computed. -/
noncomputable def first (a b : ℝ) : ℝ :=
  if a = b then 0 else if a = 0 ∧ b ≠ 0 then -b / (b + 1) else if a ≠ 0 ∧ b = 0 then a / (a + 1) else 1 / (a * (a + 1)) - 1 / (b * (b + 1))

/-- The value of the mean. -/
theorem mean_eq (h3 : -1 < g.d3) (h4 : -1 < g.d4) : g.mean F = .ok (.num (g.d1 + (1 / (g.d4 + 1) - 1 / (g.d3 + 1)) / g.d2)) := by
  have n3 : g.d3 + 1 ≠ 0 := by linarith
  have n4 : g.d4 + 1 ≠ 0 := by linarith
  unfold Gld.mean
  rw [if_neg (by rintro (h | h) <;> linarith)]
  change (if g.d3 ≠ 0 ∧ g.d4 ≠ 0 ∧ g.d3 ≠ g.d4 then Outcome.ok (Dbl.num (g.d1 + 1 / g.d2 * (first g.d3 g.d4 - 1 / g.d3 + 1 / g.d4)))
    else Outcome.ok (Dbl.num (g.d1 + first g.d3 g.d4 / g.d2))) = _
  by_cases he : g.d3 = g.d4
  · have hv : first g.d3 g.d4 = 0 := if_pos he
    rw [if_neg (fun h => h.2.2 he), hv, he, sub_self]
  by_cases h0 : g.d3 = 0
  · have hb : g.d4 ≠ 0 := fun h => he (h0.trans h.symm)
    have hv : first g.d3 g.d4 = -g.d4 / (g.d4 + 1) := by unfold first; rw [if_neg he, if_pos ⟨h0, hb⟩]
    rw [if_neg (fun h => h.1 h0), hv, h0, zero_add, div_one]
    congr 4
    field_simp
    ring
  · by_cases hb : g.d4 = 0
    · have hv : first g.d3 g.d4 = g.d3 / (g.d3 + 1) := by unfold first; rw [if_neg he, if_neg (fun h => h0 h.1), if_pos ⟨h0, hb⟩]
      rw [if_neg (fun h => h.2.1 hb), hv, hb, zero_add, div_one]
      congr 4
      field_simp
      ring
    · have hv : first g.d3 g.d4 = 1 / (g.d3 * (g.d3 + 1)) - 1 / (g.d4 * (g.d4 + 1)) := by
        unfold first; rw [if_neg he, if_neg (fun h => h0 h.1), if_neg (fun h => hb h.2)]
      rw [if_pos ⟨h0, hb, he⟩, hv, one_div_mul_eq_div]
      congr 4
      field_simp
      ring

/-- **C135.** The mean, if both shapes are above -1. -/
theorem C135_mean (h3 : -1 < g.d3) (h4 : -1 < g.d4) : ∃ m, g.mean F = .ok (.num m) ∧ g.IsMean m := ⟨_, mean_eq F g h3 h4, int_curve g h3 h4⟩

theorem tail_not_int {l : ℝ} (hl : l ≤ -1) : ¬ IntervalIntegrable (tail (.num l)) volume 0 (1 / 2) := by
  intro h
  have h' : IntervalIntegrable (fun x : ℝ => x ^ l) volume 0 (1 / 2) := by
    have := (h.const_mul l).add (intervalIntegrable_const (c := (1 : ℝ)))
    refine this.congr_uIoo fun x hx => ?_
    rw [uIoo_of_le (by norm_num)] at hx
    have l0 : l ≠ 0 := by linarith
    show l * tail (.num l) x + 1 = x ^ l
    rw [tail_num l hx.1, if_neg l0]
    field_simp
    ring
  have := (intervalIntegrable_iff_integrableOn_Ioo_of_le (by norm_num)).1 h'
  exact absurd ((intervalIntegral.integrableOn_Ioo_rpow_iff (by norm_num : (0 : ℝ) < 1 / 2)).1 this) (by linarith)

theorem tail_int (s : Shape) {x y : ℝ} (hx : 0 < x) (hy : 0 < y) : IntervalIntegrable (tail s) volume x y := by
  refine ContinuousOn.intervalIntegrable fun p hp => ?_
  have : 0 < p := lt_of_lt_of_le (lt_min hx hy) hp.1
  exact (tail_deriv s this).continuousAt.continuousWithinAt

/-- **C135.** Otherwise NaN is reported, and there is no mean. -/
theorem C135_mean_missing (hg : 0 < g.d2) (h : ¬ (-1 < g.d3 ∧ -1 < g.d4)) : g.mean F = .ok .nan ∧ ¬ ∃ m, g.IsMean m := by
  refine ⟨?_, fun ⟨m, hm, _⟩ => ?_⟩
  · unfold Gld.mean
    rw [if_pos]
    by_contra hc
    rw [not_or, not_le, not_le] at hc
    exact h hc
  · have hS : IntervalIntegrable (fun p => tail (.num g.d3) p - tail (.num g.d4) (1 - p)) volume 0 1 := by
      have := (hm.sub (intervalIntegrable_const (c := g.d1))).const_mul g.d2
      refine this.congr_uIoo fun p _ => ?_
      show g.d2 * (g.curve p - g.d1) = _
      unfold Gld.curve curve
      field_simp
      ring
    have sub1 : uIcc (0 : ℝ) (1 / 2) ⊆ uIcc 0 1 := by
      rw [uIcc_of_le (by norm_num), uIcc_of_le (by norm_num)]; exact Icc_subset_Icc_right (by norm_num)
    have sub2 : uIcc (1 / 2 : ℝ) 1 ⊆ uIcc 0 1 := by
      rw [uIcc_of_le (by norm_num), uIcc_of_le (by norm_num)]; exact Icc_subset_Icc_left (by norm_num)
    by_cases h3 : -1 < g.d3
    · have h4 : g.d4 ≤ -1 := not_lt.1 fun h4 => h ⟨h3, h4⟩
      have hB : IntervalIntegrable (fun p => tail (.num g.d4) (1 - p)) volume (1 / 2) 1 := by
        have := (tail_int (.num g.d3) (x := 1 / 2) (y := 1) (by norm_num) one_pos).sub (hS.mono_set sub2)
        refine this.congr_uIoo fun p _ => ?_
        simp
      have := hB.comp_sub_left 1
      refine tail_not_int h4 ?_
      have e : (1 : ℝ) - 1 / 2 = 1 / 2 := by norm_num
      rw [e, sub_self] at this
      simpa using this.symm
    · have hB : IntervalIntegrable (fun p => tail (.num g.d4) (1 - p)) volume 0 (1 / 2) := by
        have := (tail_int (.num g.d4) (x := 1) (y := 1 / 2) one_pos (by norm_num)).comp_sub_left 1
        have e : (1 : ℝ) - 1 / 2 = 1 / 2 := by norm_num
        rwa [e, sub_self] at this
      refine tail_not_int (not_lt.1 h3) ?_
      have := (hS.mono_set sub1).add hB
      refine this.congr_uIoo fun p _ => ?_
      simp

/-- The mean of the square of a deviation is positive. -/
theorem square_pos {f : ℝ → ℝ} (hf : StrictMonoOn f (Ioo 0 1)) {c v : ℝ} (h : Int1 (fun p => (f p - c) ^ 2) v) : 0 < v := by
  rw [← h.2]
  rw [intervalIntegral.integral_pos_iff_support_of_nonneg_ae (Eventually.of_forall fun p => sq_nonneg _) h.1]
  refine ⟨one_pos, ?_⟩
  have hsub : (Ioo (0 : ℝ) 1 ∩ {p | f p = c}).Subsingleton := fun x hx y hy => hf.injOn hx.1 hy.1 (hx.2.trans hy.2.symm)
  have hzero : volume (Ioo (0 : ℝ) 1 ∩ {p | f p = c}) = 0 := hsub.finite.measure_zero _
  have h1 : volume (Ioo (0 : ℝ) 1 \ (Ioo (0 : ℝ) 1 ∩ {p | f p = c})) = 1 := by
    rw [measure_sdiff_null hzero]
    simp
  refine lt_of_lt_of_le (by rw [h1]; exact one_pos) (measure_mono (s := Ioo (0 : ℝ) 1 \ (Ioo (0 : ℝ) 1 ∩ {p | f p = c})) ?_)
  rintro p ⟨hp, hn⟩
  refine ⟨?_, hp.1, hp.2.le⟩
  rw [Function.mem_support]
  exact pow_ne_zero 2 (sub_ne_zero.2 fun hc => hn ⟨hp, hc⟩)

end

section
variable {F : Fns} (hF : F.Beta) (g : Gld) (hg : 0 < g.d2) (h3 : g.d3 ≠ 0) (h4 : g.d4 ≠ 0)
include hF hg h3 h4

omit hF hg in
/-- The first moment as computed. -/
theorem moment1 (hF : F.Beta) : moment F 1 g.d3 g.d4 = .ok (1 / (g.d3 * (g.d3 + 1)) - 1 / (g.d4 * (g.d4 + 1))) := by
  simp only [moment]
  by_cases he : g.d3 = g.d4
  · rw [if_pos he, he, sub_self]
  · rw [if_neg he, if_neg (fun h => h3 h.1), if_neg (fun h => h4 h.2)]

omit hg in
theorem beta_comm {x y : ℝ} (hx : 0 < x) (hy : 0 < y) : F.beta x y = F.beta y x := by
  have h1 := (int_beta' hF (show -1 < x - 1 by linarith) (show -1 < y - 1 by linarith)).flip
  have h2 := int_beta' hF (show -1 < y - 1 by linarith) (show -1 < x - 1 by linarith)
  have := (h1.congr (h := fun t => t ^ (y - 1) * (1 - t) ^ (x - 1)) fun p _ _ => by simp only [sub_sub_cancel]; ring).unique h2
  simpa using this

end
end Gl
end LDT
