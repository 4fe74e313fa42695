import Verif.Lemmas.Crps
/-!
The expected score is the least for the law of the observation.
-/
namespace LDT
namespace Crps
open MeasureTheory ProbabilityTheory Set

variable {μ ν : Measure ℝ} [IsProbabilityMeasure μ] [IsProbabilityMeasure ν]

theorem cdf_measurable (μ : Measure ℝ) [IsProbabilityMeasure μ] : Measurable fun x => μ.real (Iic x) :=
  Monotone.measurable fun _ _ h => measureReal_mono (Iic_subset_Iic.2 h)

theorem gap_measurable : Measurable fun p : ℝ × ℝ => gap μ p.1 p.2 ^ 2 := by
  unfold gap
  have h : MeasurableSet {p : ℝ × ℝ | p.1 ≤ p.2} := measurableSet_le (by fun_prop) (by fun_prop)
  exact (((cdf_measurable μ).comp measurable_snd).sub (measurable_const.ite h measurable_const)).pow_const 2

theorem IsScore.unique {y a b : ℝ} (h : IsScore μ y a) (h' : IsScore μ y b) : a = b := h.2.symm.trans h'.2

theorem IsScore.nonneg {y a : ℝ} (h : IsScore μ y a) : 0 ≤ a := h.2 ▸ integral_nonneg fun _ => sq_nonneg _

theorem joint (hi : Integrable (fun x => x) μ) (hj : Integrable (fun x => x) ν) : Integrable (fun p : ℝ × ℝ => gap μ p.1 p.2 ^ 2) (ν.prod volume) := by
  rw [integrable_prod_iff gap_measurable.aestronglyMeasurable]
  refine ⟨.of_forall fun y => (score hi y).1, ?_⟩
  have e : (fun y => ∫ x, ‖gap μ y x ^ 2‖) = fun y => ∫ a, |a - y| ∂μ - (∫ p, |p.1 - p.2| ∂(μ.prod μ)) / 2 := by
    funext y
    rw [← (score hi y).2]
    exact integral_congr_ae (.of_forall fun x => abs_of_nonneg (sq_nonneg _))
  show Integrable (fun y => ∫ x, ‖gap μ y x ^ 2‖) ν
  rw [e]
  have h2 : Integrable (fun p : ℝ × ℝ => |p.2 - p.1|) (ν.prod μ) := ((hi.comp_snd ν).sub (hj.comp_fst μ)).abs
  exact h2.integral_prod_left.sub (integrable_const _)

theorem step_mean (x : ℝ) : ∫ y, (if y ≤ x then (1 : ℝ) else 0) ∂ν = ν.real (Iic x) := (step_int x).2

theorem gap_mean (x : ℝ) : ∫ y, gap μ y x ^ 2 ∂ν = (μ.real (Iic x) - ν.real (Iic x)) ^ 2 + ν.real (Iic x) * (1 - ν.real (Iic x)) := by
  have e : ∀ y, gap μ y x ^ 2 = μ.real (Iic x) ^ 2 + (1 - 2 * μ.real (Iic x)) * step y x := fun y => by
    unfold gap step
    by_cases h : y ≤ x
    · rw [if_pos h]; ring
    · rw [if_neg h]; ring
  simp only [e]
  rw [integral_add (integrable_const _) ((step_int x).1.const_mul _), integral_const_mul, (step_int x).2, integral_const]
  simp only [probReal_univ, one_smul]
  ring

/-- The expected scores of a law and of the law of the observation, and their difference. -/
theorem expected (hi : Integrable (fun x => x) μ) (hj : Integrable (fun x => x) ν) {f g : ℝ → ℝ} (hf : ∀ y, IsScore μ y (f y)) (hg : ∀ y, IsScore ν y (g y)) :
    Integrable f ν ∧ Integrable g ν ∧ Integrable (fun x => (μ.real (Iic x) - ν.real (Iic x)) ^ 2) ∧
    ∫ y, f y ∂ν - ∫ y, g y ∂ν = ∫ x, (μ.real (Iic x) - ν.real (Iic x)) ^ 2 := by
  have ef : f = fun y => ∫ x, gap μ y x ^ 2 := funext fun y => (hf y).2.symm
  have eg : g = fun y => ∫ x, gap ν y x ^ 2 := funext fun y => (hg y).2.symm
  have j1 := joint hi hj
  have j2 := joint (μ := ν) (ν := ν) hj hj
  have k1 : Integrable (fun x => ∫ y, gap μ y x ^ 2 ∂ν) := j1.integral_prod_right
  have k2 : Integrable (fun x => ∫ y, gap ν y x ^ 2 ∂ν) := j2.integral_prod_right
  have e : ∀ x, (μ.real (Iic x) - ν.real (Iic x)) ^ 2 = (∫ y, gap μ y x ^ 2 ∂ν) - ∫ y, gap ν y x ^ 2 ∂ν := fun x => by
    rw [gap_mean, gap_mean]; ring
  refine ⟨by rw [ef]; exact j1.integral_prod_left, by rw [eg]; exact j2.integral_prod_left, ?_, ?_⟩
  · rw [show (fun x => (μ.real (Iic x) - ν.real (Iic x)) ^ 2) = fun x => (∫ y, gap μ y x ^ 2 ∂ν) - ∫ y, gap ν y x ^ 2 ∂ν from funext e]
    exact k1.sub k2
  · rw [integral_congr_ae (.of_forall e), integral_sub k1 k2, ef, eg]
    have s1 := integral_integral_swap (f := fun y x => gap μ y x ^ 2) (μ := ν) (ν := volume) j1
    have s2 := integral_integral_swap (f := fun y x => gap ν y x ^ 2) (μ := ν) (ν := volume) j2
    dsimp only
    rw [s1, s2]

end Crps
end LDT
