import Verif.Spec.Crps
import Mathlib.MeasureTheory.Integral.Prod
import Mathlib.MeasureTheory.Integral.IntegralEqImproper
/-!
The score of any law with a first moment: `E|X - y| - E|X - X'|/2`.
-/
namespace LDT
namespace Crps
open MeasureTheory ProbabilityTheory Set

/-- The indicator of the values from `a` on. -/
noncomputable def step (a x : ℝ) : ℝ := if a ≤ x then 1 else 0

theorem step_sub_nonneg {a y : ℝ} (h : a ≤ y) (x : ℝ) : step a x - step y x = (Ico a y).indicator 1 x := by
  unfold step indicator
  by_cases h1 : a ≤ x <;> by_cases h2 : y ≤ x
  · simp [h1, h2]
  · simp [h1, h2, lt_of_not_ge h2]
  · exact absurd (h.trans h2) h1
  · simp [h1, h2]

/-- The kernel. -/
noncomputable def ker (y a b x : ℝ) : ℝ := (step a x - step y x) * (step b x - step y x)

theorem ker_eq (y a b : ℝ) : (∀ x, ker y a b x = (Ico (max a b) y).indicator 1 x + (Ico y (min a b)).indicator 1 x) := by
  intro x
  unfold ker step indicator
  simp only [mem_Ico, max_le_iff, lt_min_iff, Pi.one_apply]
  by_cases h1 : a ≤ x <;> by_cases h2 : y ≤ x <;> by_cases h3 : b ≤ x <;>
    simp [h1, h2, h3] <;> simp_all [not_lt.2, not_le]

theorem ker_nonneg (y a b x : ℝ) : 0 ≤ ker y a b x := by
  rw [ker_eq]
  exact add_nonneg (indicator_nonneg (fun _ _ => zero_le_one) _) (indicator_nonneg (fun _ _ => zero_le_one) _)

theorem indicator_int (a b : ℝ) : Integrable ((Ico a b).indicator (1 : ℝ → ℝ)) ∧ ∫ x, (Ico a b).indicator (1 : ℝ → ℝ) x = max (b - a) 0 := by
  constructor
  · rw [integrable_indicator_iff measurableSet_Ico]
    exact integrableOn_const (by simp)
  · rw [integral_indicator_one measurableSet_Ico, Measure.real, Real.volume_Ico]
    simp [ENNReal.toReal_ofReal']

theorem ker_int (y a b : ℝ) : Integrable (ker y a b) ∧ ∫ x, ker y a b x = (|a - y| + |b - y| - |a - b|) / 2 := by
  have e : ker y a b = fun x => (Ico (max a b) y).indicator 1 x + (Ico y (min a b)).indicator 1 x := funext (ker_eq y a b)
  obtain ⟨i1, v1⟩ := indicator_int (max a b) y
  obtain ⟨i2, v2⟩ := indicator_int y (min a b)
  rw [e]
  refine ⟨i1.add i2, ?_⟩
  rw [integral_add i1 i2, v1, v2]
  have key : ∀ {a b : ℝ}, a ≤ b → max (y - b) 0 + max (a - y) 0 = (|a - y| + |b - y| - |a - b|) / 2 := fun {a b} h => by
    rcases abs_cases (a - y) with ⟨q1, _⟩ | ⟨q1, _⟩ <;> rcases abs_cases (b - y) with ⟨q2, _⟩ | ⟨q2, _⟩ <;>
      rcases max_cases (y - b) 0 with ⟨q3, _⟩ | ⟨q3, _⟩ <;> rcases max_cases (a - y) 0 with ⟨q4, _⟩ | ⟨q4, _⟩ <;>
      rw [q1, q2, q3, q4, abs_of_nonpos (sub_nonpos.2 h)] <;> linarith
  rcases le_total a b with h | h
  · rw [max_eq_right h, min_eq_left h, key h]
  · rw [max_eq_left h, min_eq_right h, key h, abs_sub_comm b a, add_comm |b - y|]

variable {μ : Measure ℝ} [IsProbabilityMeasure μ]

theorem ker_measurable (y : ℝ) : Measurable fun p : (ℝ × ℝ) × ℝ => ker y p.1.1 p.1.2 p.2 := by
  unfold ker step
  have h1 : MeasurableSet {p : (ℝ × ℝ) × ℝ | p.1.1 ≤ p.2} := measurableSet_le (by fun_prop) (by fun_prop)
  have h2 : MeasurableSet {p : (ℝ × ℝ) × ℝ | y ≤ p.2} := measurableSet_le (by fun_prop) (by fun_prop)
  have h3 : MeasurableSet {p : (ℝ × ℝ) × ℝ | p.1.2 ≤ p.2} := measurableSet_le (by fun_prop) (by fun_prop)
  exact (((measurable_const.ite h1 measurable_const).sub (measurable_const.ite h2 measurable_const)).mul
    ((measurable_const.ite h3 measurable_const).sub (measurable_const.ite h2 measurable_const)))

theorem abs_integrable (hi : Integrable (fun x => x) μ) (y : ℝ) : Integrable (fun a => |a - y|) μ := (hi.sub (integrable_const y)).abs

theorem diff_integrable (hi : Integrable (fun x => x) μ) : Integrable (fun p : ℝ × ℝ => |p.1 - p.2|) (μ.prod μ) :=
  ((hi.comp_fst μ).sub (hi.comp_snd μ)).abs

theorem step_int (x : ℝ) : Integrable (fun a => step a x) μ ∧ ∫ a, step a x ∂μ = μ.real (Iic x) := by
  have e : (fun a => step a x) = (Iic x).indicator 1 := by
    funext a
    unfold step indicator
    rfl
  rw [e]
  refine ⟨?_, integral_indicator_one measurableSet_Iic⟩
  rw [integrable_indicator_iff measurableSet_Iic]
  exact integrableOn_const (by simp)

theorem gap_sq (y x : ℝ) : ∫ p, ker y p.1 p.2 x ∂(μ.prod μ) = gap μ y x ^ 2 := by
  obtain ⟨i1, v1⟩ := step_int (μ := μ) x
  have h : ∫ a, (step a x - step y x) ∂μ = gap μ y x := by
    rw [integral_sub i1 (integrable_const _), v1, integral_const]
    simp [gap, step]
  unfold ker
  rw [integral_prod_mul (fun a => step a x - step y x) (fun b => step b x - step y x), h, sq]

/-- The score of a law with a first moment. -/
theorem score (hi : Integrable (fun x => x) μ) (y : ℝ) :
    IsScore μ y (∫ a, |a - y| ∂μ - (∫ p, |p.1 - p.2| ∂(μ.prod μ)) / 2) := by
  have hK : Integrable (fun p : (ℝ × ℝ) × ℝ => ker y p.1.1 p.1.2 p.2) ((μ.prod μ).prod volume) := by
    rw [integrable_prod_iff (ker_measurable y).aestronglyMeasurable]
    refine ⟨.of_forall fun p => (ker_int y p.1 p.2).1, ?_⟩
    have e : (fun p : ℝ × ℝ => ∫ x, ‖ker y p.1 p.2 x‖) = fun p => (|p.1 - y| + |p.2 - y| - |p.1 - p.2|) / 2 := by
      funext p
      rw [← (ker_int y p.1 p.2).2]
      exact integral_congr_ae (.of_forall fun x => abs_of_nonneg (ker_nonneg y _ _ x))
    show Integrable (fun p : ℝ × ℝ => ∫ x, ‖ker y p.1 p.2 x‖) _
    rw [e]
    exact ((((abs_integrable hi y).comp_fst μ).add ((abs_integrable hi y).comp_snd μ)).sub (diff_integrable hi)).div_const 2
  have hg : (fun x => gap μ y x ^ 2) = fun x => ∫ p, ker y p.1 p.2 x ∂(μ.prod μ) := funext fun x => (gap_sq y x).symm
  constructor
  · rw [hg]
    exact hK.integral_prod_right
  · rw [hg, ← integral_integral_swap hK]
    rw [integral_congr_ae (.of_forall fun p : ℝ × ℝ => (ker_int y p.1 p.2).2)]
    have e1 : ∫ p : ℝ × ℝ, (|p.1 - y| + |p.2 - y| - |p.1 - p.2|) ∂(μ.prod μ) =
        ∫ p : ℝ × ℝ, (|p.1 - y| + |p.2 - y|) ∂(μ.prod μ) - ∫ p : ℝ × ℝ, |p.1 - p.2| ∂(μ.prod μ) :=
      integral_sub (((abs_integrable hi y).comp_fst μ).add ((abs_integrable hi y).comp_snd μ)) (diff_integrable hi)
    have e2 : ∫ p : ℝ × ℝ, (|p.1 - y| + |p.2 - y|) ∂(μ.prod μ) = ∫ p : ℝ × ℝ, |p.1 - y| ∂(μ.prod μ) + ∫ p : ℝ × ℝ, |p.2 - y| ∂(μ.prod μ) :=
      integral_add ((abs_integrable hi y).comp_fst μ) ((abs_integrable hi y).comp_snd μ)
    rw [integral_div, e1, e2, integral_fun_fst (μ := μ) (ν := μ) (fun a => |a - y|), integral_fun_snd (μ := μ) (ν := μ) (fun a => |a - y|)]
    simp only [probReal_univ, one_smul]
    ring

/-- The mean distance from a point. -/
theorem mean_abs (hi : Integrable (fun x => x) μ) (y : ℝ) :
    ∫ a, |a - y| ∂μ = y * (2 * μ.real (Iic y) - 1) + ∫ a, a ∂μ - 2 * ∫ a in Iic y, a ∂μ := by
  have e : ∀ a, |a - y| = (a - y) + 2 * (Iic y).indicator (fun a => y - a) a := fun a => by
    by_cases h : a ≤ y
    · rw [indicator_of_mem (show a ∈ Iic y from h), abs_of_nonpos (sub_nonpos.2 h)]; ring
    · rw [indicator_of_notMem (show a ∉ Iic y from h), abs_of_nonneg (sub_nonneg.2 (le_of_not_ge h))]; ring
  have i2 : Integrable (fun a => y - a) μ := (integrable_const y).sub hi
  have i1 : Integrable (fun a => a - y) μ := hi.sub (integrable_const y)
  rw [integral_congr_ae (.of_forall e), integral_add i1 ((i2.indicator measurableSet_Iic).const_mul 2), integral_sub hi (integrable_const y),
    integral_const_mul, integral_indicator measurableSet_Iic, integral_sub (integrable_const y).integrableOn hi.integrableOn, integral_const, integral_const]
  simp only [probReal_univ, one_smul, measureReal_restrict_apply_univ, smul_eq_mul]
  ring

/-! ## The normal law -/

open scoped NNReal

theorem pdf_deriv (m : ℝ) {v : ℝ≥0} (hv : v ≠ 0) (x : ℝ) :
    HasDerivAt (fun x => -(v : ℝ) * gaussianPDFReal m v x) ((x - m) * gaussianPDFReal m v x) x := by
  have hv' : (v : ℝ) ≠ 0 := by exact_mod_cast hv
  unfold gaussianPDFReal
  have h1 : HasDerivAt (fun x : ℝ => -(x - m) ^ 2 / (2 * (v : ℝ))) (-(2 * (x - m)) / (2 * v)) x := by
    have := (((hasDerivAt_id x).sub_const m).pow 2).neg.div_const (2 * (v : ℝ))
    simpa using this
  refine ((h1.exp.const_mul ((Real.sqrt (2 * Real.pi * v))⁻¹)).const_mul (-(v : ℝ))).congr_deriv ?_
  field_simp

theorem pdf_tendsto (m : ℝ) {v : ℝ≥0} (hv : v ≠ 0) : Filter.Tendsto (fun x => -(v : ℝ) * gaussianPDFReal m v x) Filter.atBot (nhds 0) := by
  have hv' : (0 : ℝ) < v := by exact_mod_cast pos_iff_ne_zero.2 hv
  unfold gaussianPDFReal
  have h : Filter.Tendsto (fun x : ℝ => -(x - m) ^ 2 / (2 * (v : ℝ))) Filter.atBot Filter.atBot := by
    refine Filter.Tendsto.atBot_div_const (by positivity) ?_
    refine Filter.tendsto_neg_atTop_atBot.comp ?_
    have : Filter.Tendsto (fun x : ℝ => -(x - m)) Filter.atBot Filter.atTop :=
      Filter.tendsto_neg_atBot_atTop.comp (Filter.tendsto_atBot_add_const_right _ (-m) Filter.tendsto_id)
    refine ((Filter.tendsto_pow_atTop (n := 2) (by norm_num)).comp this).congr fun x => ?_
    show (-(x - m)) ^ 2 = _
    ring
  have := ((Real.tendsto_exp_atBot.comp h).const_mul ((Real.sqrt (2 * Real.pi * v))⁻¹)).const_mul (-(v : ℝ))
  simpa using this

theorem gauss_integrable (m : ℝ) (v : ℝ≥0) : Integrable (fun x => x) (gaussianReal m v) :=
  (memLp_id_gaussianReal (μ := m) (v := v) 1).integrable (by norm_num)

/-- The mean of the values below `y`. -/
theorem below_mean (m : ℝ) {v : ℝ≥0} (hv : v ≠ 0) (y : ℝ) :
    ∫ a in Iic y, a ∂(gaussianReal m v) = m * (gaussianReal m v).real (Iic y) - v * gaussianPDFReal m v y := by
  have hm : IntegrableOn (fun a => a - m) (Iic y) (gaussianReal m v) := ((gauss_integrable m v).sub (integrable_const m)).integrableOn
  have h1 : ∫ a in Iic y, (a - m) ∂(gaussianReal m v) = -(v : ℝ) * gaussianPDFReal m v y := by
    have e : ∀ (f : ℝ → ℝ), ∫ a in Iic y, f a ∂(gaussianReal m v) = ∫ a in Iic y, gaussianPDFReal m v a * f a := fun f => by
      rw [gaussianReal_of_var_ne_zero m hv, setIntegral_withDensity_eq_setIntegral_toReal_smul (measurable_gaussianPDF m v)
        (.of_forall fun _ => gaussianPDF_lt_top) _ measurableSet_Iic]
      simp only [toReal_gaussianPDF, smul_eq_mul]
    rw [e]
    have hint : IntegrableOn (fun a => (a - m) * gaussianPDFReal m v a) (Iic y) := by
      have := hm
      rw [gaussianReal_of_var_ne_zero m hv, IntegrableOn, restrict_withDensity measurableSet_Iic,
        integrable_withDensity_iff (measurable_gaussianPDF m v) (.of_forall fun _ => gaussianPDF_lt_top)] at this
      simp only [toReal_gaussianPDF] at this
      exact this
    have := integral_Iic_of_hasDerivAt_of_tendsto' (fun x _ => pdf_deriv m hv x) hint (pdf_tendsto m hv)
    rw [sub_zero] at this
    rw [← this]
    exact integral_congr_ae (.of_forall fun a => mul_comm _ _)
  rw [integral_sub (gauss_integrable m v).integrableOn (integrable_const m).integrableOn, integral_const] at h1
  simp only [measureReal_restrict_apply_univ, smul_eq_mul] at h1
  linarith

theorem gauss_abs (m : ℝ) {v : ℝ≥0} (hv : v ≠ 0) (y : ℝ) :
    ∫ a, |a - y| ∂(gaussianReal m v) = (y - m) * (2 * (gaussianReal m v).real (Iic y) - 1) + 2 * v * gaussianPDFReal m v y := by
  rw [mean_abs (gauss_integrable m v), below_mean m hv, integral_id_gaussianReal]
  ring

/-- The difference of independent normal variables. -/
theorem diff_law (m m' : ℝ) (v v' : ℝ≥0) :
    ((gaussianReal m v).prod (gaussianReal m' v')).map (fun p => p.1 - p.2) = gaussianReal (m - m') (v + v') := by
  have h := gaussianReal_conv_gaussianReal (m₁ := m) (m₂ := -m') (v₁ := v) (v₂ := v')
  rw [← gaussianReal_map_neg, Measure.conv] at h
  have h2 : (gaussianReal m v).prod ((gaussianReal m' v').map fun x => -x) =
      ((gaussianReal m v).prod (gaussianReal m' v')).map (Prod.map id fun x => -x) := by
    rw [← Measure.map_prod_map _ _ measurable_id measurable_neg, Measure.map_id]
  rw [h2, Measure.map_map (by fun_prop) (by fun_prop)] at h
  rw [sub_eq_add_neg m m', ← h]
  rfl

theorem gauss_diff (m : ℝ) {v : ℝ≥0} (hv : v ≠ 0) :
    ∫ p, |p.1 - p.2| ∂((gaussianReal m v).prod (gaussianReal m v)) = 2 * Real.sqrt v / Real.sqrt Real.pi := by
  have h2 : v + v ≠ 0 := by
    have := pos_iff_ne_zero.2 hv
    positivity
  have h := integral_map (μ := (gaussianReal m v).prod (gaussianReal m v)) (φ := fun p => p.1 - p.2) (f := fun d : ℝ => |d - 0|) (by fun_prop)
    (by fun_prop)
  simp only [sub_zero] at h
  rw [← h, diff_law]
  have := gauss_abs (m - m) h2 0
  simp only [sub_zero] at this
  rw [this, sub_self]
  have hv' : (0 : ℝ) < v := by exact_mod_cast pos_iff_ne_zero.2 hv
  simp only [gaussianPDFReal, sub_self, zero_mul, zero_add, NNReal.coe_add]
  have e : Real.sqrt (2 * Real.pi * (v + v)) = 2 * Real.sqrt Real.pi * Real.sqrt v := by
    rw [show 2 * Real.pi * ((v : ℝ) + v) = 2 ^ 2 * Real.pi * v by ring, Real.sqrt_mul (by positivity), Real.sqrt_mul (by positivity), Real.sqrt_sq (by norm_num)]
  rw [e]
  have hs := Real.mul_self_sqrt hv'.le
  have hp : 0 < Real.sqrt Real.pi := Real.sqrt_pos.2 Real.pi_pos
  have hq : 0 < Real.sqrt v := Real.sqrt_pos.2 hv'
  norm_num
  field_simp
  nlinarith

instance (m s : ℝ) : IsProbabilityMeasure (normal m s) := inferInstanceAs (IsProbabilityMeasure (gaussianReal _ _))

/-- The score of a normal law that is not a point. -/
theorem normal_score (m : ℝ) {s : ℝ} (hs : 0 < s) (y : ℝ) :
    IsScore (normal m s) y ((y - m) * (2 * (normal m s).real (Iic y) - 1) + s * (Real.sqrt 2 * Real.exp (-(1 / 2) * ((y - m) / s) ^ 2) - 1) / Real.sqrt Real.pi) := by
  have hv : Real.toNNReal (s ^ 2) ≠ 0 := by
    rw [Ne, Real.toNNReal_eq_zero, not_le]; positivity
  have hc : ((Real.toNNReal (s ^ 2) : ℝ≥0) : ℝ) = s ^ 2 := Real.coe_toNNReal _ (by positivity)
  have h := score (μ := normal m s) (gauss_integrable m _) y
  have e1 : ∫ a, |a - y| ∂(normal m s) = _ := gauss_abs m hv y
  have e2 : ∫ p, |p.1 - p.2| ∂((normal m s).prod (normal m s)) = _ := gauss_diff m hv
  rw [e1, e2, hc, Real.sqrt_sq hs.le] at h
  convert h using 1
  simp only [gaussianPDFReal, hc]
  have hp : 0 < Real.sqrt Real.pi := Real.sqrt_pos.2 Real.pi_pos
  have e3 : Real.sqrt (2 * Real.pi * s ^ 2) = Real.sqrt 2 * Real.sqrt Real.pi * s := by
    rw [Real.sqrt_mul (by positivity), Real.sqrt_mul (by positivity), Real.sqrt_sq hs.le]
  have e4 : -(y - m) ^ 2 / (2 * s ^ 2) = -(1 / 2) * ((y - m) / s) ^ 2 := by field_simp
  rw [e3, e4]
  have h2 : Real.sqrt 2 * Real.sqrt 2 = 2 := Real.mul_self_sqrt (by norm_num)
  have h2' : 0 < Real.sqrt 2 := by positivity
  show (y - m) * _ + _ = (y - m) * _ + _ - _
  generalize Real.exp _ = E
  have : 2 * s ^ 2 * ((Real.sqrt 2 * Real.sqrt Real.pi * s)⁻¹ * E) = Real.sqrt 2 * s * E / Real.sqrt Real.pi := by
    field_simp
    linear_combination (-E) * h2
  unfold normal
  rw [this]
  ring

/-- The score of a point. -/
theorem point_score (m y : ℝ) : IsScore (normal m 0) y |y - m| := by
  have e : normal m 0 = Measure.dirac m := by
    unfold normal
    norm_num [gaussianReal_zero_var]
  have h := score (μ := normal m 0) (gauss_integrable m _) y
  rw [e] at h ⊢
  rw [Measure.dirac_prod_dirac, integral_dirac, integral_dirac] at h
  rw [abs_sub_comm]
  simpa using h

end Crps
end LDT
