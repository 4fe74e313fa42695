import Verif.Lemmas.DistDiscrete
import Mathlib.MeasureTheory.Integral.Gamma
import Mathlib.MeasureTheory.Function.JacobianOneDim
import Mathlib.Probability.Distributions.Beta
import Mathlib.MeasureTheory.Measure.Lebesgue.Integral
import Mathlib.Analysis.SpecialFunctions.Gaussian.GaussianIntegral
import Mathlib.Analysis.SpecialFunctions.Integrals.Basic
/-! # Integrals behind the continuous laws -/
namespace LDT
namespace Di
open Op MeasureTheory Set

/-- Integral over a set. -/
def HasOn (S : Set ℝ) (F : ℝ → ℝ) (v : ℝ) : Prop := IntegrableOn F S ∧ ∫ x in S, F x = v

theorem HasOn.congr {S : Set ℝ} (hS : MeasurableSet S) {F G : ℝ → ℝ} {v w : ℝ} (h : HasOn S F v) (e : ∀ x ∈ S, F x = G x) (ev : v = w) :
    HasOn S G w := by
  refine ⟨h.1.congr_fun e hS, ?_⟩
  rw [← ev, ← h.2]
  exact (setIntegral_congr_fun hS e).symm

theorem HasOn.mul {S : Set ℝ} {F : ℝ → ℝ} {v : ℝ} (c : ℝ) (h : HasOn S F v) : HasOn S (fun x => c * F x) (c * v) :=
  ⟨h.1.const_mul c, by rw [integral_const_mul, h.2]⟩

theorem HasOn.univ_iff {F : ℝ → ℝ} {v : ℝ} : HasOn univ F v ↔ Integrable F ∧ ∫ x, F x = v := by
  unfold HasOn; rw [integrableOn_univ, setIntegral_univ]

/-- A function that agrees with `G` on `S` and vanishes outside, up to finitely many points. -/
theorem has_of_on {S E : Set ℝ} (hS : MeasurableSet S) (hE : E.Finite) {F G : ℝ → ℝ} {v : ℝ} (h : HasOn S G v)
    (hin : ∀ x ∈ S, x ∉ E → F x = G x) (hout : ∀ x, x ∉ S → x ∉ E → F x = 0) : Integrable F ∧ ∫ x, F x = v := by
  have ae : S.indicator G =ᵐ[volume] F := by
    have h0 : ∀ᵐ x ∂(volume : Measure ℝ), x ∉ E := hE.measure_zero volume |> measure_eq_zero_iff_ae_notMem.mp
    filter_upwards [h0] with x hx
    by_cases hs : x ∈ S
    · rw [indicator_of_mem hs, hin x hs hx]
    · rw [indicator_of_notMem hs, hout x hs hx]
  refine ⟨((integrable_indicator_iff hS).mpr h.1).congr ae, ?_⟩
  rw [← integral_congr_ae ae, integral_indicator hS, h.2]

/-- Substitution. -/
theorem HasOn.subst {S T : Set ℝ} (hS : MeasurableSet S) {f f' g : ℝ → ℝ} {v : ℝ} (hf : ∀ x ∈ S, HasDerivWithinAt f (f' x) S x)
    (hi : InjOn f S) (hT : f '' S = T) : HasOn T g v ↔ HasOn S (fun x => |f' x| * g (f x)) v := by
  subst hT
  unfold HasOn
  rw [integrableOn_image_iff_integrableOn_abs_deriv_smul hS hf hi, integral_image_eq_integral_abs_deriv_smul hS hf hi]
  rfl

theorem gammaInt {a s : ℝ} (ha : 0 < a) (hs : 0 < s) : HasOn (Ioi 0) (fun x => x ^ (a - 1) * Real.exp (-x / s)) (s ^ a * Real.Gamma a) := by
  have hb : 0 < 1 / s := by positivity
  have h1 := integrableOn_rpow_mul_exp_neg_mul_rpow (p := 1) (s := a - 1) (b := 1 / s) (by linarith) one_pos hb
  have h2 := integral_rpow_mul_exp_neg_mul_rpow (p := 1) (q := a - 1) (b := 1 / s) one_pos (by linarith) hb
  refine HasOn.congr measurableSet_Ioi ⟨h1, h2⟩ (fun x _ => ?_) ?_
  · rw [Real.rpow_one]; congr 2; field_simp
  · rw [sub_add_cancel, div_one, div_one, mul_one, div_one, one_div, Real.inv_rpow hs.le, Real.rpow_neg hs.le, inv_inv]

/-- The beta function. -/
noncomputable def betaFn (a b : ℝ) : ℝ := Real.Gamma a * Real.Gamma b / Real.Gamma (a + b)

theorem betaFn_pos {a b : ℝ} (ha : 0 < a) (hb : 0 < b) : 0 < betaFn a b := ProbabilityTheory.beta_pos ha hb

theorem betaInt {a b : ℝ} (ha : 0 < a) (hb : 0 < b) : HasOn (Ioo 0 1) (fun x => x ^ (a - 1) * (1 - x) ^ (b - 1)) (betaFn a b) := by
  have hl := ProbabilityTheory.lintegral_betaPDF_eq_one ha hb
  have hpos : ∀ x, 0 ≤ ProbabilityTheory.betaPDFReal a b x := by
    intro x
    by_cases h : 0 < x ∧ x < 1
    · exact (ProbabilityTheory.betaPDFReal_pos h.1 h.2 ha hb).le
    · simp [ProbabilityTheory.betaPDFReal, h]
  have hm := ProbabilityTheory.stronglyMeasurable_betaPDFReal a b
  have hint : Integrable (ProbabilityTheory.betaPDFReal a b) := by
    refine ⟨hm.aestronglyMeasurable, ?_⟩
    rw [hasFiniteIntegral_iff_ofReal (Filter.Eventually.of_forall hpos)]
    show (∫⁻ x, ProbabilityTheory.betaPDF a b x) < ⊤
    rw [hl]; exact ENNReal.one_lt_top
  have hval : ∫ x, ProbabilityTheory.betaPDFReal a b x = 1 := by
    rw [integral_eq_lintegral_of_nonneg_ae (Filter.Eventually.of_forall hpos) hm.aestronglyMeasurable]
    show (∫⁻ x, ProbabilityTheory.betaPDF a b x).toReal = 1
    rw [hl]; simp
  have hon : HasOn (Ioo 0 1) (ProbabilityTheory.betaPDFReal a b) 1 := by
    refine ⟨hint.integrableOn, ?_⟩
    refine Eq.trans ?_ hval
    apply setIntegral_eq_integral_of_forall_compl_eq_zero
    intro x hx
    have : ¬ (0 < x ∧ x < 1) := hx
    simp [ProbabilityTheory.betaPDFReal, this]
  have hB := betaFn_pos ha hb
  refine (hon.mul (betaFn a b)).congr measurableSet_Ioo (fun x hx => ?_) (mul_one _)
  have : 0 < x ∧ x < 1 := hx
  simp only [ProbabilityTheory.betaPDFReal, if_pos this]
  show betaFn a b * (1 / betaFn a b * x ^ (a - 1) * (1 - x) ^ (b - 1)) = _
  field_simp

theorem ratio_inj : InjOn (fun t : ℝ => t / (1 + t)) (Ioi 0) := by
  intro x hx y hy h
  have hx' : (0 : ℝ) < x := hx
  have hy' : (0 : ℝ) < y := hy
  have h1 : (1 + x) ≠ 0 := by positivity
  have h2 : (1 + y) ≠ 0 := by positivity
  have h : x / (1 + x) = y / (1 + y) := h
  rw [div_eq_div_iff h1 h2] at h
  linarith

theorem ratio_deriv (x : ℝ) (hx : 0 < x) : HasDerivAt (fun t : ℝ => t / (1 + t)) (1 / (1 + x) ^ 2) x := by
  have h1 : (1 + x) ≠ 0 := by positivity
  have := (hasDerivAt_id x).div ((hasDerivAt_id x).const_add 1) h1
  refine this.congr_deriv ?_
  simp only [id, one_mul, mul_one]
  congr 1; ring

theorem ratio_image : (fun t : ℝ => t / (1 + t)) '' Ioi 0 = Ioo 0 1 := by
  ext u
  constructor
  · rintro ⟨t, ht, rfl⟩
    have ht' : (0 : ℝ) < t := ht
    exact ⟨by positivity, by rw [div_lt_one (by positivity)]; linarith⟩
  · rintro ⟨h0, h1⟩
    have h2 : 1 - u ≠ 0 := by linarith
    refine ⟨u / (1 - u), div_pos h0 (by linarith), ?_⟩
    show u / (1 - u) / (1 + u / (1 - u)) = u
    field_simp
    ring

/-- The integrand of the beta prime law, after the substitution. -/
theorem ratio_integrand {a b t : ℝ} (ht : 0 < t) :
    |1 / (1 + t) ^ 2| * ((t / (1 + t)) ^ (a - 1) * (1 - t / (1 + t)) ^ (b - 1)) = t ^ (a - 1) * (1 + t) ^ (-(a + b)) := by
  have h1 : 0 < 1 + t := by positivity
  have e : 1 - t / (1 + t) = (1 + t)⁻¹ := by field_simp; ring
  have e2 : |1 / (1 + t) ^ 2| = (1 + t) ^ (-2 : ℝ) := by
    rw [abs_of_pos (by positivity), Real.rpow_neg h1.le, one_div]
    norm_cast
  rw [e, e2, Real.div_rpow ht.le h1.le, Real.inv_rpow h1.le, ← Real.rpow_neg h1.le, div_eq_mul_inv, ← Real.rpow_neg h1.le]
  have : (1 + t) ^ (-(a + b)) = (1 + t) ^ (-2 : ℝ) * ((1 + t) ^ (-(a - 1)) * (1 + t) ^ (-(b - 1))) := by
    rw [← Real.rpow_add h1, ← Real.rpow_add h1]; congr 1; ring
  rw [this]; ring

theorem betaPrime {a b : ℝ} (ha : 0 < a) (hb : 0 < b) : HasOn (Ioi 0) (fun t => t ^ (a - 1) * (1 + t) ^ (-(a + b))) (betaFn a b) := by
  have h := (HasOn.subst (f' := fun t => 1 / (1 + t) ^ 2) measurableSet_Ioi (fun x hx => (ratio_deriv x hx).hasDerivWithinAt) ratio_inj ratio_image).mp
    (betaInt ha hb)
  exact h.congr measurableSet_Ioi (fun t ht => ratio_integrand ht) rfl

/-- Beta function one step up in the first argument and down in the second. -/
theorem betaFn_up {a b : ℝ} (ha : 0 < a) (hb : 0 < b) : betaFn (a + 1) b = betaFn a b * (a / (a + b)) := by
  unfold betaFn
  have h : a + b ≠ 0 := by positivity
  have hg : Real.Gamma (a + b) ≠ 0 := (Real.Gamma_pos_of_pos (by positivity)).ne'
  rw [show a + 1 + b = (a + b) + 1 by ring, Real.Gamma_add_one ha.ne', Real.Gamma_add_one h]
  field_simp

theorem betaFn_shift {a b : ℝ} (ha : 0 < a) (hb : 1 < b) : betaFn (a + 1) (b - 1) = betaFn a b * (a / (b - 1)) := by
  unfold betaFn
  have hb' : b - 1 ≠ 0 := by linarith
  have e : Real.Gamma b = (b - 1) * Real.Gamma (b - 1) := by
    conv_lhs => rw [show b = (b - 1) + 1 by ring]
    exact Real.Gamma_add_one hb'
  have e2 : a + 1 + (b - 1) = a + b := by ring
  rw [e2, Real.Gamma_add_one ha.ne', e]
  field_simp

theorem odd_zero {F : ℝ → ℝ} (h : ∀ x, F (-x) = -F x) : ∫ x, F x = 0 := by
  have := integral_neg_eq_self (μ := (volume : Measure ℝ)) F
  simp only [h, integral_neg] at this
  linarith

theorem gaussHalf {b : ℝ} (hb : 0 < b) (j : ℕ) :
    Integrable (fun x : ℝ => x ^ j * Real.exp (-b * x ^ 2)) := by
  have h : (-1 : ℝ) < (j : ℝ) := by
    have := Nat.cast_nonneg (α := ℝ) j
    linarith
  refine (integrable_rpow_mul_exp_neg_mul_sq hb h).congr (Filter.Eventually.of_forall fun x => ?_)
  simp only [Real.rpow_natCast]

theorem gaussEven {b : ℝ} (hb : 0 < b) (j : ℕ) :
    ∫ x : ℝ, x ^ (2 * j) * Real.exp (-b * x ^ 2) = b ^ (-((j : ℝ) + 1 / 2)) * Real.Gamma ((j : ℝ) + 1 / 2) := by
  have h : (-1 : ℝ) < ((2 * j : ℕ) : ℝ) := by
    have := Nat.cast_nonneg (α := ℝ) (2 * j)
    linarith
  have h2 := integral_rpow_mul_exp_neg_mul_rpow (p := 2) (q := ((2 * j : ℕ) : ℝ)) (b := b) two_pos h hb
  have e := integral_comp_abs (f := fun x : ℝ => x ^ (2 * j) * Real.exp (-b * x ^ 2))
  have e1 : (fun x : ℝ => |x| ^ (2 * j) * Real.exp (-b * |x| ^ 2)) = fun x : ℝ => x ^ (2 * j) * Real.exp (-b * x ^ 2) := by
    funext x
    rw [pow_mul, sq_abs, ← pow_mul]
  simp only [e1] at e
  rw [e]
  have e2 : ∫ x in Ioi (0 : ℝ), x ^ (2 * j) * Real.exp (-b * x ^ 2) = ∫ x in Ioi (0 : ℝ), x ^ ((2 * j : ℕ) : ℝ) * Real.exp (-b * x ^ (2 : ℝ)) := by
    refine setIntegral_congr_fun measurableSet_Ioi (fun x _ => ?_)
    rw [Real.rpow_natCast]
    norm_num
  rw [e2, h2]
  have e3 : (((2 * j : ℕ) : ℝ) + 1) / 2 = (j : ℝ) + 1 / 2 := by push_cast; ring
  have e4 : -(((2 * j : ℕ) : ℝ) + 1) / 2 = -((j : ℝ) + 1 / 2) := by push_cast; ring
  rw [e3, e4]; ring

/-- Moments of the exponential of a quadratic about its centre. -/
theorem gaussMoments (m s : ℝ) (hs : 0 < s) :
    Raw (IntAvg fun x => Real.exp (-(1 / 2) * ((x - m) / s) * ((x - m) / s)) / (Real.sqrt (2 * Real.pi) * s)) m 0 (s ^ 2) 0 (3 * s ^ 4) := by
  have hb : 0 < 1 / (2 * s ^ 2) := by positivity
  set b := 1 / (2 * s ^ 2) with hbdef
  have hpi := Real.pi_pos
  have hsp : 0 < Real.sqrt (2 * Real.pi) := Real.sqrt_pos.mpr (by positivity)
  set C := 1 / (Real.sqrt (2 * Real.pi) * s) with hC
  have shift : ∀ (j : ℕ) (v : ℝ), C * ∫ x : ℝ, x ^ j * Real.exp (-b * x ^ 2) = v →
      IntAvg (fun x => Real.exp (-(1 / 2) * ((x - m) / s) * ((x - m) / s)) / (Real.sqrt (2 * Real.pi) * s)) (fun x => (x - m) ^ j) v := by
    intro j v hv
    have hi := ((gaussHalf hb j).const_mul C).comp_sub_right m
    have e : (fun x => C * ((x - m) ^ j * Real.exp (-b * (x - m) ^ 2))) = fun x =>
        Real.exp (-(1 / 2) * ((x - m) / s) * ((x - m) / s)) / (Real.sqrt (2 * Real.pi) * s) * (x - m) ^ j := by
      funext x
      have : -b * (x - m) ^ 2 = -(1 / 2) * ((x - m) / s) * ((x - m) / s) := by rw [hbdef]; field_simp
      rw [this, hC]; ring
    rw [e] at hi
    refine ⟨hi, ?_⟩
    rw [← hv, ← integral_const_mul, ← integral_sub_right_eq_self (fun x => C * (x ^ j * Real.exp (-b * x ^ 2))) m]
    rw [e]
  have odd : ∀ j : ℕ, Odd j → C * ∫ x : ℝ, x ^ j * Real.exp (-b * x ^ 2) = 0 := by
    intro j hj
    rw [odd_zero, mul_zero]
    intro x
    rw [hj.neg_pow, neg_sq]; ring
  have g0 : Real.Gamma ((0 : ℕ) + 1 / 2) = Real.sqrt Real.pi := by
    rw [Nat.cast_zero, zero_add]; exact Real.Gamma_one_half_eq
  have g1 : Real.Gamma ((1 : ℕ) + 1 / 2) = 1 / 2 * Real.sqrt Real.pi := by
    have := Real.Gamma_add_one (s := 1 / 2) (by norm_num)
    rw [Real.Gamma_one_half_eq] at this
    rw [← this]; congr 1; push_cast; ring
  have g2 : Real.Gamma ((2 : ℕ) + 1 / 2) = 3 / 4 * Real.sqrt Real.pi := by
    have := Real.Gamma_add_one (s := (1 : ℕ) + 1 / 2) (by norm_num)
    rw [g1] at this
    rw [show ((2 : ℕ) : ℝ) + 1 / 2 = (1 : ℕ) + 1 / 2 + 1 by norm_num, this]; push_cast; ring
  have pb : ∀ j : ℕ, b ^ (-((j : ℝ) + 1 / 2)) = (2 * s ^ 2) ^ j * (Real.sqrt 2 * s) := by
    intro j
    have h2 : 0 ≤ 2 * s ^ 2 := by positivity
    have h2' : 0 < 2 * s ^ 2 := by positivity
    rw [hbdef, one_div, Real.inv_rpow h2, Real.rpow_neg h2, inv_inv, Real.rpow_add h2', Real.rpow_natCast, ← Real.sqrt_eq_rpow,
      Real.sqrt_mul (by norm_num), Real.sqrt_sq hs.le]
  have root : Real.sqrt (2 * Real.pi) = Real.sqrt 2 * Real.sqrt Real.pi := Real.sqrt_mul (by norm_num) _
  have r2 : Real.sqrt 2 ≠ 0 := by positivity
  have rp : Real.sqrt Real.pi ≠ 0 := (Real.sqrt_pos.mpr hpi).ne'
  refine ⟨?_, ?_, ?_, ?_, ?_⟩
  · have := shift 0 1 (by
      have := gaussEven hb 0
      rw [mul_zero] at this
      rw [this, g0, pb 0, hC, root]; field_simp)
    simpa only [pow_zero] using this
  · have := shift 1 0 (odd 1 (by decide))
    simpa only [pow_one] using this
  · refine shift 2 _ ?_
    have := gaussEven hb 1
    rw [mul_one] at this
    rw [this, g1, pb 1, hC, root]; field_simp
  · exact shift 3 0 (odd 3 (by decide))
  · refine shift 4 _ ?_
    have := gaussEven hb 2
    rw [show 2 * 2 = 4 from rfl] at this
    rw [this, g2, pb 2, hC, root]; field_simp; norm_num

end Di
end LDT
