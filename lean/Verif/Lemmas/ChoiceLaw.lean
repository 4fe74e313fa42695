import Verif.Spec.Choice
import Verif.Lemmas.DistQuantile
import Mathlib.MeasureTheory.Integral.IntegralEqImproper
import Mathlib.Analysis.Calculus.Deriv.MeanValue
/-! # The logistic and the normal distribution function, and their derivatives -/
namespace LDT
namespace Dc
open Di MeasureTheory Set

/-- What the proofs need to know of a distribution function `G`, its density `g` and the derivative `s` of the density. -/
structure Link (G g s : ℝ → ℝ) : Prop where
  dG : ∀ z, HasDerivAt G (g z) z
  dg : ∀ z, HasDerivAt g (s z) z
  gpos : ∀ z, 0 < g z
  pos : ∀ z, 0 < G z
  symm : ∀ z, G (-z) = 1 - G z
  gsymm : ∀ z, g (-z) = g z
  low : ∀ z, 0 < g z ^ 2 - s z * G z
  between : ∀ a b p q, b < a → (p ≠ 0 ∨ q ≠ 0) → 0 < -(s a * p ^ 2 - s b * q ^ 2) * (G a - G b) + (g a * p - g b * q) ^ 2

namespace Link
variable {G g s : ℝ → ℝ} (L : Link G g s)
include L

theorem lt_one (z : ℝ) : G z < 1 := by
  have h1 := L.symm z
  have h2 := L.pos (-z)
  linarith

theorem strictMono : StrictMono G := strictMono_of_deriv_pos fun z => by rw [(L.dG z).deriv]; exact L.gpos z

theorem ssymm (z : ℝ) : s (-z) = -s z := by
  have h1 : HasDerivAt (fun z => g (-z)) (s (-z) * (-1)) z := (L.dg (-z)).comp z (hasDerivAt_neg z)
  have h2 : (fun z => g (-z)) = g := funext L.gsymm
  rw [h2] at h1
  have := h1.unique (L.dg z)
  linarith

theorem high (z : ℝ) : 0 < g z ^ 2 + s z * (1 - G z) := by
  have h := L.low (-z)
  rw [L.gsymm, L.ssymm, L.symm] at h
  linarith

end Link

/-! ## Logistic -/

/-- The logistic density. -/
noncomputable def logisticPdf (z : ℝ) : ℝ := logistic z * (1 - logistic z)

/-- Its derivative. -/
noncomputable def logisticSlope (z : ℝ) : ℝ := logisticPdf z * (1 - 2 * logistic z)

theorem logistic_deriv (z : ℝ) : HasDerivAt logistic (logisticPdf z) z := by
  have hp : (1 : ℝ) + Real.exp z ≠ 0 := by positivity
  have h := (Real.hasDerivAt_exp z).div ((Real.hasDerivAt_exp z).const_add 1) hp
  refine h.congr_deriv ?_
  unfold logisticPdf logistic
  field_simp

theorem logistic_link : Link logistic logisticPdf logisticSlope where
  dG := logistic_deriv
  dg z := by
    have h := (logistic_deriv z).mul ((logistic_deriv z).const_sub 1)
    refine h.congr_deriv ?_
    unfold logisticSlope; ring
  gpos z := by
    have h : 1 - logistic z = 1 / (1 + Real.exp z) := by
      unfold logistic
      have hp : (1 : ℝ) + Real.exp z ≠ 0 := by positivity
      field_simp; ring
    unfold logisticPdf
    rw [h]; unfold logistic; positivity
  pos z := by unfold logistic; positivity
  symm z := by
    unfold logistic
    rw [Real.exp_neg]
    have h0 := Real.exp_pos z
    have hp : (1 : ℝ) + Real.exp z ≠ 0 := by positivity
    have hq : (1 : ℝ) + (Real.exp z)⁻¹ ≠ 0 := by positivity
    field_simp
    ring
  gsymm z := by
    have e : logistic (-z) = 1 - logistic z := by
      unfold logistic
      rw [Real.exp_neg]
      have h0 := Real.exp_pos z
      have hp : (1 : ℝ) + Real.exp z ≠ 0 := by positivity
      have hq : (1 : ℝ) + (Real.exp z)⁻¹ ≠ 0 := by positivity
      field_simp
      ring
    unfold logisticPdf
    rw [e]; ring
  low z := by
    have e : logisticPdf z ^ 2 - logisticSlope z * logistic z = logisticPdf z * logistic z ^ 2 := by
      unfold logisticSlope logisticPdf; ring
    rw [e]
    have h1 : 0 < logistic z := by unfold logistic; positivity
    have h : 1 - logistic z = 1 / (1 + Real.exp z) := by
      unfold logistic
      have hp : (1 : ℝ) + Real.exp z ≠ 0 := by positivity
      field_simp; ring
    have h2 : 0 < 1 - logistic z := by rw [h]; positivity
    unfold logisticPdf
    positivity
  between a b p q hab hpq := by
    have hA := Real.exp_pos a
    have hB := Real.exp_pos b
    have hAB : 0 < Real.exp a - Real.exp b := sub_pos.2 (Real.exp_lt_exp.2 hab)
    unfold logisticSlope logisticPdf logistic
    generalize Real.exp a = A at *
    generalize Real.exp b = B at *
    have hA1 : (1 : ℝ) + A ≠ 0 := by positivity
    have hB1 : (1 : ℝ) + B ≠ 0 := by positivity
    have e : -(A / (1 + A) * (1 - A / (1 + A)) * (1 - 2 * (A / (1 + A))) * p ^ 2 -
          B / (1 + B) * (1 - B / (1 + B)) * (1 - 2 * (B / (1 + B))) * q ^ 2) * (A / (1 + A) - B / (1 + B)) +
        (A / (1 + A) * (1 - A / (1 + A)) * p - B / (1 + B) * (1 - B / (1 + B)) * q) ^ 2 =
        (A * B * (p - q) ^ 2 + (A - B) ^ 2 * (A / (1 + A) ^ 2 * p ^ 2 + B / (1 + B) ^ 2 * q ^ 2)) / ((1 + A) ^ 2 * (1 + B) ^ 2) := by
      field_simp
      ring
    rw [e]
    have h3 : 0 < A / (1 + A) ^ 2 * p ^ 2 + B / (1 + B) ^ 2 * q ^ 2 := by
      have hp0 : 0 ≤ A / (1 + A) ^ 2 * p ^ 2 := by positivity
      have hq0 : 0 ≤ B / (1 + B) ^ 2 * q ^ 2 := by positivity
      rcases hpq with h | h
      · have : 0 < A / (1 + A) ^ 2 * p ^ 2 := by positivity
        linarith
      · have : 0 < B / (1 + B) ^ 2 * q ^ 2 := by positivity
        linarith
    have h4 : 0 < (A - B) ^ 2 := by positivity
    have h5 : 0 ≤ A * B * (p - q) ^ 2 := by positivity
    positivity

/-! ## Normal -/

/-- The standard normal density. -/
noncomputable def gaussPdf (z : ℝ) : ℝ := Real.exp (-z ^ 2 / 2) / Real.sqrt (2 * Real.pi)

theorem gaussPdf_pos (z : ℝ) : 0 < gaussPdf z := by
  have := Real.pi_pos
  unfold gaussPdf; positivity

theorem gaussPdf_eq (z : ℝ) : gaussPdf z = normF 0 1 z := by
  unfold gaussPdf normF
  congr 2 <;> ring

theorem gaussPdf_deriv (z : ℝ) : HasDerivAt gaussPdf (-z * gaussPdf z) z := by
  have h1 : HasDerivAt (fun z : ℝ => -z ^ 2 / 2) (-z) z := by
    have := ((hasDerivAt_pow 2 z).neg).div_const 2
    refine this.congr_deriv ?_
    norm_num; ring
  have h := h1.exp.div_const (Real.sqrt (2 * Real.pi))
  refine h.congr_deriv ?_
  unfold gaussPdf; ring

theorem gaussian_eq {S : Fns} (hS : S.Good) (z : ℝ) : gaussian z = 1 / 2 * S.erfc ((0 - z) / (1 * Real.sqrt 2)) := by
  have h := (normal_below hS 0 1 z one_pos).2
  rw [← h]
  unfold gaussian
  congr 1
  funext t
  exact gaussPdf_eq t

theorem gaussPdf_integrableOn (z : ℝ) : IntegrableOn gaussPdf (Iio z) := by
  obtain ⟨S, hS⟩ := good_exists
  have h := (normal_below hS 0 1 z one_pos).1
  refine h.congr_fun (fun t _ => (gaussPdf_eq t).symm) measurableSet_Iio

theorem gaussPdf_continuous : Continuous gaussPdf := by
  unfold gaussPdf; fun_prop

theorem gaussian_iic (z : ℝ) : gaussian z = ∫ t in Iic z, gaussPdf t := by
  rw [integral_Iic_eq_integral_Iio]; rfl

theorem gaussPdf_integrable_Iic (z : ℝ) : IntegrableOn gaussPdf (Iic z) := Iff.mpr integrableOn_Iic_iff_integrableOn_Iio (gaussPdf_integrableOn z)

theorem gaussian_deriv (z : ℝ) : HasDerivAt gaussian (gaussPdf z) z := by
  have e : gaussian = fun z => (∫ t in (0 : ℝ)..z, gaussPdf t) + gaussian 0 := by
    funext z
    rw [gaussian_iic z, gaussian_iic 0, ← intervalIntegral.integral_Iic_sub_Iic (gaussPdf_integrable_Iic 0) (gaussPdf_integrable_Iic z)]
    ring
  rw [e]
  have h := intervalIntegral.integral_hasDerivAt_right (gaussPdf_continuous.intervalIntegrable 0 z)
    (gaussPdf_continuous.stronglyMeasurableAtFilter _ _) gaussPdf_continuous.continuousAt
  exact h.add_const _

theorem gaussian_symm (z : ℝ) : gaussian (-z) = 1 - gaussian z := by
  obtain ⟨S, hS⟩ := good_exists
  rw [gaussian_eq hS, gaussian_eq hS]
  have : (0 - -z) / (1 * Real.sqrt 2) = -((0 - z) / (1 * Real.sqrt 2)) := by ring
  rw [this, erfc_neg hS]; ring

theorem gaussian_strictMono : StrictMono gaussian :=
  strictMono_of_deriv_pos fun z => by rw [(gaussian_deriv z).deriv]; exact gaussPdf_pos z

theorem gaussian_pos (z : ℝ) : 0 < gaussian z := by
  have h0 : 0 ≤ gaussian (z - 1) := setIntegral_nonneg measurableSet_Iio fun t _ => (gaussPdf_pos t).le
  have h1 := gaussian_strictMono (show z - 1 < z by linarith)
  linarith

theorem gaussPdf_tendsto : Filter.Tendsto gaussPdf Filter.atBot (nhds 0) := by
  unfold gaussPdf
  have h1 : Filter.Tendsto (fun z : ℝ => -z ^ 2 / 2) Filter.atBot Filter.atBot := by
    have : Filter.Tendsto (fun z : ℝ => z ^ 2 / 2) Filter.atBot Filter.atTop :=
      (Filter.Tendsto.atTop_div_const (by norm_num) (by
        have := Filter.tendsto_pow_atTop (α := ℝ) (n := 2) (by norm_num) |>.comp Filter.tendsto_neg_atBot_atTop
        refine this.congr fun z => ?_
        simp))
    refine (Filter.tendsto_neg_atTop_atBot.comp this).congr fun z => ?_
    simp [neg_div]
  have h2 := (Real.tendsto_exp_atBot.comp h1).div_const (Real.sqrt (2 * Real.pi))
  simpa using h2

theorem gaussMoment_integrable (z : ℝ) : IntegrableOn (fun t => -t * gaussPdf t) (Iic z) := by
  have h := (integrable_mul_exp_neg_mul_sq (b := 1 / 2) (by norm_num)).const_mul (-(1 / Real.sqrt (2 * Real.pi)))
  refine (h.integrableOn (s := Iic z)).congr_fun (fun t _ => ?_) measurableSet_Iic
  unfold gaussPdf
  have : -(1 / 2) * t ^ 2 = -t ^ 2 / 2 := by ring
  simp only [this]
  ring

theorem gaussMoment (z : ℝ) : ∫ t in Iic z, -t * gaussPdf t = gaussPdf z := by
  rw [integral_Iic_of_hasDerivAt_of_tendsto' (f := gaussPdf) (m := 0) (fun t _ => gaussPdf_deriv t) (gaussMoment_integrable z) gaussPdf_tendsto]
  ring

/-- `φ(z) + zΦ(z)` is positive. -/
theorem mills (z : ℝ) : 0 < gaussPdf z + z * gaussian z := by
  have nn : ∀ z, 0 ≤ gaussPdf z + z * gaussian z := fun z => by
    rw [← gaussMoment z, gaussian_iic, ← integral_const_mul, ← integral_add (gaussMoment_integrable z) ((gaussPdf_integrable_Iic z).const_mul z)]
    refine setIntegral_nonneg measurableSet_Iic fun t ht => ?_
    have : t ≤ z := ht
    have e : -t * gaussPdf t + z * gaussPdf t = (z - t) * gaussPdf t := by ring
    rw [e]
    exact mul_nonneg (by linarith) (gaussPdf_pos t).le
  have sm : StrictMono fun z => gaussPdf z + z * gaussian z := strictMono_of_deriv_pos fun z => by
    have h := (gaussPdf_deriv z).add ((hasDerivAt_id z).mul (gaussian_deriv z))
    have : HasDerivAt (fun z => gaussPdf z + z * gaussian z) (gaussian z) z := by
      refine h.congr_deriv ?_
      simp
    rw [this.deriv]; exact gaussian_pos z
  have := sm (show z - 1 < z by linarith)
  have := nn (z - 1)
  simp only at *
  linarith

theorem gaussPdf_neg (z : ℝ) : gaussPdf (-z) = gaussPdf z := by unfold gaussPdf; simp

/-- A function that is positive at `b` and does not decrease afterwards is positive at `a > b`. -/
theorem pos_of_deriv {h h' : ℝ → ℝ} {a b : ℝ} (hab : b < a) (dh : ∀ z, HasDerivAt h (h' z) z) (h0 : 0 ≤ h b) (hp : ∀ z, b < z → 0 < h' z) :
    0 < h a := by
  have sm : StrictMonoOn h (Ici b) := strictMonoOn_of_deriv_pos (convex_Ici b)
    (fun z _ => (dh z).continuousAt.continuousWithinAt) fun z hz => by
      rw [interior_Ici] at hz
      rw [(dh z).deriv]; exact hp z hz
  have := sm (show b ∈ Ici b from le_refl b) (show a ∈ Ici b from hab.le) hab
  linarith

theorem gauss_upper {a b : ℝ} (hab : b < a) : 0 < a * (gaussian a - gaussian b) + gaussPdf a := by
  refine pos_of_deriv (h := fun a => a * (gaussian a - gaussian b) + gaussPdf a) (h' := fun a => gaussian a - gaussian b) hab (fun z => ?_) ?_ fun z hz => ?_
  · have h := ((hasDerivAt_id z).mul ((gaussian_deriv z).sub_const (gaussian b))).add (gaussPdf_deriv z)
    refine h.congr_deriv ?_
    simp
  · have := gaussPdf_pos b
    simp; linarith
  · have := gaussian_strictMono hz
    show 0 < gaussian z - gaussian b
    linarith

theorem gauss_lower {a b : ℝ} (hab : b < a) : 0 < gaussPdf b - b * (gaussian a - gaussian b) := by
  have h := gauss_upper (a := -b) (b := -a) (by linarith)
  rw [gaussian_symm, gaussian_symm, gaussPdf_neg] at h
  nlinarith [h]

theorem gauss_det {a b : ℝ} (hab : b < a) : 0 < a * gaussPdf b - b * gaussPdf a - a * b * (gaussian a - gaussian b) := by
  refine pos_of_deriv (h := fun a => a * gaussPdf b - b * gaussPdf a - a * b * (gaussian a - gaussian b))
    (h' := fun a => gaussPdf b - b * (gaussian a - gaussian b)) hab (fun z => ?_) ?_ fun z hz => gauss_lower hz
  · have h := (((hasDerivAt_id z).mul_const (gaussPdf b)).sub ((gaussPdf_deriv z).const_mul b)).sub
      (((hasDerivAt_id z).mul_const b).mul ((gaussian_deriv z).sub_const (gaussian b)))
    refine h.congr_deriv ?_
    simp; ring
  · simp

theorem gaussian_link : Link gaussian gaussPdf (fun z => -z * gaussPdf z) where
  dG := gaussian_deriv
  dg := gaussPdf_deriv
  gpos := gaussPdf_pos
  pos := gaussian_pos
  symm := gaussian_symm
  gsymm := gaussPdf_neg
  low z := by
    have h1 := gaussPdf_pos z
    have h2 := mills z
    have : gaussPdf z ^ 2 - -z * gaussPdf z * gaussian z = gaussPdf z * (gaussPdf z + z * gaussian z) := by ring
    rw [this]; positivity
  between a b p q hab hpq := by
    have ha := gaussPdf_pos a
    have hb := gaussPdf_pos b
    have hP : 0 < gaussian a - gaussian b := sub_pos.2 (gaussian_strictMono hab)
    have hu := gauss_upper hab
    have hl := gauss_lower hab
    have hd := gauss_det hab
    generalize gaussian a - gaussian b = P at *
    generalize gaussPdf a = A at *
    generalize gaussPdf b = B at *
    have key : (A * (a * P + A)) * (-(-a * A * p ^ 2 - -b * B * q ^ 2) * P + (A * p - B * q) ^ 2) =
        (A * (a * P + A) * p - A * B * q) ^ 2 + A * B * P * (a * B - b * A - a * b * P) * q ^ 2 := by ring
    have hM : 0 < A * (a * P + A) := by positivity
    have hD : 0 < A * B * P * (a * B - b * A - a * b * P) := by positivity
    refine pos_of_mul_pos_right (a := A * (a * P + A)) ?_ hM.le
    rw [key]
    by_cases hq : q = 0
    · subst hq
      have hp : p ≠ 0 := by simpa using hpq
      have : 0 < (A * (a * P + A) * p - A * B * 0) ^ 2 := by
        rw [mul_zero, sub_zero]; positivity
      simpa using this
    · have h1 : 0 < q ^ 2 := by positivity
      have h2 := mul_pos hD h1
      have h3 := sq_nonneg (A * (a * P + A) * p - A * B * q)
      linarith

end Dc
end LDT
