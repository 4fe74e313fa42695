import Verif.Lemmas.DistGood
import Mathlib.Analysis.SpecialFunctions.ImproperIntegrals
/-! # Quantiles -/
namespace LDT
namespace Di
open Op MeasureTheory Set Filter

theorem erfc_neg {S : Fns} (hS : S.Good) (x : ℝ) : S.erfc (-x) = 2 - S.erfc x := by
  have hp := Real.sqrt_pos.mpr Real.pi_pos
  rw [hS.erfc_def, hS.erfc_def, gauss_flip]
  field_simp

theorem erfInv_neg {S : Fns} (hS : S.Good) {p : ℝ} (h0 : 0 < p) (h1 : p < 1) : 1 / 2 * S.erfc (-S.erfInv (2 * p - 1)) = p := by
  have := hS.erfInv_def (2 * p - 1) (by linarith) (by linarith)
  rw [erfc_neg hS]; linarith

theorem gauss_pos {z : ℝ} (hz : 0 < z) : 0 < ∫ t in Ioo 0 z, Real.exp (-t ^ 2) := by
  rw [← integral_Ioc_eq_integral_Ioo, ← intervalIntegral.integral_of_le hz.le]
  exact intervalIntegral.intervalIntegral_pos_of_pos gauss_sq_integrable.intervalIntegrable (fun t => Real.exp_pos _) hz

theorem erfInv_zero {S : Fns} (hS : S.Good) : S.erfInv 0 = 0 := by
  have hp := Real.sqrt_pos.mpr Real.pi_pos
  have h := hS.erfInv_def 0 (by norm_num) (by norm_num)
  have key : ∀ z : ℝ, 0 < z → S.erfc z ≠ 1 := by
    intro z hz he
    rw [hS.erfc_def, gauss_split z hz.le] at he
    have := gauss_pos hz
    have e : 2 / Real.sqrt Real.pi * (Real.sqrt Real.pi / 2 - ∫ t in Ioo 0 z, Real.exp (-t ^ 2)) = 1 - 2 / Real.sqrt Real.pi * ∫ t in Ioo 0 z, Real.exp (-t ^ 2) := by
      field_simp
    rw [e] at he
    have : 0 < 2 / Real.sqrt Real.pi * ∫ t in Ioo 0 z, Real.exp (-t ^ 2) := by positivity
    linarith
  rcases lt_trichotomy (S.erfInv 0) 0 with hz | hz | hz
  · exfalso
    refine key (-S.erfInv 0) (by linarith) ?_
    rw [erfc_neg hS]; linarith
  · exact hz
  · exact absurd (by linarith) (key _ hz)

theorem iBeta_one {S : Fns} (hS : S.Good) {a b : ℝ} (ha : 0 < a) (hb : 0 < b) : S.iBeta a b 1 = 1 := by
  rw [hS.iBeta_def a b 1 ha hb (by norm_num) le_rfl, (betaInt ha hb).2]
  exact div_self (betaFn_pos ha hb).ne'

/-! ## Student's t with one, two and four degrees of freedom -/

theorem tF_one (x : ℝ) : tF 1 x = 1 / Real.pi * (1 + x ^ 2)⁻¹ := by
  have hp := Real.sqrt_pos.mpr Real.pi_pos
  have h2 : Real.sqrt Real.pi * Real.sqrt Real.pi = Real.pi := Real.mul_self_sqrt Real.pi_pos.le
  rw [tF, show ((1 : ℝ) + 1) / 2 = 1 by norm_num, Real.Gamma_one, Real.Gamma_one_half_eq, one_mul (Real.pi), Real.rpow_neg (by have := mul_self_nonneg x; positivity),
    Real.rpow_one, h2]
  have : 0 < 1 + x ^ 2 := by positivity
  have e : 1 + x * x / 1 = 1 + x ^ 2 := by ring
  rw [e]; field_simp

theorem t_one (x : ℝ) : HasOn (Iic x) (tF 1) (1 / Real.pi * (Real.arctan x + Real.pi / 2)) := by
  refine ((hasOn_of_integrable integrable_inv_one_add_sq.integrableOn).mul (1 / Real.pi)).congr measurableSet_Iic (fun y _ => (tF_one y).symm) ?_
  rw [integral_Iic_inv_one_add_sq]

theorem hasOn_of_deriv {n : ℝ} (hn : 0 < n) {G : ℝ → ℝ} (hd : ∀ x, HasDerivAt G (tF n x) x) (hl : Tendsto G atBot (nhds 0)) (x : ℝ) :
    HasOn (Iic x) (tF n) (G x) := by
  have hi : Integrable (tF n) := by have := (tRaw hn).1.1; simpa using this
  refine ⟨hi.integrableOn, ?_⟩
  have := integral_Iic_of_hasDerivAt_of_tendsto' (a := x) (fun y _ => hd y) hi.integrableOn hl
  rw [this, sub_zero]

/-- The sine of the angle of `x`. -/
noncomputable def sinOf (n x : ℝ) : ℝ := x / Real.sqrt (n + x ^ 2)

theorem sinOf_deriv {n : ℝ} (hn : 0 < n) (x : ℝ) : HasDerivAt (sinOf n) (n / ((n + x ^ 2) * Real.sqrt (n + x ^ 2))) x := by
  have h0 : 0 < n + x ^ 2 := by positivity
  have hs := Real.sqrt_pos.mpr h0
  have h1 : HasDerivAt (fun x : ℝ => n + x ^ 2) (2 * x) x := by simpa using (hasDerivAt_pow 2 x).const_add n
  have h2 := h1.sqrt h0.ne'
  refine ((hasDerivAt_id x).div h2 hs.ne').congr_deriv ?_
  have hq : Real.sqrt (n + x ^ 2) ^ 2 = n + x ^ 2 := Real.sq_sqrt h0.le
  simp only [id]
  rw [div_eq_div_iff (by positivity) (by positivity)]
  generalize Real.sqrt (n + x ^ 2) = r at hq hs ⊢
  field_simp
  have : r ^ 4 = (n + x ^ 2) ^ 2 := by rw [← hq]; ring
  first
    | (rw [hq]; ring)
    | nlinarith [hq]

theorem sinOf_atBot {n : ℝ} (hn : 0 < n) : Tendsto (sinOf n) atBot (nhds (-1)) := by
  have e : ∀ᶠ x : ℝ in atBot, sinOf n x = -(1 / Real.sqrt (n * (x⁻¹ * x⁻¹) + 1)) := by
    filter_upwards [eventually_lt_atBot 0] with x hx
    have hx' : x ≠ 0 := hx.ne
    have e1 : n + x ^ 2 = (-x) ^ 2 * (n * (x⁻¹ * x⁻¹) + 1) := by field_simp
    rw [sinOf, e1, Real.sqrt_mul (by positivity), Real.sqrt_sq (by linarith)]
    have : 0 < Real.sqrt (n * (x⁻¹ * x⁻¹) + 1) := Real.sqrt_pos.mpr (by have := mul_self_nonneg x⁻¹; positivity)
    field_simp
  rw [tendsto_congr' e]
  have hz : Tendsto (fun x : ℝ => x⁻¹) atBot (nhds 0) := tendsto_inv_atBot_zero
  have h1 : Tendsto (fun x : ℝ => n * (x⁻¹ * x⁻¹) + 1) atBot (nhds (n * (0 * 0) + 1)) := ((hz.mul hz).const_mul n).add_const 1
  have h2 : Tendsto (fun x : ℝ => -(1 / Real.sqrt (n * (x⁻¹ * x⁻¹) + 1))) atBot (nhds (-(1 / Real.sqrt (n * (0 * 0) + 1)))) :=
    (Tendsto.div tendsto_const_nhds h1.sqrt (by norm_num)).neg
  simpa using h2

theorem sqrt_mul_sq {a : ℝ} (ha : 0 < a) : a ^ ((3 : ℝ) / 2) = a * Real.sqrt a := by
  rw [show (3 : ℝ) / 2 = 1 + 1 / 2 by norm_num, Real.rpow_add ha, Real.rpow_one, Real.sqrt_eq_rpow]

theorem t_two (x : ℝ) : HasOn (Iic x) (tF 2) (1 / 2 * (1 + sinOf 2 x)) := by
  refine hasOn_of_deriv (n := 2) two_pos (G := fun x => 1 / 2 * (1 + sinOf 2 x)) (fun x => ?_) ?_ x
  · refine (((sinOf_deriv two_pos x).const_add 1).const_mul (1 / 2)).congr_deriv ?_
    have hp := Real.sqrt_pos.mpr Real.pi_pos
    have hw : 0 < 1 + x * x / 2 := by have := mul_self_nonneg x; positivity
    have g : Real.Gamma ((2 + 1) / 2) = Real.sqrt Real.pi / 2 := by
      rw [show ((2 : ℝ) + 1) / 2 = 1 / 2 + 1 by norm_num, Real.Gamma_add_one (by norm_num), Real.Gamma_one_half_eq]; ring
    rw [tF, g, show (2 : ℝ) / 2 = 1 by norm_num, Real.Gamma_one, Real.rpow_neg hw.le, show ((2 : ℝ) + 1) / 2 = 3 / 2 by norm_num, sqrt_mul_sq hw,
      Real.sqrt_mul (by norm_num)]
    have e : 2 + x ^ 2 = 2 * (1 + x * x / 2) := by ring
    rw [e, Real.sqrt_mul (by norm_num)]
    have h2 : 0 < Real.sqrt 2 := by positivity
    have hs := Real.sqrt_pos.mpr hw
    generalize Real.sqrt (1 + x * x / 2) = r at hs ⊢
    generalize 1 + x * x / 2 = w at hw ⊢
    field_simp
  · have := ((sinOf_atBot two_pos).const_add 1).const_mul (1 / 2)
    simpa using this

theorem t_four (x : ℝ) : HasOn (Iic x) (tF 4) (1 / 2 + (3 * sinOf 4 x - sinOf 4 x ^ 3) / 4) := by
  have h4 : (0 : ℝ) < 4 := by norm_num
  refine hasOn_of_deriv (n := 4) h4 (G := fun x => 1 / 2 + (3 * sinOf 4 x - sinOf 4 x ^ 3) / 4) (fun x => ?_) ?_ x
  · have hd := sinOf_deriv h4 x
    have := (((hd.const_mul 3).sub (hd.pow 3)).div_const 4).const_add (1 / 2)
    refine this.congr_deriv ?_
    have hp := Real.sqrt_pos.mpr Real.pi_pos
    have hw : 0 < 1 + x * x / 4 := by have := mul_self_nonneg x; positivity
    have g : Real.Gamma ((4 + 1) / 2) = 3 * Real.sqrt Real.pi / 4 := by
      rw [show ((4 : ℝ) + 1) / 2 = 1 / 2 + 1 + 1 by norm_num, Real.Gamma_add_one (by norm_num), Real.Gamma_add_one (by norm_num), Real.Gamma_one_half_eq]; ring
    have g2 : Real.Gamma (4 / 2) = 1 := by
      rw [show (4 : ℝ) / 2 = 1 + 1 by norm_num, Real.Gamma_add_one (by norm_num), Real.Gamma_one]; norm_num
    have ep : (1 + x * x / 4) ^ ((5 : ℝ) / 2) = (1 + x * x / 4) * ((1 + x * x / 4) * Real.sqrt (1 + x * x / 4)) := by
      rw [← sqrt_mul_sq hw, show (5 : ℝ) / 2 = 1 + 3 / 2 by norm_num, Real.rpow_add hw, Real.rpow_one]
    have s4 : Real.sqrt 4 = 2 := by rw [show (4 : ℝ) = 2 ^ 2 by norm_num, Real.sqrt_sq (by norm_num)]
    rw [tF, g, g2, Real.rpow_neg hw.le, show ((4 : ℝ) + 1) / 2 = 5 / 2 by norm_num, ep, Real.sqrt_mul (by norm_num), s4, sinOf]
    have e : 4 + x ^ 2 = 4 * (1 + x * x / 4) := by ring
    rw [e, Real.sqrt_mul (by norm_num), s4]
    have hs := Real.sqrt_pos.mpr hw
    have hq : Real.sqrt (1 + x * x / 4) ^ 2 = 1 + x * x / 4 := Real.sq_sqrt hw.le
    have hx : x ^ 2 = 4 * Real.sqrt (1 + x * x / 4) ^ 2 - 4 := by rw [hq]; ring
    rw [← hq]
    rw [Real.sqrt_sq hs.le]
    generalize Real.sqrt (1 + x * x / 4) = r at hs hx ⊢
    push_cast
    field_simp
    rw [hx]; ring
  · have := (((sinOf_atBot h4).const_mul 3).sub ((sinOf_atBot h4).pow 3)).div_const 4 |>.const_add (1 / 2)
    convert this using 2
    norm_num

theorem t_two_inv {p : ℝ} (h0 : 0 < p) (h1 : p < 1) : sinOf 2 ((2 * p - 1) * Real.sqrt (2 / (4 * p * (1 - p)))) = 2 * p - 1 := by
  have hq : 0 < 1 - p := by linarith
  have hA : 0 < 2 / (4 * p * (1 - p)) := by positivity
  have e : 2 + ((2 * p - 1) * Real.sqrt (2 / (4 * p * (1 - p)))) ^ 2 = 2 / (4 * p * (1 - p)) := by
    rw [mul_pow, Real.sq_sqrt hA.le]; field_simp; ring
  rw [sinOf, e]
  have := Real.sqrt_pos.mpr hA
  field_simp

theorem t_four_inv {p : ℝ} (h0 : 0 < p) (h1 : p < 1) (hp : p ≠ 1 / 2) :
    1 / 2 + (3 * sinOf 4 ((SignType.sign (p - 1 / 2) : ℝ) * 2 * Real.sqrt (Real.cos (1 / 3 * Real.arccos (Real.sqrt (4 * p * (1 - p)))) / Real.sqrt (4 * p * (1 - p)) - 1)) -
      sinOf 4 ((SignType.sign (p - 1 / 2) : ℝ) * 2 * Real.sqrt (Real.cos (1 / 3 * Real.arccos (Real.sqrt (4 * p * (1 - p)))) / Real.sqrt (4 * p * (1 - p)) - 1)) ^ 3) / 4 = p := by
  have hq : 0 < 1 - p := by linarith
  have hA : 0 < 4 * p * (1 - p) := by positivity
  have hA1 : 4 * p * (1 - p) ≤ 1 := by nlinarith [sq_nonneg (2 * p - 1)]
  have hr := Real.sqrt_pos.mpr hA
  have hr1 : Real.sqrt (4 * p * (1 - p)) ≤ 1 := by rw [Real.sqrt_le_one]; exact hA1
  have hrr : Real.sqrt (4 * p * (1 - p)) ^ 2 = 4 * p * (1 - p) := Real.sq_sqrt hA.le
  set r := Real.sqrt (4 * p * (1 - p)) with hrdef
  set c := Real.cos (1 / 3 * Real.arccos r) with hc
  have h3 : 4 * c ^ 3 - 3 * c = r := by
    rw [hc, ← Real.cos_three_mul, show 3 * (1 / 3 * Real.arccos r) = Real.arccos r by ring, Real.cos_arccos (by linarith) hr1]
  have hθ : Real.arccos r ≤ Real.pi / 2 := by rw [Real.arccos_le_pi_div_two]; exact hr.le
  have hc0 : 0 < c := by
    rw [hc]
    apply Real.cos_pos_of_mem_Ioo
    have := Real.arccos_nonneg r
    constructor <;> nlinarith [Real.pi_pos]
  have hc1 : c ≤ 1 := Real.cos_le_one _
  have h43 : 4 * c ^ 2 - 3 = r / c := by rw [← h3]; field_simp
  have hpos : 0 < 4 * c ^ 2 - 3 := by rw [h43]; positivity
  have hQ1 : 0 ≤ c / r - 1 := by
    have : 1 ≤ c / r := by rw [le_div_iff₀ hr]; nlinarith
    linarith
  have hsgn : ((SignType.sign (p - 1 / 2) : ℝ)) ^ 2 = 1 := by
    rcases lt_or_gt_of_ne hp with h | h
    · rw [sign_neg (by linarith)]; norm_num
    · rw [sign_pos (by linarith)]; norm_num
  set g : ℝ := (SignType.sign (p - 1 / 2) : ℝ) with hg
  set x := g * 2 * Real.sqrt (c / r - 1) with hx
  have hx2 : 4 + x ^ 2 = 4 * (c / r) := by
    rw [hx, mul_pow, mul_pow, Real.sq_sqrt hQ1, hsgn]; ring
  have hQ : 0 < c / r := by positivity
  have s4 : Real.sqrt 4 = 2 := by rw [show (4 : ℝ) = 2 ^ 2 by norm_num, Real.sqrt_sq (by norm_num)]
  set a := Real.sqrt ((c / r - 1) / (c / r)) with ha
  have ha0 : 0 ≤ a := Real.sqrt_nonneg _
  have hs : sinOf 4 x = g * a := by
    rw [sinOf, hx2, Real.sqrt_mul (by norm_num), s4, ha, Real.sqrt_div hQ1, hx]
    have := Real.sqrt_pos.mpr hQ
    field_simp
  have ha2 : a ^ 2 = 4 - 4 * c ^ 2 := by
    rw [ha, Real.sq_sqrt (div_nonneg hQ1 hQ.le)]
    have : (c / r - 1) / (c / r) = 1 - r / c := by field_simp
    rw [this, ← h43]; ring
  have hb : (3 * a - a ^ 3) ^ 2 = (2 * (2 * p - 1)) ^ 2 := by
    have e1 : (3 * a - a ^ 3) ^ 2 = a ^ 2 * (3 - a ^ 2) ^ 2 := by ring
    have e2 : (2 * (2 * p - 1)) ^ 2 = 4 * (1 - (4 * c ^ 3 - 3 * c) ^ 2) := by rw [h3, hrr]; ring
    rw [e1, e2, ha2]; ring
  have ha1 : a ^ 2 ≤ 1 := by rw [ha2]; nlinarith
  have hnn : 0 ≤ 3 * a - a ^ 3 := by nlinarith
  rw [hs]
  have e3 : 3 * (g * a) - (g * a) ^ 3 = g * (3 * a - a ^ 3) := by
    have : g ^ 3 = g := by rw [pow_succ, hsgn, one_mul]
    rw [mul_pow, this]; ring
  rw [e3]
  rcases lt_or_gt_of_ne hp with h | h
  · have : 3 * a - a ^ 3 = -(2 * (2 * p - 1)) := by
      rcases sq_eq_sq_iff_eq_or_eq_neg.mp hb with h' | h'
      · linarith
      · exact h'
    have hg' : g = -1 := by rw [hg, sign_neg (by linarith)]; norm_num
    rw [this, hg']; ring
  · have : 3 * a - a ^ 3 = 2 * (2 * p - 1) := by
      rcases sq_eq_sq_iff_eq_or_eq_neg.mp hb with h' | h'
      · exact h'
      · linarith
    have hg' : g = 1 := by rw [hg, sign_pos (by linarith)]; norm_num
    rw [this, hg']; ring

end Di
end LDT
