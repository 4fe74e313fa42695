import Verif.Lemmas.DistCdf
import Mathlib.MeasureTheory.Integral.IntegralEqImproper
/-! # Special functions with the required properties exist -/
namespace LDT
namespace Di
open Op MeasureTheory Set Filter

theorem reach {f : ℝ → ℝ} {V p : ℝ} (h : HasOn (Ioi 0) f V) (hp : 0 < p) (hV : p < V) : ∃ x, 0 < x ∧ ∫ t in Ioo 0 x, f t = p := by
  set F := (Ioi (0 : ℝ)).indicator f with hF
  have hi : Integrable F := (integrable_indicator_iff measurableSet_Ioi).mpr h.1
  have hc : Continuous fun x => ∫ t in (0 : ℝ)..x, F t := intervalIntegral.continuous_primitive (fun a b => hi.intervalIntegrable) 0
  have ht : Tendsto (fun x => ∫ t in (0 : ℝ)..x, F t) atTop (nhds V) := by
    have := intervalIntegral_tendsto_integral_Ioi (0 : ℝ) hi.integrableOn tendsto_id
    have e : ∫ t in Ioi (0 : ℝ), F t = V := by
      rw [hF, setIntegral_indicator measurableSet_Ioi, inter_self]; exact h.2
    rw [e] at this; exact this
  obtain ⟨z, hz, hz0⟩ := ((ht.eventually (lt_mem_nhds hV)).and (eventually_gt_atTop 0)).exists
  obtain ⟨x, hx, hxp⟩ := intermediate_value_Ioo hz0.le hc.continuousOn (show p ∈ Ioo _ _ from ⟨by simpa using hp, hz⟩)
  refine ⟨x, hx.1, ?_⟩
  rw [← hxp]
  show _ = ∫ t in (0 : ℝ)..x, F t
  rw [intervalIntegral.integral_of_le hx.1.le, integral_Ioc_eq_integral_Ioo]
  refine setIntegral_congr_fun measurableSet_Ioo fun t ht => ?_
  rw [hF, indicator_of_mem (show t ∈ Ioi (0 : ℝ) from ht.1)]

theorem gauss_half : HasOn (Ioi 0) (fun t : ℝ => Real.exp (-t ^ 2)) (Real.sqrt Real.pi / 2) := by
  refine ⟨gauss_sq_integrable.integrableOn, ?_⟩
  have := integral_gaussian_Ioi 1
  simpa using this

theorem gauss_split (x : ℝ) (hx : 0 ≤ x) :
    ∫ t in Ioi x, Real.exp (-t ^ 2) = Real.sqrt Real.pi / 2 - ∫ t in Ioo 0 x, Real.exp (-t ^ 2) := by
  have hi := gauss_sq_integrable
  have h := intervalIntegral.integral_interval_add_Ioi (a := 0) (b := x) (μ := volume) (f := fun t : ℝ => Real.exp (-t ^ 2)) hi.integrableOn hi.integrableOn
  rw [gauss_half.2, intervalIntegral.integral_of_le hx, integral_Ioc_eq_integral_Ioo] at h
  linarith

theorem gauss_flip (x : ℝ) : ∫ t in Ioi (-x), Real.exp (-t ^ 2) = Real.sqrt Real.pi - ∫ t in Ioi x, Real.exp (-t ^ 2) := by
  have hi := gauss_sq_integrable
  have e := integral_comp_neg_Iic x (fun t : ℝ => Real.exp (-t ^ 2))
  simp only [neg_sq] at e
  rw [← e]
  have h := intervalIntegral.integral_Iic_add_Ioi (b := x) (μ := volume) (f := fun t : ℝ => Real.exp (-t ^ 2)) hi.integrableOn hi.integrableOn
  have t : ∫ t : ℝ, Real.exp (-t ^ 2) = Real.sqrt Real.pi := by simpa using integral_gaussian 1
  linarith

theorem erf_reach (y : ℝ) (h0 : -1 < y) (h1 : y < 1) : ∃ z : ℝ, 1 - 2 / Real.sqrt Real.pi * ∫ t in Ioi z, Real.exp (-t ^ 2) = y := by
  have hp := Real.sqrt_pos.mpr Real.pi_pos
  have pos : ∀ y : ℝ, 0 < y → y < 1 → ∃ z : ℝ, 1 - 2 / Real.sqrt Real.pi * ∫ t in Ioi z, Real.exp (-t ^ 2) = y := by
    intro y h0 h1
    obtain ⟨z, hz, e⟩ := reach gauss_half (p := Real.sqrt Real.pi / 2 * y) (by positivity) (by nlinarith)
    refine ⟨z, ?_⟩
    rw [gauss_split z hz.le, e]
    field_simp; ring
  rcases lt_trichotomy y 0 with h | h | h
  · obtain ⟨z, hz⟩ := pos (-y) (by linarith) (by linarith)
    refine ⟨-z, ?_⟩
    rw [gauss_flip]
    have : 2 / Real.sqrt Real.pi * (Real.sqrt Real.pi - ∫ t in Ioi z, Real.exp (-t ^ 2)) = 2 - 2 / Real.sqrt Real.pi * ∫ t in Ioi z, Real.exp (-t ^ 2) := by
      field_simp
    rw [this]; linarith
  · refine ⟨0, ?_⟩
    rw [h, gauss_half.2]; field_simp; ring
  · exact pos y h h1

/-- There are special functions as required. -/
theorem good_exists : ∃ S : Fns, S.Good := by
  classical
  let E : ℝ → ℝ := fun x => 2 / Real.sqrt Real.pi * ∫ t in Ioi x, Real.exp (-t ^ 2)
  let P : ℝ → ℝ → ℝ := fun a x => (∫ t in Ioo 0 x, t ^ (a - 1) * Real.exp (-t)) / Real.Gamma a
  let I : ℝ → ℝ → ℝ → ℝ := fun a b x => (∫ t in Ioo 0 x, t ^ (a - 1) * (1 - t) ^ (b - 1)) / (Real.Gamma a * Real.Gamma b / Real.Gamma (a + b))
  have hE : ∀ y, ∃ z, -1 < y → y < 1 → 1 - E z = y := fun y => by
    by_cases h : -1 < y ∧ y < 1
    · obtain ⟨z, hz⟩ := erf_reach y h.1 h.2; exact ⟨z, fun _ _ => hz⟩
    · exact ⟨0, fun h1 h2 => absurd ⟨h1, h2⟩ h⟩
  have hP : ∀ a p, ∃ z, 0 < a → 0 < p → p < 1 → 0 < z ∧ P a z = p := fun a p => by
    by_cases h : 0 < a ∧ 0 < p ∧ p < 1
    · have hg := Real.Gamma_pos_of_pos h.1
      have h1 := gammaInt h.1 one_pos
      simp only [div_one, Real.one_rpow, one_mul] at h1
      obtain ⟨z, hz, e⟩ := reach h1 (p := Real.Gamma a * p) (mul_pos hg h.2.1) (by nlinarith [h.2.2])
      refine ⟨z, fun _ _ _ => ⟨hz, ?_⟩⟩
      show _ / _ = _
      rw [e]; field_simp
    · exact ⟨0, fun h1 h2 h3 => absurd ⟨h1, h2, h3⟩ h⟩
  have hI : ∀ a b p, ∃ z, 0 < a → 0 < b → 0 < p → p < 1 → 0 < z ∧ z < 1 ∧ I a b z = p := fun a b p => by
    by_cases h : 0 < a ∧ 0 < b ∧ 0 < p ∧ p < 1
    · obtain ⟨ha, hb, hp, hp1⟩ := h
      have hB := betaFn_pos ha hb
      have hm : MeasurableSet (Ioo (0 : ℝ) 1) := measurableSet_Ioo
      have hb1 := betaInt ha hb
      have h1 : HasOn (Ioi 0) ((Ioo (0 : ℝ) 1).indicator fun t => t ^ (a - 1) * (1 - t) ^ (b - 1)) (betaFn a b) := by
        refine ⟨((integrable_indicator_iff hm).mpr hb1.1).integrableOn, ?_⟩
        rw [integral_indicator hm, Measure.restrict_restrict hm, inter_eq_left.mpr (show Ioo (0 : ℝ) 1 ⊆ Ioi 0 from fun y hy => hy.1), hb1.2]
      obtain ⟨z, hz, e⟩ := reach h1 (p := betaFn a b * p) (mul_pos hB hp) (by nlinarith)
      rw [integral_indicator hm, Measure.restrict_restrict hm] at e
      have hz1 : z < 1 := by
        by_contra hge
        rw [inter_eq_left.mpr (show Ioo (0 : ℝ) 1 ⊆ Ioo 0 z from fun y hy => ⟨hy.1, lt_of_lt_of_le hy.2 (not_lt.mp hge)⟩), hb1.2] at e
        nlinarith
      rw [inter_eq_right.mpr (show Ioo (0 : ℝ) z ⊆ Ioo 0 1 from fun y hy => ⟨hy.1, lt_trans hy.2 hz1⟩)] at e
      refine ⟨z, fun _ _ _ _ => ⟨hz, hz1, ?_⟩⟩
      show _ / betaFn a b = _
      rw [e]; field_simp
    · exact ⟨0, fun h1 h2 h3 h4 => absurd ⟨h1, h2, h3, h4⟩ h⟩
  choose e he using hE
  choose g hg using hP
  choose i hi using hI
  exact ⟨⟨E, e, P, g, I, i⟩, ⟨fun _ => rfl, he, fun _ _ _ _ => rfl, hg, fun _ _ _ _ _ _ _ => rfl, hi⟩⟩

end Di
end LDT
