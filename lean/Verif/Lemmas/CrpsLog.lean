import Verif.Lemmas.Crps
/-!
The score of a log-normal law.
-/
namespace LDT
namespace Crps
open MeasureTheory ProbabilityTheory Set
open scoped NNReal

/-- Weighting a normal law by the exponential moves its mean. -/
theorem tilt (m : ℝ) {v : ℝ≥0} (hv : v ≠ 0) {A : Set ℝ} (hA : MeasurableSet A) :
    ∫ u in A, Real.exp u ∂(gaussianReal m v) = Real.exp (m + v / 2) * (gaussianReal (m + v) v).real A := by
  have hv' : (0 : ℝ) < v := by exact_mod_cast pos_iff_ne_zero.2 hv
  rw [gaussianReal_of_var_ne_zero m hv, setIntegral_withDensity_eq_setIntegral_toReal_smul (measurable_gaussianPDF m v)
    (.of_forall fun _ => gaussianPDF_lt_top) _ hA]
  have h2 : (gaussianReal (m + v) v).real A = ∫ u in A, gaussianPDFReal (m + v) v u := by
    rw [Measure.real, gaussianReal_apply_eq_integral _ hv, ENNReal.toReal_ofReal]
    exact integral_nonneg fun _ => gaussianPDFReal_nonneg _ _ _
  rw [h2, ← integral_const_mul]
  refine integral_congr_ae (.of_forall fun u => ?_)
  simp only [toReal_gaussianPDF, smul_eq_mul, gaussianPDFReal]
  rw [mul_left_comm, mul_assoc, ← Real.exp_add, ← Real.exp_add]
  congr 2
  field_simp
  ring

theorem exp_integrable (m : ℝ) (v : ℝ≥0) : Integrable Real.exp (gaussianReal m v) := by
  have := integrable_exp_mul_gaussianReal (μ := m) (v := v) 1
  simpa using this

theorem exp_mean (m : ℝ) (v : ℝ≥0) : ∫ u, Real.exp u ∂(gaussianReal m v) = Real.exp (m + v / 2) := by
  have := congrFun (mgf_id_gaussianReal (μ := m) (v := v)) 1
  simpa [mgf] using this

variable (m : ℝ) {v : ℝ≥0} (hv : v ≠ 0)

include hv in
/-- The mean of the first of two values where it is at least the second. -/
theorem first_mean : ∫ p, (if p.2 ≤ p.1 then Real.exp p.1 else 0) ∂((gaussianReal m v).prod (gaussianReal m v)) =
    Real.exp (m + v / 2) * (gaussianReal (-v) (v + v)).real (Iic 0) := by
  have hms : MeasurableSet {p : ℝ × ℝ | p.2 ≤ p.1} := measurableSet_le (by fun_prop) (by fun_prop)
  have hi : Integrable (fun p : ℝ × ℝ => if p.2 ≤ p.1 then Real.exp p.1 else 0) ((gaussianReal m v).prod (gaussianReal m v)) :=
    ((exp_integrable m v).comp_fst (gaussianReal m v)).indicator hms
  have hi' : Integrable (fun p : ℝ × ℝ => if p.2 ≤ p.1 then (1 : ℝ) else 0) ((gaussianReal (m + v) v).prod (gaussianReal m v)) :=
    (integrable_const (1 : ℝ)).indicator hms
  rw [integral_prod_symm _ hi]
  have e : ∀ b : ℝ, ∫ a, (if b ≤ a then Real.exp a else 0) ∂(gaussianReal m v) =
      Real.exp (m + v / 2) * ∫ a, (if b ≤ a then (1 : ℝ) else 0) ∂(gaussianReal (m + v) v) := fun b => by
    have h1 : (fun a => if b ≤ a then Real.exp a else 0) = (Ici b).indicator Real.exp := rfl
    have h2 : (fun a : ℝ => if b ≤ a then (1 : ℝ) else 0) = (Ici b).indicator 1 := rfl
    rw [h1, h2, integral_indicator measurableSet_Ici, tilt m hv measurableSet_Ici, integral_indicator_one measurableSet_Ici]
  simp only [e]
  rw [integral_const_mul, ← integral_prod_symm (fun p : ℝ × ℝ => if p.2 ≤ p.1 then (1 : ℝ) else 0) hi']
  congr 1
  have h3 : (fun p : ℝ × ℝ => if p.2 ≤ p.1 then (1 : ℝ) else 0) = {p : ℝ × ℝ | p.2 ≤ p.1}.indicator 1 := rfl
  rw [h3, integral_indicator_one hms]
  have hd := diff_law m (m + v) v v
  rw [show m - (m + v) = -(v : ℝ) by ring] at hd
  rw [← hd, map_measureReal_apply (by fun_prop) measurableSet_Iic]
  rw [← Measure.prod_swap, map_measureReal_apply measurable_swap hms]
  congr 1
  ext p
  simp

include hv in
/-- The mean of the second of two values where it is at most the first. -/
theorem second_mean : ∫ p, (if p.2 ≤ p.1 then Real.exp p.2 else 0) ∂((gaussianReal m v).prod (gaussianReal m v)) =
    Real.exp (m + v / 2) * (gaussianReal v (v + v)).real (Iic 0) := by
  have hms : MeasurableSet {p : ℝ × ℝ | p.2 ≤ p.1} := measurableSet_le (by fun_prop) (by fun_prop)
  have hi : Integrable (fun p : ℝ × ℝ => if p.2 ≤ p.1 then Real.exp p.2 else 0) ((gaussianReal m v).prod (gaussianReal m v)) :=
    ((exp_integrable m v).comp_snd (gaussianReal m v)).indicator hms
  have hi' : Integrable (fun p : ℝ × ℝ => if p.2 ≤ p.1 then (1 : ℝ) else 0) ((gaussianReal m v).prod (gaussianReal (m + v) v)) :=
    (integrable_const (1 : ℝ)).indicator hms
  rw [integral_prod _ hi]
  have e : ∀ b : ℝ, ∫ a, (if a ≤ b then Real.exp a else 0) ∂(gaussianReal m v) =
      Real.exp (m + v / 2) * ∫ a, (if a ≤ b then (1 : ℝ) else 0) ∂(gaussianReal (m + v) v) := fun b => by
    have h1 : (fun a => if a ≤ b then Real.exp a else 0) = (Iic b).indicator Real.exp := rfl
    have h2 : (fun a : ℝ => if a ≤ b then (1 : ℝ) else 0) = (Iic b).indicator 1 := rfl
    rw [h1, h2, integral_indicator measurableSet_Iic, tilt m hv measurableSet_Iic, integral_indicator_one measurableSet_Iic]
  simp only [e]
  rw [integral_const_mul, ← integral_prod (fun p : ℝ × ℝ => if p.2 ≤ p.1 then (1 : ℝ) else 0) hi']
  congr 1
  have h3 : (fun p : ℝ × ℝ => if p.2 ≤ p.1 then (1 : ℝ) else 0) = {p : ℝ × ℝ | p.2 ≤ p.1}.indicator 1 := rfl
  rw [h3, integral_indicator_one hms]
  have hd := diff_law (m + v) m v v
  rw [show m + v - m = (v : ℝ) by ring] at hd
  rw [← hd, map_measureReal_apply (by fun_prop) measurableSet_Iic]
  rw [← Measure.prod_swap (μ := gaussianReal (m + v) v), map_measureReal_apply measurable_swap hms]
  congr 1
  ext p
  simp

/-- Standardisation. -/
theorem standard (m : ℝ) {s : ℝ} (hs : 0 < s) (x : ℝ) : (normal m s).real (Iic x) = (normal 0 1).real (Iic ((x - m) / s)) := by
  have h := gaussianReal_map_const_mul (μ := 0) (v := Real.toNNReal (1 ^ 2)) s
  have h2 := gaussianReal_map_const_add (μ := s * 0) (v := NNReal.mk (s ^ 2) (sq_nonneg s) * Real.toNNReal (1 ^ 2)) m
  rw [← h] at h2
  have e : gaussianReal (s * 0 + m) (NNReal.mk (s ^ 2) (sq_nonneg s) * Real.toNNReal (1 ^ 2)) = normal m s := by
    unfold normal
    congr 1
    · ring
    · ext
      rw [NNReal.coe_mul, Real.coe_toNNReal _ (by norm_num), Real.coe_toNNReal _ (by positivity)]
      simp
  rw [e] at h2
  rw [← h2]
  rw [Measure.map_map (by fun_prop) (by fun_prop), map_measureReal_apply (by fun_prop) measurableSet_Iic]
  unfold normal
  congr 1
  ext u
  simp only [mem_preimage, mem_Iic, Function.comp]
  rw [le_div_iff₀ hs]
  constructor <;> intro h <;> linarith

theorem reflect (x : ℝ) : (normal 0 1).real (Iic (-x)) = 1 - (normal 0 1).real (Iic x) := by
  have hv : Real.toNNReal ((1 : ℝ) ^ 2) ≠ 0 := by norm_num
  have : NullSingletonClass (normal 0 1) := nullSingletonClass_gaussianReal hv
  have h1 : (normal 0 1).real (Iic (-x)) = (normal 0 1).real (Ici x) := by
    have h := gaussianReal_map_neg (μ := 0) (v := Real.toNNReal ((1 : ℝ) ^ 2))
    rw [neg_zero] at h
    have h' : (normal 0 1).map (fun x => -x) = normal 0 1 := h
    conv_lhs => rw [← h']
    rw [map_measureReal_apply measurable_neg measurableSet_Iic]
    congr 1
    ext u
    simp
  have h2 := probReal_compl_eq_one_sub (μ := normal 0 1) (measurableSet_Iic (a := x))
  rw [← h2, h1, compl_Iic]
  exact measureReal_congr Ioi_ae_eq_Ici.symm

theorem log_integrable (m s : ℝ) : Integrable (fun x => x) (logNormal m s) := by
  unfold logNormal
  rw [integrable_map_measure (by fun_prop) (by fun_prop)]
  exact exp_integrable m _

instance (m s : ℝ) : IsProbabilityMeasure (logNormal m s) := Measure.isProbabilityMeasure_map (by fun_prop)

/-- The mean distance of two independent values. -/
theorem log_diff (m : ℝ) {s : ℝ} (hs : 0 < s) : ∫ p, |p.1 - p.2| ∂((logNormal m s).prod (logNormal m s)) =
    2 * Real.exp (m + 1 / 2 * s ^ 2) * (2 * (normal 0 1).real (Iic (s / Real.sqrt 2)) - 1) := by
  have hv : Real.toNNReal (s ^ 2) ≠ 0 := by
    rw [Ne, Real.toNNReal_eq_zero, not_le]; positivity
  have hc : ((Real.toNNReal (s ^ 2) : ℝ≥0) : ℝ) = s ^ 2 := Real.coe_toNNReal _ (by positivity)
  have hl : (logNormal m s).prod (logNormal m s) = ((normal m s).prod (normal m s)).map (Prod.map Real.exp Real.exp) := by
    unfold logNormal
    rw [Measure.map_prod_map _ _ (by fun_prop) (by fun_prop)]
  have hms : MeasurableSet {p : ℝ × ℝ | p.2 ≤ p.1} := measurableSet_le (by fun_prop) (by fun_prop)
  rw [hl, integral_map (by fun_prop) (by fun_prop)]
  have e : ∀ p : ℝ × ℝ, |(Prod.map Real.exp Real.exp p).1 - (Prod.map Real.exp Real.exp p).2| =
      (Real.exp p.2 - Real.exp p.1) + (2 * (if p.2 ≤ p.1 then Real.exp p.1 else 0) - 2 * (if p.2 ≤ p.1 then Real.exp p.2 else 0)) := fun p => by
    show |Real.exp p.1 - Real.exp p.2| = _
    by_cases h : p.2 ≤ p.1
    · rw [if_pos h, if_pos h, abs_of_nonneg (sub_nonneg.2 (Real.exp_le_exp.2 h))]; ring
    · rw [if_neg h, if_neg h, abs_of_nonpos (sub_nonpos.2 (Real.exp_le_exp.2 (le_of_not_ge h)))]; ring
  have i1 : Integrable (fun p : ℝ × ℝ => Real.exp p.1) ((normal m s).prod (normal m s)) := (exp_integrable m _).comp_fst (normal m s)
  have i2 : Integrable (fun p : ℝ × ℝ => Real.exp p.2) ((normal m s).prod (normal m s)) := (exp_integrable m _).comp_snd (normal m s)
  have i3 : Integrable (fun p : ℝ × ℝ => if p.2 ≤ p.1 then Real.exp p.1 else 0) ((normal m s).prod (normal m s)) := i1.indicator hms
  have i4 : Integrable (fun p : ℝ × ℝ => if p.2 ≤ p.1 then Real.exp p.2 else 0) ((normal m s).prod (normal m s)) := i2.indicator hms
  have f1 : ∫ p : ℝ × ℝ, (if p.2 ≤ p.1 then Real.exp p.1 else 0) ∂((normal m s).prod (normal m s)) = _ := first_mean m hv
  have f2 : ∫ p : ℝ × ℝ, (if p.2 ≤ p.1 then Real.exp p.2 else 0) ∂((normal m s).prod (normal m s)) = _ := second_mean m hv
  have g1 : ∫ p : ℝ × ℝ, Real.exp p.1 ∂((normal m s).prod (normal m s)) = ∫ u, Real.exp u ∂(normal m s) := by
    rw [integral_fun_fst (μ := normal m s) (ν := normal m s) Real.exp]; simp
  have g2 : ∫ p : ℝ × ℝ, Real.exp p.2 ∂((normal m s).prod (normal m s)) = ∫ u, Real.exp u ∂(normal m s) := by
    rw [integral_fun_snd (μ := normal m s) (ν := normal m s) Real.exp]; simp
  have k1 : ∫ p : ℝ × ℝ, ((Real.exp p.2 - Real.exp p.1) + (2 * (if p.2 ≤ p.1 then Real.exp p.1 else 0) - 2 * (if p.2 ≤ p.1 then Real.exp p.2 else 0)))
      ∂((normal m s).prod (normal m s)) = ∫ p : ℝ × ℝ, (Real.exp p.2 - Real.exp p.1) ∂((normal m s).prod (normal m s)) +
        ∫ p : ℝ × ℝ, (2 * (if p.2 ≤ p.1 then Real.exp p.1 else 0) - 2 * (if p.2 ≤ p.1 then Real.exp p.2 else 0)) ∂((normal m s).prod (normal m s)) :=
    integral_add (i2.sub i1) ((i3.const_mul 2).sub (i4.const_mul 2))
  rw [integral_congr_ae (.of_forall e), k1, integral_sub i2 i1, integral_sub (i3.const_mul 2) (i4.const_mul 2), integral_const_mul, integral_const_mul,
    g1, g2, f1, f2, hc]
  have hw : Real.toNNReal (s ^ 2) + Real.toNNReal (s ^ 2) = Real.toNNReal ((Real.sqrt 2 * s) ^ 2) := by
    rw [← Real.toNNReal_add (by positivity) (by positivity), mul_pow, Real.sq_sqrt (by norm_num)]
    congr 1; ring
  rw [hw]
  have n1 : (gaussianReal (-s ^ 2) (Real.toNNReal ((Real.sqrt 2 * s) ^ 2))).real (Iic 0) = (normal 0 1).real (Iic (s / Real.sqrt 2)) := by
    have h2 : Real.sqrt 2 * Real.sqrt 2 = 2 := Real.mul_self_sqrt (by norm_num)
    rw [show gaussianReal (-s ^ 2) (Real.toNNReal ((Real.sqrt 2 * s) ^ 2)) = normal (-s ^ 2) (Real.sqrt 2 * s) from rfl, standard _ (by positivity)]
    congr 2
    field_simp
    ring
  have n2 : (gaussianReal (s ^ 2) (Real.toNNReal ((Real.sqrt 2 * s) ^ 2))).real (Iic 0) = 1 - (normal 0 1).real (Iic (s / Real.sqrt 2)) := by
    rw [show gaussianReal (s ^ 2) (Real.toNNReal ((Real.sqrt 2 * s) ^ 2)) = normal (s ^ 2) (Real.sqrt 2 * s) from rfl, standard _ (by positivity), ← reflect]
    congr 2
    field_simp
    ring
  rw [n1, n2, show m + s ^ 2 / 2 = m + 1 / 2 * s ^ 2 by ring]
  ring

theorem log_cdf (m s : ℝ) {y : ℝ} (hy : 0 < y) : (logNormal m s).real (Iic y) = (normal m s).real (Iic (Real.log y)) := by
  unfold logNormal
  rw [map_measureReal_apply (by fun_prop) measurableSet_Iic]
  congr 1
  ext u
  simp only [mem_preimage, mem_Iic]
  exact (Real.le_log_iff_exp_le hy).symm

theorem log_cdf_zero (m s : ℝ) {y : ℝ} (hy : y ≤ 0) : (logNormal m s).real (Iic y) = 0 := by
  unfold logNormal
  rw [map_measureReal_apply (by fun_prop) measurableSet_Iic]
  have : Real.exp ⁻¹' Iic y = ∅ := by
    ext u
    simp only [mem_preimage, mem_Iic, mem_empty_iff_false, iff_false, not_le]
    exact hy.trans_lt (Real.exp_pos u)
  rw [this, measureReal_empty]

theorem log_below (m : ℝ) {s : ℝ} (hs : 0 < s) (y : ℝ) :
    ∫ a in Iic y, a ∂(logNormal m s) = Real.exp (m + 1 / 2 * s ^ 2) * (logNormal (m + s ^ 2) s).real (Iic y) := by
  have hv : Real.toNNReal (s ^ 2) ≠ 0 := by
    rw [Ne, Real.toNNReal_eq_zero, not_le]; positivity
  have hc : ((Real.toNNReal (s ^ 2) : ℝ≥0) : ℝ) = s ^ 2 := Real.coe_toNNReal _ (by positivity)
  have hA : MeasurableSet (Real.exp ⁻¹' Iic y) := Real.measurable_exp measurableSet_Iic
  unfold logNormal
  rw [setIntegral_map measurableSet_Iic (by fun_prop) (by fun_prop), map_measureReal_apply (by fun_prop) measurableSet_Iic]
  have := tilt m hv hA
  rw [hc] at this
  rw [show m + 1 / 2 * s ^ 2 = m + s ^ 2 / 2 by ring]
  exact this

/-- The score of a log-normal law that is not a point. -/
theorem log_score (m : ℝ) {s : ℝ} (hs : 0 < s) (y : ℝ) :
    IsScore (logNormal m s) y (y * (2 * (logNormal m s).real (Iic y) - 1) - 2 * Real.exp (m + 1 / 2 * s ^ 2) *
      ((logNormal (m + s ^ 2) s).real (Iic y) + (normal 0 1).real (Iic (s / Real.sqrt 2)) - 1)) := by
  have hc : ((Real.toNNReal (s ^ 2) : ℝ≥0) : ℝ) = s ^ 2 := Real.coe_toNNReal _ (by positivity)
  have h := score (μ := logNormal m s) (log_integrable m s) y
  have hm : ∫ a, a ∂(logNormal m s) = Real.exp (m + 1 / 2 * s ^ 2) := by
    unfold logNormal
    rw [integral_map (by fun_prop) (by fun_prop)]
    have := exp_mean m (Real.toNNReal (s ^ 2))
    rw [hc] at this
    rw [show m + 1 / 2 * s ^ 2 = m + s ^ 2 / 2 by ring]
    exact this
  rw [mean_abs (log_integrable m s), log_diff m hs, log_below m hs, hm] at h
  convert h using 1
  ring

/-- The score of a point. -/
theorem log_point_score (m y : ℝ) : IsScore (logNormal m 0) y |y - Real.exp m| := by
  have e : logNormal m 0 = Measure.dirac (Real.exp m) := by
    unfold logNormal normal
    norm_num [gaussianReal_zero_var, Measure.map_dirac]
  have h := score (μ := logNormal m 0) (log_integrable m _) y
  rw [e] at h ⊢
  rw [Measure.dirac_prod_dirac, integral_dirac, integral_dirac] at h
  rw [abs_sub_comm]
  simpa using h

end Crps
end LDT
