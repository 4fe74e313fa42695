import Verif.Lemmas.GldMoments
import Mathlib.Probability.Moments.MGFAnalytic
import Mathlib.Probability.Distributions.Beta
import Mathlib.NumberTheory.Harmonic.GammaDeriv
/-! # Generalized lambda distribution: integrals with logarithms, by the moment generating function of a logarithm -/
namespace LDT
namespace Gl
open Op MeasureTheory Filter Topology Set ProbabilityTheory

/-- The unit interval with the density `(1 - t) ^ b`. -/
noncomputable def nu (b : ℝ) : Measure ℝ := (volume.restrict (Ioo 0 1)).withDensity fun t => ((Real.toNNReal ((1 - t) ^ b) : NNReal) : ENNReal)

theorem nu_meas (b : ℝ) : Measurable fun t : ℝ => Real.toNNReal ((1 - t) ^ b) := by
  refine Measurable.real_toNNReal ?_
  exact (measurable_const.sub measurable_id).pow_const b

theorem nu_smul (b : ℝ) (f : ℝ → ℝ) {t : ℝ} (ht : t ∈ Ioo (0 : ℝ) 1) : Real.toNNReal ((1 - t) ^ b) • f t = f t * (1 - t) ^ b := by
  have : 0 ≤ (1 - t) ^ b := Real.rpow_nonneg (by linarith [ht.2]) b
  show ((Real.toNNReal ((1 - t) ^ b) : NNReal) : ℝ) * f t = _
  rw [Real.coe_toNNReal _ this, mul_comm]

theorem nu_integrable {b : ℝ} {f : ℝ → ℝ} : Integrable f (nu b) ↔ IntervalIntegrable (fun t => f t * (1 - t) ^ b) volume 0 1 := by
  unfold nu
  rw [integrable_withDensity_iff_integrable_smul (nu_meas b), intervalIntegrable_iff_integrableOn_Ioo_of_le zero_le_one]
  exact integrableOn_congr_fun (fun t ht => nu_smul b f ht) measurableSet_Ioo

theorem nu_integral (b : ℝ) (f : ℝ → ℝ) : ∫ t, f t ∂(nu b) = ∫ t in (0 : ℝ)..1, f t * (1 - t) ^ b := by
  unfold nu
  rw [integral_withDensity_eq_integral_smul (nu_meas b), intervalIntegral.integral_of_le zero_le_one, integral_Ioc_eq_integral_Ioo]
  exact setIntegral_congr_fun measurableSet_Ioo fun t ht => nu_smul b f ht

theorem nu_int1 {b v : ℝ} {f : ℝ → ℝ} (h : Integrable f (nu b)) (hv : ∫ t, f t ∂(nu b) = v) : Int1 (fun t => f t * (1 - t) ^ b) v :=
  ⟨nu_integrable.1 h, by rw [← nu_integral, hv]⟩

/-! ## Gamma and digamma -/

/-- The digamma function. -/
noncomputable def psi (x : ℝ) : ℝ := deriv Real.Gamma x / Real.Gamma x

theorem gamma_an {x : ℝ} (hx : 0 < x) : AnalyticAt ℝ Real.Gamma x := by
  have h : AnalyticAt ℂ Complex.Gamma (x : ℂ) := by
    have hd : DifferentiableOn ℂ Complex.Gamma {z | 0 < z.re} := fun z hz => (Complex.differentiableAt_Gamma z fun m hm => by
      have : z.re = -(m : ℝ) := by rw [hm]; simp
      have hz' : 0 < z.re := hz
      have : (0 : ℝ) ≤ m := Nat.cast_nonneg m
      linarith).differentiableWithinAt
    exact hd.analyticAt ((isOpen_lt continuous_const Complex.continuous_re).mem_nhds (by simpa using hx))
  exact h.re_ofReal

theorem psi_an {x : ℝ} (hx : 0 < x) : AnalyticAt ℝ psi x := (gamma_an hx).deriv.div (gamma_an hx) (Real.Gamma_pos_of_pos hx).ne'

theorem psi1_an {x : ℝ} (hx : 0 < x) : AnalyticAt ℝ (deriv psi) x := (psi_an hx).deriv

theorem psi2_an {x : ℝ} (hx : 0 < x) : AnalyticAt ℝ (deriv (deriv psi)) x := (psi1_an hx).deriv

theorem gamma_deriv {x : ℝ} (hx : 0 < x) : HasDerivAt Real.Gamma (Real.Gamma x * psi x) x := by
  have := (gamma_an hx).differentiableAt.hasDerivAt
  rwa [show Real.Gamma x * psi x = deriv Real.Gamma x from mul_div_cancel₀ _ (Real.Gamma_pos_of_pos hx).ne']

theorem psi_deriv {x : ℝ} (hx : 0 < x) : HasDerivAt psi (deriv psi x) x := (psi_an hx).differentiableAt.hasDerivAt

theorem psi1_deriv {x : ℝ} (hx : 0 < x) : HasDerivAt (deriv psi) (deriv (deriv psi) x) x := (psi1_an hx).differentiableAt.hasDerivAt

theorem shift {f : ℝ → ℝ} {f' s c : ℝ} (h : HasDerivAt f f' (s + c)) : HasDerivAt (fun t => f (t + c)) f' s := h.comp_add_const

/-! ## Logarithms with a power of the other end -/

section
variable {b : ℝ} (hb : -1 < b)

/-- `∫ t ^ s (1 - t) ^ b`. -/
noncomputable def G (b s : ℝ) : ℝ := Real.Gamma (s + 1) * Real.Gamma (b + 1) / Real.Gamma (s + (b + 2))

noncomputable def U (b s : ℝ) : ℝ := psi (s + 1) - psi (s + (b + 2))
noncomputable def U1 (b s : ℝ) : ℝ := deriv psi (s + 1) - deriv psi (s + (b + 2))
noncomputable def U2 (b s : ℝ) : ℝ := deriv (deriv psi) (s + 1) - deriv (deriv psi) (s + (b + 2))

include hb

theorem G_pos {s : ℝ} (hs : -1 < s) : 0 < G b s :=
  div_pos (mul_pos (Real.Gamma_pos_of_pos (by linarith)) (Real.Gamma_pos_of_pos (by linarith))) (Real.Gamma_pos_of_pos (by linarith))

theorem G_deriv {s : ℝ} (hs : -1 < s) : HasDerivAt (G b) (G b s * U b s) s := by
  have h1 := shift (c := 1) (gamma_deriv (show 0 < s + 1 by linarith))
  have h2 := shift (c := b + 2) (gamma_deriv (show 0 < s + (b + 2) by linarith))
  have p2 := (Real.Gamma_pos_of_pos (show 0 < s + (b + 2) by linarith)).ne'
  refine ((h1.mul_const (Real.Gamma (b + 1))).div h2 p2).congr_deriv ?_
  unfold G U
  field_simp

theorem U_deriv {s : ℝ} (hs : -1 < s) : HasDerivAt (U b) (U1 b s) s :=
  (shift (psi_deriv (show 0 < s + 1 by linarith))).sub (shift (psi_deriv (show 0 < s + (b + 2) by linarith)))

theorem U1_deriv {s : ℝ} (hs : -1 < s) : HasDerivAt (U1 b) (U2 b s) s :=
  (shift (psi1_deriv (show 0 < s + 1 by linarith))).sub (shift (psi1_deriv (show 0 < s + (b + 2) by linarith)))

theorem int_G {s : ℝ} (hs : -1 < s) : Int1 (fun t => t ^ s * (1 - t) ^ b) (G b s) := by
  refine (int_beta hs hb).to ?_
  have h := beta_eq_betaIntegralReal (s + 1) (b + 1) (by linarith) (by linarith)
  have e : G b s = ProbabilityTheory.beta (s + 1) (b + 1) := by
    unfold G ProbabilityTheory.beta
    rw [show s + 1 + (b + 1) = s + (b + 2) by ring]
  rw [e, h, Complex.betaIntegral, intervalIntegral.integral_of_le zero_le_one, intervalIntegral.integral_of_le zero_le_one, ← RCLike.re_eq_complex_re, ← integral_re]
  · rw [integral_Ioc_eq_integral_Ioo, integral_Ioc_eq_integral_Ioo]
    refine setIntegral_congr_fun measurableSet_Ioo fun t ht => ?_
    have h1 : 0 < 1 - t := by linarith [ht.2]
    simp only [RCLike.re_eq_complex_re]
    rw [show (1 : ℂ) - (t : ℂ) = ((1 - t : ℝ) : ℂ) by push_cast; ring, show ((s + 1 : ℝ) : ℂ) - 1 = ((s : ℝ) : ℂ) by push_cast; ring,
      show ((b + 1 : ℝ) : ℂ) - 1 = ((b : ℝ) : ℂ) by push_cast; ring, ← Complex.ofReal_cpow ht.1.le, ← Complex.ofReal_cpow h1.le, ← Complex.ofReal_mul, Complex.ofReal_re]
  · have := Complex.betaIntegral_convergent (u := ((s + 1 : ℝ) : ℂ)) (v := ((b + 1 : ℝ) : ℂ)) (by simp; linarith) (by simp; linarith)
    exact (intervalIntegrable_iff_integrableOn_Ioc_of_le zero_le_one).1 this

theorem exp_log {t : ℝ} (ht : t ∈ Ioo (0 : ℝ) 1) (s : ℝ) : Real.exp (s * Real.log t) = t ^ s := by
  rw [Real.rpow_def_of_pos ht.1, mul_comm]

theorem log_integrable {s : ℝ} (hs : -1 < s) : Integrable (fun t => Real.exp (s * Real.log t)) (nu b) := by
  rw [nu_integrable]
  refine (int_G hb hs).1.congr_uIoo fun t ht => ?_
  rw [uIoo_of_le zero_le_one] at ht
  show _ = Real.exp _ * _
  rw [exp_log hb ht]

theorem log_mem {s : ℝ} (hs : -1 < s) : s ∈ interior (integrableExpSet Real.log (nu b)) := by
  rw [mem_interior]
  exact ⟨Ioi (-1), fun x hx => log_integrable hb hx, isOpen_Ioi, hs⟩

theorem log_mgf {s : ℝ} (hs : -1 < s) : ∫ t, Real.exp (s * Real.log t) ∂(nu b) = G b s := by
  rw [nu_integral]
  refine ((int_G hb hs).congr fun t h0 h1 => ?_).2
  show _ = Real.exp _ * _
  rw [exp_log hb ⟨h0, h1⟩]

/-- `∫ log t ^ n t ^ s (1 - t) ^ b`. -/
noncomputable def L (b : ℝ) (n : ℕ) (s : ℝ) : ℝ := ∫ t, Real.log t ^ n * Real.exp (s * Real.log t) ∂(nu b)

theorem L_step {s : ℝ} (hs : -1 < s) {n : ℕ} {f : ℝ → ℝ} {f' : ℝ} (h : ∀ x, -1 < x → L b n x = f x) (hf : HasDerivAt f f' s) : L b (n + 1) s = f' := by
  have h1 := hasDerivAt_integral_pow_mul_exp_real (log_mem hb hs) n
  refine h1.unique (hf.congr_of_eventuallyEq ?_)
  filter_upwards [isOpen_Ioi.mem_nhds (show s ∈ Ioi (-1) from hs)] with x hx using h x hx

theorem L0 {s : ℝ} (hs : -1 < s) : L b 0 s = G b s := by
  unfold L
  simp only [pow_zero, one_mul]
  exact log_mgf hb hs

theorem L1 {s : ℝ} (hs : -1 < s) : L b 1 s = G b s * U b s := L_step hb hs (fun _ h => L0 hb h) (G_deriv hb hs)

theorem L2 {s : ℝ} (hs : -1 < s) : L b 2 s = G b s * (U b s ^ 2 + U1 b s) :=
  L_step hb hs (fun _ h => L1 hb h) (((G_deriv hb hs).mul (U_deriv hb hs)).congr_deriv (by ring))

theorem L3 {s : ℝ} (hs : -1 < s) : L b 3 s = G b s * (U b s ^ 3 + 3 * U b s * U1 b s + U2 b s) := by
  refine L_step hb hs (fun _ h => L2 hb h) (((G_deriv hb hs).mul (((U_deriv hb hs).pow 2).add (U1_deriv hb hs))).congr_deriv ?_)
  norm_num
  ring

theorem int_L (n : ℕ) : Int1 (fun t => Real.log t ^ n * (1 - t) ^ b) (L b n 0) := by
  have h := integrable_pow_of_mem_interior_integrableExpSet (log_mem hb (show (-1 : ℝ) < 0 by norm_num)) n
  refine nu_int1 h ?_
  unfold L
  simp

theorem U1_nonneg {s : ℝ} (hs : -1 < s) : 0 ≤ U1 b s := by
  have h := iteratedDeriv_two_cgf_eq_integral (log_mem hb hs)
  have hnn : 0 ≤ iteratedDeriv 2 (cgf Real.log (nu b)) s := by
    rw [h]
    exact div_nonneg (integral_nonneg fun t => by positivity) mgf_nonneg
  have e : iteratedDeriv 2 (cgf Real.log (nu b)) s = U1 b s := by
    rw [iteratedDeriv_succ, iteratedDeriv_one]
    have hd : deriv (cgf Real.log (nu b)) =ᶠ[𝓝 s] U b := by
      filter_upwards [isOpen_Ioi.mem_nhds (show s ∈ Ioi (-1) from hs)] with x hx
      rw [deriv_cgf (log_mem hb hx)]
      have a1 : ∫ t, Real.log t * Real.exp (x * Real.log t) ∂(nu b) = G b x * U b x := by
        have := L1 hb hx
        unfold L at this
        simpa using this
      have a2 : mgf Real.log (nu b) x = G b x := log_mgf hb hx
      rw [a1, a2, mul_div_cancel_left₀ _ (G_pos hb hx).ne']
    rw [hd.deriv_eq]
    exact (U_deriv hb hs).deriv
  rwa [e] at hnn

end

end Gl
end LDT
