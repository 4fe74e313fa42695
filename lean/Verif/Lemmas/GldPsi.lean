import Verif.Lemmas.GldLog
import Mathlib.NumberTheory.ZetaValues
import Mathlib.Analysis.Calculus.SmoothSeries
/-! # Generalized lambda distribution: the derivatives of digamma at 1 -/
namespace LDT
namespace Gl
open Filter Topology Set

theorem psi_one : psi 1 = -Real.eulerMascheroniConstant := by
  unfold psi
  rw [Real.Gamma_one, div_one, Real.eulerMascheroniConstant_eq_neg_deriv, neg_neg]

theorem psi_succ {x : ℝ} (hx : 0 < x) : psi (x + 1) = psi x + 1 / x := by
  have g := (Real.Gamma_pos_of_pos hx).ne'
  have h1 : HasDerivAt (fun t => Real.Gamma (t + 1)) (Real.Gamma (x + 1) * psi (x + 1)) x := shift (gamma_deriv (show 0 < x + 1 by linarith))
  have h2 : HasDerivAt (fun t => t * Real.Gamma t) (1 * Real.Gamma x + x * (Real.Gamma x * psi x)) x := (hasDerivAt_id x).mul (gamma_deriv hx)
  have h3 := h1.unique (h2.congr_of_eventuallyEq (by
    filter_upwards [isOpen_Ioi.mem_nhds (show x ∈ Ioi 0 from hx)] with t ht using Real.Gamma_add_one (ne_of_gt ht)))
  rw [Real.Gamma_add_one hx.ne'] at h3
  have : x * Real.Gamma x ≠ 0 := mul_ne_zero hx.ne' g
  field_simp at h3 ⊢
  linarith

theorem psi1_succ {x : ℝ} (hx : 0 < x) : deriv psi (x + 1) = deriv psi x - 1 / x ^ 2 := by
  have h1 : HasDerivAt (fun t => psi (t + 1)) (deriv psi (x + 1)) x := shift (psi_deriv (show 0 < x + 1 by linarith))
  have h2 : HasDerivAt (fun t => psi t + 1 / t) (deriv psi x - 1 / x ^ 2) x := by
    have h := (psi_deriv hx).add (hasDerivAt_inv hx.ne')
    simp only [one_div]
    refine h.congr_deriv ?_
    ring
  exact h1.unique (h2.congr_of_eventuallyEq (by
    filter_upwards [isOpen_Ioi.mem_nhds (show x ∈ Ioi 0 from hx)] with t ht using psi_succ ht))

theorem psi1_anti {x y : ℝ} (hx : 0 < x) (hxy : x < y) : deriv psi y ≤ deriv psi x := by
  have h := U1_nonneg (b := y - x - 1) (by linarith) (s := x - 1) (by linarith)
  unfold U1 at h
  rw [show x - 1 + 1 = x by ring, show x - 1 + (y - x - 1 + 2) = y by ring] at h
  linarith

theorem psi1_bounds {x : ℝ} (hx : 0 < x) : 0 ≤ deriv psi x ∧ deriv psi (x + 1) ≤ 1 / x := by
  obtain ⟨c, hc, he⟩ := exists_deriv_eq_slope psi (show x < x + 1 by linarith)
    (fun t ht => (psi_deriv (show 0 < t by linarith [ht.1])).continuousAt.continuousWithinAt)
    (fun t ht => (psi_deriv (show 0 < t by linarith [ht.1])).differentiableAt.differentiableWithinAt)
  rw [psi_succ hx] at he
  have he' : deriv psi c = 1 / x := by rw [he]; field_simp; ring
  have hp : 0 < 1 / x := by positivity
  have h1 := psi1_anti hx hc.1
  have h2 := psi1_anti (show 0 < c by linarith [hc.1]) hc.2
  exact ⟨by linarith, by linarith⟩

theorem psi1_sum {x : ℝ} (hx : 0 < x) : HasSum (fun n : ℕ => 1 / (x + n) ^ 2) (deriv psi x) := by
  rw [hasSum_iff_tendsto_nat_of_nonneg (fun n => by positivity)]
  have step : ∀ n : ℕ, ∑ i ∈ Finset.range n, 1 / (x + i) ^ 2 = deriv psi x - deriv psi (x + n) := by
    intro n
    induction n with
    | zero => simp
    | succ n ih =>
      have := psi1_succ (show 0 < x + n by positivity)
      rw [Finset.sum_range_succ, ih]
      push_cast
      rw [← add_assoc, this]
      ring
  have h0 : Tendsto (fun n : ℕ => deriv psi (x + n)) atTop (𝓝 0) := by
    rw [← tendsto_add_atTop_iff_nat 1]
    refine squeeze_zero (g := fun n : ℕ => 1 / (x + n)) (fun n => (psi1_bounds (show 0 < x + ((n + 1 : ℕ) : ℝ) by positivity)).1) (fun n => ?_) ?_
    · have := (psi1_bounds (show 0 < x + (n : ℝ) by positivity)).2
      push_cast
      rwa [← add_assoc]
    · simp only [one_div]
      exact tendsto_inv_atTop_zero.comp (tendsto_atTop_add_const_left _ _ tendsto_natCast_atTop_atTop)
  have := (tendsto_const_nhds (x := deriv psi x)).sub h0
  rw [sub_zero] at this
  exact this.congr fun n => (step n).symm

theorem psi1_one : deriv psi 1 = Real.pi ^ 2 / 6 := by
  have h := (hasSum_nat_add_iff' 1).2 hasSum_zeta_two
  refine (psi1_sum one_pos).unique ?_
  simp only [Finset.range_one, Finset.sum_singleton, Nat.cast_zero] at h
  norm_num at h
  refine h.congr_fun fun n => ?_
  rw [one_div, add_comm]

theorem psi2_one : deriv (deriv psi) 1 = -2 * ∑' n : ℕ, 1 / ((n : ℝ) + 1) ^ 3 := by
  have hs : Summable fun n : ℕ => 16 / ((n : ℝ) + 1) ^ 3 := by
    have h := ((Real.summable_one_div_nat_pow (p := 3)).2 (by norm_num)).mul_left 16
    have h' := (summable_nat_add_iff 1).2 h
    refine h'.congr fun n => ?_
    push_cast
    ring
  have hmem : (1 : ℝ) ∈ Ioi (1 / 2 : ℝ) := by norm_num
  have h := hasDerivAt_tsum_of_isPreconnected (g := fun (n : ℕ) (y : ℝ) => 1 / (y + n) ^ 2) (g' := fun (n : ℕ) (y : ℝ) => -2 / (y + n) ^ 3) hs isOpen_Ioi
    (isPreconnected_Ioi (a := (1 / 2 : ℝ))) (fun n y hy => ?_) (fun n y hy => ?_) hmem (psi1_sum one_pos).summable hmem
  · have he : deriv psi =ᶠ[𝓝 1] fun z => ∑' n : ℕ, 1 / (z + n) ^ 2 := by
      filter_upwards [isOpen_Ioi.mem_nhds hmem] with z hz
      exact (psi1_sum (lt_trans (by norm_num) hz)).tsum_eq.symm
    rw [he.deriv_eq, h.deriv, ← tsum_mul_left]
    refine tsum_congr fun n => ?_
    rw [add_comm]
    ring
  · have hy' : (1 / 2 : ℝ) < y := hy
    have hn : (0 : ℝ) ≤ n := Nat.cast_nonneg n
    have hp : y + n ≠ 0 := by positivity
    have h := (((hasDerivAt_id y).add_const (n : ℝ)).pow 2).inv (pow_ne_zero 2 hp)
    simp only [one_div]
    refine h.congr_deriv ?_
    simp only [id]
    field_simp
    norm_num
    ring
  · have hy' : (1 / 2 : ℝ) < y := hy
    have hn : (0 : ℝ) ≤ n := Nat.cast_nonneg n
    have hp : 0 < y + n := by linarith
    rw [norm_div, norm_neg, Real.norm_eq_abs, Real.norm_eq_abs, abs_of_pos (pow_pos hp 3), abs_of_pos (by norm_num : (0 : ℝ) < 2),
      div_le_div_iff₀ (pow_pos hp 3) (by positivity)]
    have h2 : (n : ℝ) + 1 ≤ 2 * (y + n) := by linarith
    have h3 := pow_le_pow_left₀ (by positivity) h2 3
    nlinarith

end Gl
end LDT
