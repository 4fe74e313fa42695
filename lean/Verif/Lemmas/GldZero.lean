import Verif.Lemmas.GldPsi
/-! # Generalized lambda distribution: the moments with a shape that is zero -/
namespace LDT
namespace Gl
open Op MeasureTheory Filter Topology Set ProbabilityTheory

/-! ## Both shapes are zero -/

/-- The logistic curve. -/
noncomputable def logit (t : ℝ) : ℝ := Real.log t - Real.log (1 - t)

theorem exp_logit {t : ℝ} (h0 : 0 < t) (h1 : t < 1) (s : ℝ) : Real.exp (s * logit t) = t ^ s * (1 - t) ^ (-s) := by
  rw [Real.rpow_def_of_pos h0, Real.rpow_def_of_pos (by linarith), ← Real.exp_add]
  congr 1
  unfold logit
  ring

theorem nu_zero {f : ℝ → ℝ} {v : ℝ} : (Integrable f (nu 0) ∧ ∫ t, f t ∂(nu 0) = v) ↔ Int1 f v := by
  rw [nu_integrable, nu_integral]
  simp only [Real.rpow_zero, mul_one]
  rfl

theorem logit_int1 {s : ℝ} (h0 : -1 < s) (h1 : s < 1) : Int1 (fun t => Real.exp (s * logit t)) (G (-s) s) :=
  (int_G (by linarith) h0).congr fun t h0 h1 => (exp_logit h0 h1 s).symm

theorem logit_mem {s : ℝ} (h : s ∈ Ioo (-1 : ℝ) 1) : s ∈ interior (integrableExpSet logit (nu 0)) := by
  rw [mem_interior]
  exact ⟨Ioo (-1) 1, fun x hx => (nu_zero.2 (logit_int1 hx.1 hx.2)).1, isOpen_Ioo, h⟩

noncomputable def K (n : ℕ) (s : ℝ) : ℝ := ∫ t, logit t ^ n * Real.exp (s * logit t) ∂(nu 0)

theorem K_deriv {s : ℝ} (h : s ∈ Ioo (-1 : ℝ) 1) (n : ℕ) : HasDerivAt (K n) (K (n + 1) s) s := hasDerivAt_integral_pow_mul_exp_real (logit_mem h) n

theorem K_sin {s : ℝ} (h : s ∈ Ioo (-1 : ℝ) 1) : K 0 s * Real.sin (Real.pi * s) = Real.pi * s := by
  have e : K 0 s = G (-s) s := by
    unfold K
    simp only [pow_zero, one_mul]
    exact (nu_zero.2 (logit_int1 h.1 h.2)).2
  rw [e]
  by_cases h0 : s = 0
  · subst h0; simp
  unfold G
  rw [show s + (-s + 2) = 2 by ring, Real.Gamma_add_one h0, show -s + 1 = 1 - s by ring, mul_assoc, Real.Gamma_mul_Gamma_one_sub, Real.Gamma_two, div_one]
  have hsin : Real.sin (Real.pi * s) ≠ 0 := by
    intro hz
    obtain ⟨n, hn⟩ := Real.sin_eq_zero_iff.1 hz
    have hs : (n : ℝ) = s := by
      have := Real.pi_pos.ne'
      rw [mul_comm] at hn
      exact mul_left_cancel₀ this hn
    rw [← hs] at h h0
    have h1 : -1 < n := by exact_mod_cast h.1
    have h2 : n < 1 := by exact_mod_cast h.2
    have : n = 0 := by omega
    exact h0 (by rw [this]; simp)
  rw [mul_assoc, div_mul_cancel₀ _ hsin, mul_comm]

theorem ident {f g : ℝ → ℝ} {f' g' s : ℝ} (h : s ∈ Ioo (-1 : ℝ) 1) (he : ∀ x ∈ Ioo (-1 : ℝ) 1, f x = g x) (hf : HasDerivAt f f' s) (hg : HasDerivAt g g' s) : f' = g' :=
  hf.unique (hg.congr_of_eventuallyEq (by filter_upwards [isOpen_Ioo.mem_nhds h] with x hx using he x hx))

section
open Real

theorem sin_d (s : ℝ) : HasDerivAt (fun s => sin (π * s)) (π * cos (π * s)) s := by
  have := (Real.hasDerivAt_sin (π * s)).comp s ((hasDerivAt_id s).const_mul π)
  exact this.congr_deriv (by ring)

theorem cos_d (s : ℝ) : HasDerivAt (fun s => cos (π * s)) (-(π * sin (π * s))) s := by
  have := (Real.hasDerivAt_cos (π * s)).comp s ((hasDerivAt_id s).const_mul π)
  exact this.congr_deriv (by ring)

theorem K_id1 {s : ℝ} (h : s ∈ Ioo (-1 : ℝ) 1) : K 1 s * sin (π * s) + K 0 s * (π * cos (π * s)) = π := by
  have := ident h (fun x hx => K_sin hx) ((K_deriv h 0).mul (sin_d s)) ((hasDerivAt_id s).const_mul π)
  rw [mul_one] at this
  exact this

theorem K_id2 {s : ℝ} (h : s ∈ Ioo (-1 : ℝ) 1) : K 2 s * sin (π * s) + 2 * π * (K 1 s * cos (π * s)) - π ^ 2 * (K 0 s * sin (π * s)) = 0 := by
  have := ident h (fun x hx => K_id1 hx) (((K_deriv h 1).mul (sin_d s)).add ((K_deriv h 0).mul ((cos_d s).const_mul π))) (hasDerivAt_const s π)
  norm_num at this
  linear_combination this

theorem K_id3 {s : ℝ} (h : s ∈ Ioo (-1 : ℝ) 1) :
    K 3 s * sin (π * s) + 3 * π * (K 2 s * cos (π * s)) - 3 * π ^ 2 * (K 1 s * sin (π * s)) - π ^ 3 * (K 0 s * cos (π * s)) = 0 := by
  have := ident h (fun x hx => K_id2 hx) ((((K_deriv h 2).mul (sin_d s)).add (((K_deriv h 1).mul (cos_d s)).const_mul (2 * π))).sub
    (((K_deriv h 0).mul (sin_d s)).const_mul (π ^ 2))) (hasDerivAt_const s 0)
  norm_num at this
  linear_combination this

theorem K_id4 {s : ℝ} (h : s ∈ Ioo (-1 : ℝ) 1) : K 4 s * sin (π * s) + 4 * π * (K 3 s * cos (π * s)) - 6 * π ^ 2 * (K 2 s * sin (π * s)) -
    4 * π ^ 3 * (K 1 s * cos (π * s)) + π ^ 4 * (K 0 s * sin (π * s)) = 0 := by
  have := ident h (fun x hx => K_id3 hx) (((((K_deriv h 3).mul (sin_d s)).add (((K_deriv h 2).mul (cos_d s)).const_mul (3 * π))).sub
    (((K_deriv h 1).mul (sin_d s)).const_mul (3 * π ^ 2))).sub (((K_deriv h 0).mul (cos_d s)).const_mul (π ^ 3))) (hasDerivAt_const s 0)
  norm_num at this
  linear_combination this

theorem K_id5 {s : ℝ} (h : s ∈ Ioo (-1 : ℝ) 1) : K 5 s * sin (π * s) + 5 * π * (K 4 s * cos (π * s)) - 10 * π ^ 2 * (K 3 s * sin (π * s)) -
    10 * π ^ 3 * (K 2 s * cos (π * s)) + 5 * π ^ 4 * (K 1 s * sin (π * s)) + π ^ 5 * (K 0 s * cos (π * s)) = 0 := by
  have := ident h (fun x hx => K_id4 hx) ((((((K_deriv h 4).mul (sin_d s)).add (((K_deriv h 3).mul (cos_d s)).const_mul (4 * π))).sub
    (((K_deriv h 2).mul (sin_d s)).const_mul (6 * π ^ 2))).sub (((K_deriv h 1).mul (cos_d s)).const_mul (4 * π ^ 3))).add
    (((K_deriv h 0).mul (sin_d s)).const_mul (π ^ 4))) (hasDerivAt_const s 0)
  norm_num at this
  linear_combination this

theorem zero_mem : (0 : ℝ) ∈ Ioo (-1 : ℝ) 1 := by norm_num

theorem K_zero : K 0 0 = 1 ∧ K 1 0 = 0 ∧ K 2 0 = π ^ 2 / 3 ∧ K 3 0 = 0 ∧ K 4 0 = 7 * π ^ 4 / 15 := by
  have p := Real.pi_pos.ne'
  have e1 := K_id1 zero_mem
  have e2 := K_id2 zero_mem
  have e3 := K_id3 zero_mem
  have e4 := K_id4 zero_mem
  have e5 := K_id5 zero_mem
  rw [mul_zero, sin_zero, cos_zero] at e1 e2 e3 e4 e5
  have k0 : K 0 0 = 1 := mul_right_cancel₀ p (by linear_combination e1)
  have k1 : K 1 0 = 0 := mul_right_cancel₀ p (by linear_combination e2 / 2)
  have k2 : K 2 0 = π ^ 2 / 3 := mul_right_cancel₀ p (by rw [k0] at e3; linear_combination e3 / 3)
  have k3 : K 3 0 = 0 := mul_right_cancel₀ p (by rw [k1] at e4; linear_combination e4 / 4)
  have k4 : K 4 0 = 7 * π ^ 4 / 15 := mul_right_cancel₀ p (by rw [k0, k2] at e5; linear_combination e5 / 5)
  exact ⟨k0, k1, k2, k3, k4⟩

end

theorem int_logit (n : ℕ) : Int1 (fun t => logit t ^ n) (K n 0) := by
  refine nu_zero.1 ⟨integrable_pow_of_mem_interior_integrableExpSet (logit_mem zero_mem) n, ?_⟩
  unfold K
  simp

/-! ## One shape is zero -/

/-- The curve with the shapes 0 and `b`. -/
noncomputable def half (b t : ℝ) : ℝ := Real.log t - ((1 - t) ^ b - 1) / b

theorem G_zero (s : ℝ) (hs : -1 < s) : G 0 s = 1 / (s + 1) := by
  unfold G
  have g := (Real.Gamma_pos_of_pos (show 0 < s + 1 by linarith)).ne'
  rw [zero_add, zero_add, Real.Gamma_one, mul_one, show s + 2 = (s + 1) + 1 by ring, Real.Gamma_add_one (show s + 1 ≠ 0 by linarith)]
  field_simp

theorem inv_d (c : ℝ) (n : ℕ) {s : ℝ} (hs : -1 < s) : HasDerivAt (fun x => c / (x + 1) ^ (n + 1)) (-(c * (n + 1)) / (s + 1) ^ (n + 2)) s := by
  have h1 : s + 1 ≠ 0 := by linarith
  have h := ((((hasDerivAt_id s).add_const 1).pow (n + 1)).inv (pow_ne_zero _ h1)).const_mul c
  simp only [div_eq_mul_inv]
  refine h.congr_deriv ?_
  simp only [id, Pi.pow_apply]
  push_cast
  field_simp
  ring

/-- The means of the powers of a logarithm. -/
theorem log_means : L 0 1 0 = -1 ∧ L 0 2 0 = 2 ∧ L 0 3 0 = -6 ∧ L 0 4 0 = 24 := by
  have hb : (-1 : ℝ) < 0 := by norm_num
  have l0 : ∀ x : ℝ, -1 < x → L 0 0 x = 1 / (x + 1) ^ (0 + 1) := fun x hx => by rw [L0 hb hx, G_zero x hx, zero_add, pow_one]
  have l1 : ∀ x : ℝ, -1 < x → L 0 1 x = -1 / (x + 1) ^ (1 + 1) := fun x hx => (L_step hb hx l0 (inv_d 1 0 hx)).trans (by norm_num)
  have l2 : ∀ x : ℝ, -1 < x → L 0 2 x = 2 / (x + 1) ^ (2 + 1) := fun x hx => (L_step hb hx l1 (inv_d (-1) 1 hx)).trans (by norm_num)
  have l3 : ∀ x : ℝ, -1 < x → L 0 3 x = -6 / (x + 1) ^ (3 + 1) := fun x hx => (L_step hb hx l2 (inv_d 2 2 hx)).trans (by norm_num)
  have l4 : ∀ x : ℝ, -1 < x → L 0 4 x = 24 / (x + 1) ^ (4 + 1) := fun x hx => (L_step hb hx l3 (inv_d (-6) 3 hx)).trans (by norm_num)
  refine ⟨?_, ?_, ?_, ?_⟩
  · rw [l1 0 hb]; norm_num
  · rw [l2 0 hb]; norm_num
  · rw [l3 0 hb]; norm_num
  · rw [l4 0 hb]; norm_num

theorem int_logs (n : ℕ) : Int1 (fun t => Real.log t ^ n) (L 0 n 0) := (int_L (by norm_num) n).congr fun t _ _ => by rw [Real.rpow_zero, mul_one]

section
variable {F : Fns} (hD : F.Digamma)
include hD

theorem polygamma1 {x : ℝ} (hx : 0 < x) : F.polygamma 1 x = deriv psi x := by
  rw [hD.polygamma 1 x one_pos hx, iteratedDeriv_one]
  rfl

theorem polygamma2 {x : ℝ} (hx : 0 < x) : F.polygamma 2 x = deriv (deriv psi) x := by
  rw [hD.polygamma 2 x two_pos hx, iteratedDeriv_succ, iteratedDeriv_one]
  rfl

/-- The constants of the integrals. -/
theorem consts {b : ℝ} (hb : -1 < b) : G b 0 = 1 / (b + 1) ∧ U b 0 = -(F.euler + F.digamma (b + 2)) ∧ U1 b 0 = Real.pi ^ 2 / 6 - F.polygamma 1 (b + 2) ∧
    U2 b 0 = -(2 * F.zeta3 + F.polygamma 2 (b + 2)) := by
  have hp : 0 < b + 2 := by linarith
  refine ⟨?_, ?_, ?_, ?_⟩
  · unfold G
    have g := (Real.Gamma_pos_of_pos (show 0 < b + 1 by linarith)).ne'
    rw [zero_add, zero_add, Real.Gamma_one, one_mul, show b + 2 = (b + 1) + 1 by ring, Real.Gamma_add_one (show b + 1 ≠ 0 by linarith)]
    field_simp
  · unfold U
    rw [zero_add, zero_add, psi_one, hD.euler, hD.digamma _ hp]
    unfold psi
    ring
  · unfold U1
    rw [zero_add, zero_add, psi1_one, polygamma1 hD hp]
  · unfold U2
    rw [zero_add, zero_add, psi2_one, polygamma2 hD hp, hD.zeta3]
    ring

theorem L1v {b : ℝ} (hb : -1 < b) : L b 1 0 = -(F.euler + F.digamma (b + 2)) / (b + 1) := by
  obtain ⟨g, u, -, -⟩ := consts hD hb
  rw [L1 hb (by norm_num), g, u]
  ring

theorem L2v {b : ℝ} (hb : -1 < b) : L b 2 0 = ((F.euler + F.digamma (b + 2)) ^ 2 + (Real.pi ^ 2 / 6 - F.polygamma 1 (b + 2))) / (b + 1) := by
  obtain ⟨g, u, u1, -⟩ := consts hD hb
  rw [L2 hb (by norm_num), g, u, u1]
  ring

theorem L3v {b : ℝ} (hb : -1 < b) : L b 3 0 = -((F.euler + F.digamma (b + 2)) ^ 3 + 3 * (F.euler + F.digamma (b + 2)) *
    (Real.pi ^ 2 / 6 - F.polygamma 1 (b + 2)) + (2 * F.zeta3 + F.polygamma 2 (b + 2))) / (b + 1) := by
  obtain ⟨g, u, u1, u2⟩ := consts hD hb
  rw [L3 hb (by norm_num), g, u, u1, u2]
  ring

omit hD in
/-- A term of a power. -/
theorem int_term' {b : ℝ} (i j : ℕ) (hj : -1 < j * b) : Int1 (fun t => Real.log t ^ i * ((1 - t) ^ b) ^ j) (L (j * b) i 0) :=
  (int_L hj i).congr fun t _ h1 => by rw [pow_nat (by linarith)]

variable {b : ℝ} (h : b ≠ 0)

omit hD in
theorem half1 (h : b ≠ 0) (hb : -1 < b) : Int1 (half b) (-b / (b + 1)) := by
  have h1 : b + 1 ≠ 0 := by linarith
  refine (int_log.sub (((int_pow hb).flip.sub (Int1.const 1)).mul (1 / b))).congr (fun t _ _ => ?_) |>.to (by field_simp; ring)
  unfold half
  ring

include h

theorem half2 (hb : -1 / 2 < b) : Int1 (fun t => half b t ^ 2) (m2zero F b) := by
  have h1 : b + 1 ≠ 0 := by linarith
  have h2 : 2 * b + 1 ≠ 0 := by linarith
  have k2 : b * 2 + 1 ≠ 0 := by linarith
  obtain ⟨l1, l2, -, -⟩ := log_means
  have a := int_logs 2
  have a' := int_logs 1
  have c := int_term' (b := b) 1 1 (by push_cast; linarith)
  have q1 := int_right (b := b) 1 (by push_cast; linarith)
  have q2 := int_right (b := b) 2 (by push_cast; linarith)
  refine ((((((a.add (a'.mul (2 / b))).sub (c.mul (2 / b))).add (Int1.const (1 / b ^ 2))).sub (q1.mul (2 / b ^ 2))).add (q2.mul (1 / b ^ 2)))).congr (fun t _ _ => ?_)
    |>.to ?_
  · unfold half; field_simp; ring
  · push_cast
    rw [l1, l2, one_mul, L1v hD (by linarith)]
    unfold m2zero
    field_simp
    ring

theorem half3 (hb : -1 / 3 < b) : Int1 (fun t => half b t ^ 3) (m3zero F b (-1)) := by
  have h1 : b + 1 ≠ 0 := by linarith
  have h2 : 2 * b + 1 ≠ 0 := by linarith
  have k2 : b * 2 + 1 ≠ 0 := by linarith
  have h3 : 3 * b + 1 ≠ 0 := by linarith
  have k3 : b * 3 + 1 ≠ 0 := by linarith
  obtain ⟨l1, l2, l3, -⟩ := log_means
  have a3 := int_logs 3
  have a2 := int_logs 2
  have a1 := int_logs 1
  have c21 := int_term' (b := b) 2 1 (by push_cast; linarith)
  have c11 := int_term' (b := b) 1 1 (by push_cast; linarith)
  have c12 := int_term' (b := b) 1 2 (by push_cast; linarith)
  have q1 := int_right (b := b) 1 (by push_cast; linarith)
  have q2 := int_right (b := b) 2 (by push_cast; linarith)
  have q3 := int_right (b := b) 3 (by push_cast; linarith)
  refine ((((a3.add ((a2.sub c21).mul (3 / b))).add (((a1.sub (c11.mul 2)).add c12).mul (3 / b ^ 2))).add
    ((((Int1.const 1).sub (q1.mul 3)).add (q2.mul 3)).sub q3 |>.mul (1 / b ^ 3)))).congr (fun t _ _ => ?_) |>.to ?_
  · unfold half; field_simp; ring
  · push_cast
    rw [l1, l2, l3, one_mul, L1v hD (b := b) (by linarith), L1v hD (b := 2 * b) (by linarith), L2v hD (b := b) (by linarith)]
    unfold m3zero
    simp only
    field_simp
    ring

theorem half4 (hb : -1 / 4 < b) : Int1 (fun t => half b t ^ 4) (m4zero F b) := by
  have h1 : b + 1 ≠ 0 := by linarith
  have h2 : 2 * b + 1 ≠ 0 := by linarith
  have k2 : b * 2 + 1 ≠ 0 := by linarith
  have h3 : 3 * b + 1 ≠ 0 := by linarith
  have k3 : b * 3 + 1 ≠ 0 := by linarith
  have h4 : 4 * b + 1 ≠ 0 := by linarith
  have k4 : b * 4 + 1 ≠ 0 := by linarith
  obtain ⟨l1, l2, l3, l4⟩ := log_means
  have a4 := int_logs 4
  have a3 := int_logs 3
  have a2 := int_logs 2
  have a1 := int_logs 1
  have c31 := int_term' (b := b) 3 1 (by push_cast; linarith)
  have c21 := int_term' (b := b) 2 1 (by push_cast; linarith)
  have c22 := int_term' (b := b) 2 2 (by push_cast; linarith)
  have c11 := int_term' (b := b) 1 1 (by push_cast; linarith)
  have c12 := int_term' (b := b) 1 2 (by push_cast; linarith)
  have c13 := int_term' (b := b) 1 3 (by push_cast; linarith)
  have q1 := int_right (b := b) 1 (by push_cast; linarith)
  have q2 := int_right (b := b) 2 (by push_cast; linarith)
  have q3 := int_right (b := b) 3 (by push_cast; linarith)
  have q4 := int_right (b := b) 4 (by push_cast; linarith)
  refine (((((a4.add ((a3.sub c31).mul (4 / b))).add (((a2.sub (c21.mul 2)).add c22).mul (6 / b ^ 2))).add
    ((((a1.sub (c11.mul 3)).add (c12.mul 3)).sub c13).mul (4 / b ^ 3))).add
    (((((Int1.const 1).sub (q1.mul 4)).add (q2.mul 6)).sub (q3.mul 4)).add q4 |>.mul (1 / b ^ 4)))).congr (fun t _ _ => ?_) |>.to ?_
  · unfold half; field_simp; ring
  · push_cast
    rw [l1, l2, l3, l4, one_mul, L1v hD (b := b) (by linarith), L1v hD (b := 2 * b) (by linarith), L1v hD (b := 3 * b) (by linarith),
      L2v hD (b := b) (by linarith), L2v hD (b := 2 * b) (by linarith), L3v hD (b := b) (by linarith)]
    unfold m4zero
    simp only
    field_simp
    ring

end
end Gl
end LDT
