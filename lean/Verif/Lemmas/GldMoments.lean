import Verif.Props.Gld
import Mathlib.Analysis.SpecialFunctions.Gamma.Beta
/-! # Generalized lambda distribution: integrals over the unit interval -/
namespace LDT
namespace Gl
open Op MeasureTheory Filter Topology Set

/-- The integral over the unit interval exists and is `v`. -/
def Int1 (f : ℝ → ℝ) (v : ℝ) : Prop := IntervalIntegrable f volume 0 1 ∧ ∫ p in (0 : ℝ)..1, f p = v

variable {f h : ℝ → ℝ} {v w : ℝ}

theorem Int1.add (hf : Int1 f v) (hh : Int1 h w) : Int1 (fun p => f p + h p) (v + w) :=
  ⟨hf.1.add hh.1, by rw [intervalIntegral.integral_add hf.1 hh.1, hf.2, hh.2]⟩

theorem Int1.sub (hf : Int1 f v) (hh : Int1 h w) : Int1 (fun p => f p - h p) (v - w) :=
  ⟨hf.1.sub hh.1, by rw [intervalIntegral.integral_sub hf.1 hh.1, hf.2, hh.2]⟩

theorem Int1.mul (c : ℝ) (hf : Int1 f v) : Int1 (fun p => c * f p) (c * v) :=
  ⟨hf.1.const_mul c, by rw [intervalIntegral.integral_const_mul, hf.2]⟩

theorem Int1.const (c : ℝ) : Int1 (fun _ => c) c := ⟨intervalIntegrable_const, by simp⟩

theorem Int1.congr (hf : Int1 f v) (he : ∀ p, 0 < p → p < 1 → f p = h p) : Int1 h v := by
  have e : EqOn f h (uIoo 0 1) := by
    intro p hp
    rw [uIoo_of_le zero_le_one] at hp
    exact he p hp.1 hp.2
  refine ⟨hf.1.congr_uIoo e, ?_⟩
  rw [← hf.2]
  refine (intervalIntegral.integral_congr_uIoo e).symm

theorem Int1.to (hf : Int1 f v) (h' : v = w) : Int1 f w := h' ▸ hf

theorem Int1.unique (hf : Int1 f v) (hf' : Int1 f w) : v = w := hf.2.symm.trans hf'.2

theorem Int1.flip (hf : Int1 f v) : Int1 (fun p => f (1 - p)) v := by
  refine ⟨?_, ?_⟩
  · have := hf.1.comp_sub_left 1
    simpa using this.symm
  · rw [intervalIntegral.integral_comp_sub_left (fun x => f x) 1]
    simpa using hf.2

/-- Powers of both tails. -/
theorem int_beta {x y : ℝ} (hx : -1 < x) (hy : -1 < y) : Int1 (fun t => t ^ x * (1 - t) ^ y) (∫ t in (0 : ℝ)..1, t ^ x * (1 - t) ^ y) := by
  refine ⟨?_, rfl⟩
  have h := (Complex.betaIntegral_convergent (u := ((x + 1 : ℝ) : ℂ)) (v := ((y + 1 : ℝ) : ℂ)) (by simp; linarith) (by simp; linarith)).norm
  refine h.congr_uIoo fun t ht => ?_
  rw [uIoo_of_le zero_le_one] at ht
  have h1 : 0 < 1 - t := by linarith [ht.2]
  simp only
  rw [norm_mul, show (1 : ℂ) - (t : ℂ) = ((1 - t : ℝ) : ℂ) by push_cast; ring, Complex.norm_cpow_eq_rpow_re_of_pos ht.1, Complex.norm_cpow_eq_rpow_re_of_pos h1]
  simp

theorem int_beta' {F : Fns} (hF : F.Beta) {x y : ℝ} (hx : -1 < x) (hy : -1 < y) : Int1 (fun t => t ^ x * (1 - t) ^ y) (F.beta (x + 1) (y + 1)) := by
  refine (int_beta hx hy).to ?_
  rw [hF.beta _ _ (by linarith) (by linarith)]
  simp

theorem int_pow {x : ℝ} (hx : -1 < x) : Int1 (fun t => t ^ x) (1 / (x + 1)) := by
  refine ⟨intervalIntegral.intervalIntegrable_rpow' hx, ?_⟩
  rw [integral_rpow (Or.inl hx), Real.one_rpow, Real.zero_rpow (by linarith), sub_zero]

theorem int_log : Int1 Real.log (-1) := ⟨intervalIntegral.intervalIntegrable_log', by rw [integral_log]; simp⟩

/-- The integral of a tail. -/
theorem int_tail {l : ℝ} (hl : -1 < l) : Int1 (tail (.num l)) (-(1 / (l + 1))) := by
  have h1 : l + 1 ≠ 0 := by linarith
  by_cases h : l = 0
  · subst h
    refine (int_log.congr fun p h0 _ => ?_).to (by norm_num)
    rw [tail_num 0 h0, if_pos rfl]
  · refine (((int_pow hl).sub (Int1.const 1)).mul (1 / l)).congr (fun p h0 _ => ?_) |>.to (by field_simp; ring)
    rw [tail_num l h0, if_neg h]
    ring

section
variable (g : Gld)

/-- The mean of a distribution. -/
theorem int_curve (h3 : -1 < g.d3) (h4 : -1 < g.d4) : Int1 g.curve (g.d1 + (1 / (g.d4 + 1) - 1 / (g.d3 + 1)) / g.d2) := by
  refine ((Int1.const g.d1).add (((int_tail h3).sub (int_tail h4).flip).mul (1 / g.d2))).congr (fun p _ _ => ?_) |>.to (by ring)
  unfold Gld.curve curve
  ring

end

/-- The sums of powers of the tails, without constants. -/
noncomputable def raw (a b p : ℝ) : ℝ := p ^ a / a - (1 - p) ^ b / b

section
variable {F : Fns} (hF : F.Beta) {a b : ℝ}

theorem curve_raw {d1 d2 : ℝ} (ha : a ≠ 0) (hb : b ≠ 0) {p : ℝ} (h0 : 0 < p) (h1 : p < 1) :
    (Gld.mk d1 d2 a b).curve p = d1 - (1 / a - 1 / b) / d2 + raw a b p / d2 := by
  unfold Gld.curve curve raw
  rw [tail_num a h0, tail_num b (by linarith), if_neg ha, if_neg hb]
  ring

theorem pow_nat {x : ℝ} (hx : 0 < x) (a : ℝ) (n : ℕ) : (x ^ a) ^ n = x ^ (n * a) := by
  rw [mul_comm, Real.rpow_mul hx.le, Real.rpow_natCast]

include hF

/-- A term of a power of `raw`. -/
theorem int_term (i j : ℕ) (hi : -1 < i * a) (hj : -1 < j * b) : Int1 (fun p => (p ^ a) ^ i * ((1 - p) ^ b) ^ j) (F.beta (i * a + 1) (j * b + 1)) := by
  refine (int_beta' hF hi hj).congr fun p h0 h1 => ?_
  rw [pow_nat h0, pow_nat (by linarith)]

omit hF in
theorem int_left (i : ℕ) (hi : -1 < i * a) : Int1 (fun p => (p ^ a) ^ i) (1 / (i * a + 1)) :=
  (int_pow hi).congr fun p h0 _ => by rw [pow_nat h0]

omit hF in
theorem int_right (j : ℕ) (hj : -1 < j * b) : Int1 (fun p => ((1 - p) ^ b) ^ j) (1 / (j * b + 1)) := (int_left j hj).flip

omit hF in
theorem raw1 (ha : a ≠ 0) (hb : b ≠ 0) (h3 : -1 < a) (h4 : -1 < b) : Int1 (raw a b) (1 / (a * (a + 1)) - 1 / (b * (b + 1))) := by
  have h1 : a + 1 ≠ 0 := by linarith
  have h2 : b + 1 ≠ 0 := by linarith
  refine (((int_pow h3).mul (1 / a)).sub (((int_pow h4).flip).mul (1 / b))).congr (fun p _ _ => ?_) |>.to ?_
  · unfold raw; ring
  · field_simp

theorem raw2 (ha : a ≠ 0) (hb : b ≠ 0) (h3 : -1 / 2 < a) (h4 : -1 / 2 < b) :
    Int1 (fun p => raw a b p ^ 2) (1 / (a ^ 2 * (2 * a + 1)) + 1 / (b ^ 2 * (2 * b + 1)) - 2 / (a * b) * F.beta (a + 1) (b + 1)) := by
  have h1 : 2 * a + 1 ≠ 0 := by linarith
  have h2 : 2 * b + 1 ≠ 0 := by linarith
  have A := int_left (a := a) 2 (by push_cast; linarith)
  have B := int_right (b := b) 2 (by push_cast; linarith)
  have C := int_term hF (a := a) (b := b) 1 1 (by push_cast; linarith) (by push_cast; linarith)
  refine (((A.mul (1 / a ^ 2)).add (B.mul (1 / b ^ 2))).sub (C.mul (2 / (a * b)))).congr (fun p _ _ => ?_) |>.to ?_
  · unfold raw; field_simp; ring
  · push_cast; rw [one_mul, one_mul]; field_simp

theorem raw3 (ha : a ≠ 0) (hb : b ≠ 0) (h3 : -1 / 3 < a) (h4 : -1 / 3 < b) :
    Int1 (fun p => raw a b p ^ 3) (1 / (a ^ 3 * (3 * a + 1)) - 1 / (b ^ 3 * (3 * b + 1)) - 3 / (a ^ 2 * b) * F.beta (2 * a + 1) (b + 1) +
      3 / (a * b ^ 2) * F.beta (a + 1) (2 * b + 1)) := by
  have h1 : 3 * a + 1 ≠ 0 := by linarith
  have h2 : 3 * b + 1 ≠ 0 := by linarith
  have A := int_left (a := a) 3 (by push_cast; linarith)
  have B := int_right (b := b) 3 (by push_cast; linarith)
  have C := int_term hF (a := a) (b := b) 2 1 (by push_cast; linarith) (by push_cast; linarith)
  have D := int_term hF (a := a) (b := b) 1 2 (by push_cast; linarith) (by push_cast; linarith)
  refine ((((A.mul (1 / a ^ 3)).sub (B.mul (1 / b ^ 3))).sub (C.mul (3 / (a ^ 2 * b)))).add (D.mul (3 / (a * b ^ 2)))).congr (fun p _ _ => ?_) |>.to ?_
  · unfold raw; field_simp; ring
  · push_cast; rw [one_mul, one_mul]; field_simp

theorem raw4 (ha : a ≠ 0) (hb : b ≠ 0) (h3 : -1 / 4 < a) (h4 : -1 / 4 < b) :
    Int1 (fun p => raw a b p ^ 4) (1 / (a ^ 4 * (4 * a + 1)) + 1 / (b ^ 4 * (4 * b + 1)) + 6 / ((a * b) ^ 2) * F.beta (2 * a + 1) (2 * b + 1) -
      4 / (a ^ 3 * b) * F.beta (3 * a + 1) (b + 1) - 4 / (a * b ^ 3) * F.beta (a + 1) (3 * b + 1)) := by
  have h1 : 4 * a + 1 ≠ 0 := by linarith
  have h2 : 4 * b + 1 ≠ 0 := by linarith
  have A := int_left (a := a) 4 (by push_cast; linarith)
  have B := int_right (b := b) 4 (by push_cast; linarith)
  have C := int_term hF (a := a) (b := b) 2 2 (by push_cast; linarith) (by push_cast; linarith)
  have D := int_term hF (a := a) (b := b) 3 1 (by push_cast; linarith) (by push_cast; linarith)
  have E := int_term hF (a := a) (b := b) 1 3 (by push_cast; linarith) (by push_cast; linarith)
  refine (((((A.mul (1 / a ^ 4)).add (B.mul (1 / b ^ 4))).add (C.mul (6 / ((a * b) ^ 2)))).sub (D.mul (4 / (a ^ 3 * b)))).sub
    (E.mul (4 / (a * b ^ 3)))).congr (fun p _ _ => ?_) |>.to ?_
  · unfold raw; field_simp; ring
  · push_cast; rw [one_mul, one_mul]; field_simp

end
end Gl
end LDT
