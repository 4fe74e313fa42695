import Verif.Spec.Gld
import Mathlib.Analysis.Calculus.Deriv.MeanValue
/-! # Generalized lambda distribution: the curve of the quantiles -/
namespace LDT
namespace Gl
open Op MeasureTheory Filter Topology Set

@[simp] theorem add_num (x y : ℝ) : (Dbl.num x : Dbl ℝ) + Dbl.num y = .num (x + y) := rfl
@[simp] theorem sub_num (x y : ℝ) : (Dbl.num x : Dbl ℝ) - Dbl.num y = .num (x - y) := rfl
@[simp] theorem mul_num (x y : ℝ) : (Dbl.num x : Dbl ℝ) * Dbl.num y = .num (x * y) := rfl
theorem div_num {x y : ℝ} (h : y ≠ 0) : (Dbl.num x : Dbl ℝ) / Dbl.num y = .num (x / y) := if_neg h
theorem logD_num {x : ℝ} (h : 0 < x) : logD (.num x) = .num (Real.log x) := if_pos h
theorem powD_num {x : ℝ} (h : 0 < x) (a : ℝ) : powD x a = .num (x ^ a) := if_pos h

/-- A tail in closed form. -/
theorem tail_num (l : ℝ) {x : ℝ} (hx : 0 < x) : tail (.num l) x = if l = 0 then Real.log x else (x ^ l - 1) / l := by
  have h0 : (0 : ℝ) ∉ uIcc 1 x := notMem_uIcc_of_lt one_pos hx
  change (∫ t in (1 : ℝ)..x, t ^ (l - 1)) = _
  by_cases hl : l = 0
  · rw [if_pos hl]
    subst hl
    have : ∀ t : ℝ, t ^ ((0 : ℝ) - 1) = t⁻¹ := fun t => by rw [zero_sub, Real.rpow_neg_one]
    simp only [this]
    rw [integral_inv h0, div_one]
  · rw [if_neg hl, integral_rpow (Or.inr ⟨fun h => hl (by linarith), h0⟩)]
    simp

theorem tail_one (s : Shape) : tail s 1 = 0 := by
  cases s <;> simp [tail]

/-- The slope of a tail. -/
noncomputable def slope : Shape → ℝ → ℝ
  | .num l, x => x ^ (l - 1)
  | _, _ => 0

theorem tail_deriv (s : Shape) {x : ℝ} (hx : 0 < x) : HasDerivAt (tail s) (slope s x) x := by
  cases s with
  | num l =>
    have h0 : (0 : ℝ) ∉ uIcc 1 x := notMem_uIcc_of_lt one_pos hx
    refine intervalIntegral.integral_hasDerivAt_right (intervalIntegral.intervalIntegrable_rpow (Or.inr h0)) ?_ ?_
    · exact (measurable_id.pow_const (l - 1)).stronglyMeasurable.stronglyMeasurableAtFilter
    · exact Real.continuousAt_rpow_const _ _ (Or.inl hx.ne')
  | pinf => exact hasDerivAt_const x 0
  | ninf => exact hasDerivAt_const x 0

theorem slope_nonneg (s : Shape) {x : ℝ} (hx : 0 < x) : 0 ≤ slope s x := by
  cases s with
  | num l => exact (Real.rpow_pos_of_pos hx _).le
  | _ => exact le_refl _

theorem curve_deriv (d1 d2 : ℝ) (d3 d4 : Shape) {p : ℝ} (h0 : 0 < p) (h1 : p < 1) :
    HasDerivAt (curve d1 d2 d3 d4) ((slope d3 p + slope d4 (1 - p)) / d2) p := by
  have h := ((tail_deriv d3 h0).sub ((tail_deriv d4 (show (0 : ℝ) < 1 - p by linarith)).comp p ((hasDerivAt_id p).const_sub 1))).div_const d2
  have h' := h.const_add d1
  refine h'.congr_deriv ?_
  ring

theorem quantileFn_num {p d1 d2 : ℝ} {d3 d4 : Shape} (h0 : 0 < p) (h1 : p < 1) (hd : d2 ≠ 0) (hi : ¬ (d3.isInf = true ∧ d4 = .ninf)) :
    quantileFn p d1 d2 d3 d4 = .num (curve d1 d2 d3 d4 p) := by
  have hq : 0 < 1 - p := by linarith
  have hr : 0 < p / (1 - p) := div_pos h0 hq
  have one : (Dbl.num 1 : Dbl ℝ) / Dbl.num d2 = .num (1 / d2) := div_num hd
  unfold quantileFn curve
  rw [one, div_num hq.ne']
  cases d3 with
  | num a =>
    rw [tail_num a h0]
    by_cases ha : a = 0
    · rw [if_pos (by simp [Shape.isZero, ha]), if_pos ha]
      cases d4 with
      | num b =>
        rw [tail_num b hq]
        by_cases hb : b = 0
        · rw [if_pos (by simp [Shape.isZero, hb]), if_pos hb, logD_num hr, mul_num, add_num, Real.log_div h0.ne' hq.ne']
          congr 1; ring
        · rw [if_neg (by simp [Shape.isZero, hb]), if_neg (by simp [Shape.isInf]), if_neg hb, logD_num h0]
          simp only [Shape.val]
          rw [powD_num hq, sub_num, div_num hb, sub_num, mul_num, add_num]
          congr 1; ring
      | pinf =>
        rw [if_neg (by simp [Shape.isZero]), if_pos (by simp [Shape.isInf]), logD_num h0, mul_num, add_num]
        congr 1; simp only [tail]; ring
      | ninf =>
        rw [if_neg (by simp [Shape.isZero]), if_pos (by simp [Shape.isInf]), logD_num h0, mul_num, add_num]
        congr 1; simp only [tail]; ring
    · rw [if_neg (by simp [Shape.isZero, ha]), if_neg ha]
      cases d4 with
      | num b =>
        rw [tail_num b hq]
        by_cases hb : b = 0
        · rw [if_pos (by simp [Shape.isZero, hb]), if_neg (by simp [Shape.isInf]), if_pos hb, logD_num hq]
          simp only [Shape.val]
          rw [powD_num h0, sub_num, div_num ha, sub_num, mul_num, add_num]
          congr 1; ring
        · rw [if_neg (by simp [Shape.isZero, hb]), if_neg (by simp [Shape.isInf]), if_neg (by simp [Shape.isInf]), if_neg hb]
          simp only [Shape.val]
          rw [powD_num h0, powD_num hq, sub_num, div_num ha, sub_num, div_num hb, sub_num, mul_num, add_num]
          congr 1; ring
      | pinf =>
        rw [if_neg (by simp [Shape.isZero]), if_neg (by simp [Shape.isInf]), if_pos (by simp [Shape.isInf])]
        simp only [Shape.val]
        rw [powD_num h0, sub_num, div_num ha, mul_num, add_num]
        congr 1; simp only [tail]; ring
      | ninf =>
        rw [if_neg (by simp [Shape.isZero]), if_neg (by simp [Shape.isInf]), if_pos (by simp [Shape.isInf])]
        simp only [Shape.val]
        rw [powD_num h0, sub_num, div_num ha, mul_num, add_num]
        congr 1; simp only [tail]; ring
  | _ =>
    rw [if_neg (by simp [Shape.isZero])]
    cases d4 with
    | num b =>
      rw [tail_num b hq]
      by_cases hb : b = 0
      · rw [if_pos (by simp [Shape.isZero, hb]), if_pos (by simp [Shape.isInf]), if_pos hb, logD_num hq, mul_num, sub_num]
        congr 1; simp only [tail]; ring
      · rw [if_neg (by simp [Shape.isZero, hb]), if_pos (by simp [Shape.isInf]), if_neg (by simp [Shape.isInf]), if_neg hb]
        simp only [Shape.val]
        rw [powD_num hq, sub_num, div_num hb, mul_num, sub_num]
        congr 1; simp only [tail]; ring
    | pinf =>
      rw [if_neg (by simp [Shape.isZero]), if_pos (by simp [Shape.isInf]), if_pos (by simp [Shape.isInf]), quantileFn.infBoth, if_pos ⟨h0, h1⟩, one, mul_num, sub_num]
      congr 1; simp only [tail]; ring
    | ninf => exact absurd ⟨rfl, rfl⟩ hi

theorem densityFn_num {p d2 : ℝ} {d3 d4 : Shape} (h0 : 0 < p) (h1 : p < 1) (hi : ¬ (d3.isInf = true ∧ d4.isInf = true)) :
    densityFn p d2 d3 d4 = .num (d2 / (slope d3 p + slope d4 (1 - p))) := by
  have hq : 0 < 1 - p := by linarith
  have e0 : ∀ x : ℝ, 0 < x → x ^ ((0 : ℝ) - 1) = 1 / x := fun x hx => by rw [zero_sub, Real.rpow_neg_one, one_div]
  unfold densityFn
  cases d3 with
  | num a =>
    have pa := Real.rpow_pos_of_pos h0 (a - 1)
    by_cases ha : a = 0
    · rw [if_pos (by simp [Shape.isZero, ha])]
      subst ha
      cases d4 with
      | num b =>
        have pb := Real.rpow_pos_of_pos hq (b - 1)
        by_cases hb : b = 0
        · subst hb
          rw [if_pos (by simp [Shape.isZero])]
          simp only [slope, mul_num, sub_num]
          rw [e0 p h0, e0 _ hq]
          congr 1
          field_simp
          ring
        · rw [if_neg (by simp [Shape.isZero, hb]), if_neg (by simp [Shape.isInf]), div_num h0.ne']
          simp only [slope, Shape.val]
          rw [powD_num hq, add_num, e0 p h0, div_num, add_comm]
          have : 0 < 1 / p := one_div_pos.2 h0
          linarith
      | _ =>
        rw [if_neg (by simp [Shape.isZero]), if_pos (by simp [Shape.isInf])]
        simp only [slope, mul_num]
        rw [e0 p h0]
        congr 1
        field_simp
        ring
    · rw [if_neg (by simp [Shape.isZero, ha])]
      cases d4 with
      | num b =>
        have pb := Real.rpow_pos_of_pos hq (b - 1)
        by_cases hb : b = 0
        · subst hb
          rw [if_pos (by simp [Shape.isZero]), if_neg (by simp [Shape.isInf]), div_num hq.ne']
          simp only [slope, Shape.val]
          rw [powD_num h0, add_num, e0 _ hq, div_num]
          have : 0 < 1 / (1 - p) := one_div_pos.2 hq
          linarith
        · rw [if_neg (by simp [Shape.isZero, hb]), if_neg (by simp [Shape.isInf]), if_neg (by simp [Shape.isInf])]
          simp only [slope, Shape.val]
          rw [powD_num h0, powD_num hq, add_num, div_num]
          linarith
      | _ =>
        rw [if_neg (by simp [Shape.isZero]), if_neg (by simp [Shape.isInf]), if_pos (by simp [Shape.isInf])]
        simp only [slope, Shape.val]
        rw [powD_num h0, div_num pa.ne', add_zero]
  | _ =>
    rw [if_neg (by simp [Shape.isZero])]
    cases d4 with
    | num b =>
      have pb := Real.rpow_pos_of_pos hq (b - 1)
      by_cases hb : b = 0
      · subst hb
        rw [if_pos (by simp [Shape.isZero]), if_pos (by simp [Shape.isInf])]
        simp only [slope, mul_num]
        rw [e0 _ hq]
        congr 1
        field_simp
        ring
      · rw [if_neg (by simp [Shape.isZero, hb]), if_pos (by simp [Shape.isInf])]
        simp only [slope, Shape.val]
        rw [powD_num hq, div_num pb.ne', zero_add]
    | _ => exact absurd ⟨rfl, rfl⟩ hi

end Gl
end LDT
