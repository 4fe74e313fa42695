import Verif.Model.BoxCox
import Mathlib.Analysis.SpecialFunctions.Pow.Deriv
/-!
# C37 Box-Cox
-/
namespace LDT
namespace Arr

/-- What the transformation is (independent formula): `(x^λ - 1)/λ`, and `log x` for `λ = 0`. -/
noncomputable def boxCoxSpec (l x : ℝ) : ℝ := if l = 0 then Real.log x else (x ^ l - 1) / l

theorem boxCox0_pos (l x : ℝ) (hx : 0 < x) : boxCox0 (some x) (some l) = some (boxCoxSpec l x) := by
  unfold boxCox0 boxCoxSpec
  by_cases h : l = 0 <;> simp [h, cpow, clog, hx]

/-- **C37**: on positive values the transformation is the documented formula (and is always finite). -/
theorem C37_formula (l x : ℝ) (hx : 0 < x) : boxCox0 (some x) (some l) = some (boxCoxSpec l x) :=
  boxCox0_pos l x hx

/-- **C37**: the inverse undoes the transformation on every positive value, for every parameter, including
0 and missing. -/
theorem C37_inverse_after (x : ℝ) (lam : Val ℝ) (hx : 0 < x) :
    boxCoxInv0 (boxCox0 (some x) lam) lam = some x := by
  cases lam with
  | none => rfl
  | some l =>
    rw [boxCox0_pos l x hx]
    unfold boxCoxInv0 boxCoxSpec
    by_cases h : l = 0
    · simp [h, Real.exp_log hx]
    · have h1 : l * ((x ^ l - 1) / l) + 1 = x ^ l := by field_simp; ring
      simp only [h, ne_eq, not_false_eq_true, if_true, if_false, Option.bind_some, h1]
      unfold cpow
      rw [if_pos (Real.rpow_pos_of_pos hx l), ← Real.rpow_mul hx.le, mul_one_div_cancel h, Real.rpow_one]

/-- **C37**: conversely the transformation undoes the inverse wherever the inverse is defined by a positive
base (`λ y + 1 > 0`; always for λ = 0). -/
theorem C37_after_inverse (y l : ℝ) (h : 0 < l * y + 1) :
    boxCox0 (boxCoxInv0 (some y) (some l)) (some l) = some y := by
  unfold boxCoxInv0
  by_cases hl : l = 0
  · simp [hl, boxCox0, clog, Real.exp_pos]
  · simp only [hl, ne_eq, not_false_eq_true, if_true, Option.bind_some]
    unfold cpow
    rw [if_pos h, boxCox0_pos _ _ (Real.rpow_pos_of_pos h _)]
    unfold boxCoxSpec
    rw [if_neg hl, ← Real.rpow_mul h.le, one_div_mul_cancel hl, Real.rpow_one]
    congr 1; field_simp; ring

/-- **C37**: the whole array comes back when its observed values are positive; missing cells stay missing. -/
theorem C37_array_round_trip (d : List (Val ℝ)) (lam : Val ℝ) (h : ∀ x, some x ∈ d → 0 < x) :
    boxCoxInv (boxCox d lam) lam = d := by
  cases lam with
  | none => rfl
  | some l =>
    simp only [boxCox, boxCoxInv, List.map_map]
    conv_rhs => rw [← List.map_id d]
    apply List.map_congr_left
    intro v hv
    cases v with
    | none => simp only [Function.comp, boxCox0, boxCoxInv0]; split <;> simp
    | some x => exact C37_inverse_after x (some l) (h x hv)

/-- **C37**: the transformation is strictly increasing on positive values for every parameter (so no two
positive values are merged and the order of the data is kept). -/
theorem C37_strict_mono (l x y : ℝ) (hx : 0 < x) (hxy : x < y) : boxCoxSpec l x < boxCoxSpec l y := by
  unfold boxCoxSpec
  rcases lt_trichotomy l 0 with h | h | h
  · rw [if_neg h.ne, if_neg h.ne]
    have := Real.rpow_lt_rpow_of_neg hx hxy h
    exact div_lt_div_of_neg_of_lt h (by linarith)
  · rw [if_pos h, if_pos h]; exact Real.log_lt_log hx hxy
  · rw [if_neg h.ne', if_neg h.ne']
    have := Real.rpow_lt_rpow hx.le hxy h
    exact div_lt_div_of_pos_right (by linarith) h

/-- The restriction to positive values is needed: with λ = 2 the value -1 comes back as 1. -/
theorem C37_needs_positive : boxCoxInv0 (boxCox0 (some (-1)) (some 2)) (some 2) = some 1 := by
  have h1 : boxCox0 (some (-1)) (some 2) = some 0 := by
    unfold boxCox0 cpow
    have : ∃ n : ℤ, (2 : ℝ) = n := ⟨2, by norm_num⟩
    norm_num [this]
  rw [h1]
  unfold boxCoxInv0 cpow
  norm_num

/-- Non-vacuity: a mixed array meets the hypothesis of the round trip. -/
example : ∀ x : ℝ, some x ∈ ([some 2, none, some 5] : List (Val ℝ)) → 0 < x := by
  intro x hx; simp at hx; rcases hx with rfl | rfl <;> norm_num

end Arr
end LDT
