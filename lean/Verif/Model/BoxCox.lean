import Verif.Model.Array
import Mathlib.Analysis.SpecialFunctions.Pow.Real
/-!
# Box-Cox transformation, src/array.cpp:145-179

Exact real arithmetic; a result which is not a finite number is `none`.
-/
namespace LDT
namespace Arr
open Classical

/-- `std::pow` (C17 7.12.7.4 / F.10.4.4) on finite arguments: not finite when a negative base meets a
non-integer exponent and when base 0 meets a negative exponent. -/
noncomputable def cpow (x y : ℝ) : Val ℝ :=
  if 0 < x then some (x ^ y)
  else if x = 0 then (if 0 < y then some 0 else if y = 0 then some 1 else none)
  else if ∃ n : ℤ, y = n then some (x ^ y) else none

/-- `std::log` on finite arguments. -/
noncomputable def clog (x : ℝ) : Val ℝ := if 0 < x then some (Real.log x) else none

/-- `Array::BoxCox0`, src/array.cpp:145-153 (a NaN value stays NaN; the corner `pow(NaN, 0)` does not
occur because λ = 0 takes the other branch). -/
noncomputable def boxCox0 (v lam : Val ℝ) : Val ℝ :=
  match lam with
  | none => v
  | some l =>
    if l ≠ 0 then v.bind fun x => (cpow x l).map fun p => (p - 1) / l
    else v.bind clog

/-- `Array::BoxCoxInv0`, src/array.cpp:155-163. -/
noncomputable def boxCoxInv0 (v lam : Val ℝ) : Val ℝ :=
  match lam with
  | none => v
  | some l =>
    if l ≠ 0 then v.bind fun x => cpow (l * x + 1) (1 / l)
    else v.map Real.exp

/-- `Array::BoxCox`, src/array.cpp:165-171. -/
noncomputable def boxCox (d : List (Val ℝ)) (lam : Val ℝ) : List (Val ℝ) :=
  match lam with
  | none => d
  | some _ => d.map fun v => boxCox0 v lam

/-- `Array::BoxCoxInv`, src/array.cpp:173-179. -/
noncomputable def boxCoxInv (d : List (Val ℝ)) (lam : Val ℝ) : List (Val ℝ) :=
  match lam with
  | none => d
  | some _ => d.map fun v => boxCoxInv0 v lam

end Arr
end LDT
