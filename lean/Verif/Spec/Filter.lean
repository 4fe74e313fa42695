import Verif.Model.Array
import Mathlib.Algebra.BigOperators.Group.Finset.Basic
import Mathlib.Algebra.Field.Basic
/-!
# Linear filters of a series
-/
namespace LDT
namespace De
open Arr (Val)

variable {K : Type} [Field K]

/-- `ys` is the recursively filtered series: it starts with the first numbers of `xs`, as many as there are coefficients;
then `y_i = x_i + c_0 y_{i-1} + c_1 y_{i-2} + …`. -/
structure IsRecursive (cs xs ys : List K) : Prop where
  len : ys.length = xs.length
  start : ∀ i, i < cs.length → ys.getD i 0 = xs.getD i 0
  step : ∀ i, cs.length ≤ i → i < xs.length →
    ys.getD i 0 = xs.getD i 0 + ∑ j ∈ Finset.range cs.length, cs.getD j 0 * ys.getD (i - 1 - j) 0

/-- How far the moving average looks ahead: half of the number of coefficients if it is centred. -/
def ahead (centred : Bool) (k : Nat) : Nat := if centred then k / 2 else 0

/-- The moving average `y_i = c_0 x_{i+o} + c_1 x_{i+o-1} + …` with `o` numbers looked ahead; not a number where a number
of the series is missing at one of the ends. -/
def movingAverage (cs xs : List K) (o : Nat) (i : Nat) : Val K :=
  if cs.length ≤ i + o + 1 ∧ i + o < xs.length then
    some (∑ j ∈ Finset.range cs.length, cs.getD j 0 * xs.getD (i + o - j) 0)
  else none

end De
end LDT
