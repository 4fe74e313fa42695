import Mathlib.Algebra.BigOperators.Group.Finset.Basic
import Mathlib.Algebra.Field.Basic
/-!
# Specification: the line of a time trend
-/
namespace LDT
namespace De

/-- The sum of the squared distances of the series from the line `a + b t` at the times `t = 1, …, n`. -/
def lineError {K : Type} [Field K] (xs : List K) (a b : K) : K :=
  ∑ k ∈ Finset.range xs.length, (xs.getD k 0 - (a + b * ((k : K) + 1))) ^ 2

end De
end LDT
