import Mathlib.Algebra.Field.Basic
import Mathlib.Algebra.Order.Field.Basic
/-!
# Ranks
-/
namespace LDT
namespace Rk

variable {K : Type} [LinearOrder K]

/-- `x` comes strictly before `y` in the chosen order. -/
def before (ascending : Bool) (x y : K) : Prop := if ascending then x < y else y < x

instance (a : Bool) (x y : K) : Decidable (before a x y) := by unfold before; split <;> infer_instance

/-- The number of elements of `l` that come before `x`: 0 for the first one, equal elements share a rank. -/
def rankIn (ascending : Bool) (l : List K) (x : K) : Nat := l.countP (fun y => before ascending y x)

end Rk
end LDT
