import Mathlib.Algebra.Order.Floor.Ring
import Mathlib.Algebra.Order.Field.Basic
/-!
# Quantiles of a sorted list (Hyndman and Fan, type 8)
-/
namespace LDT
namespace De

variable {K : Type} [Field K] [LinearOrder K] [FloorRing K]

/-- The `k`-th smallest number, `k = 1, …, n`, of a sorted list; the first one for smaller and the last one for greater
`k`. -/
def ordStat (xs : List K) (k : Int) : K := xs.getD (min ((xs.length : Int) - 1) (max 0 (k - 1))).toNat 0

/-- The continuous function that is `x k` at every integer `k` and linear between two of them. -/
def lineAt (x : Int → K) (t : K) : K := x ⌊t⌋ + Int.fract t * (x (⌊t⌋ + 1) - x ⌊t⌋)

/-- The position `(n + 1/3) τ + 1/3` of the quantile among the order statistics. -/
def position (n : Nat) (tau : K) : K := ((n : K) + 1 / 3) * tau + 1 / 3

end De
end LDT
