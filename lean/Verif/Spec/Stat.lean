import Verif.Model.Array
import Mathlib.Algebra.BigOperators.Group.List.Basic
import Mathlib.Algebra.Field.Basic
/-!
# Textbook statistics of a list of numbers
-/
namespace LDT
namespace Stat
open Arr

variable {K : Type} [Field K]

/-- The arithmetic mean (0 of nothing). -/
def mean (l : List K) : K := l.sum / (l.length : K)

/-- The sum of the products of the deviations from the two means. -/
def coSum (l : List (K × K)) : K :=
  (l.map (fun p => (p.1 - mean (l.map Prod.fst)) * (p.2 - mean (l.map Prod.snd)))).sum

/-- The sum of the squared deviations from the mean. -/
def sqSum (l : List K) : K := (l.map (fun x => (x - mean l) ^ 2)).sum

/-- `total / n` or, for a sample, `total / (n - 1)`; not a number when the divisor is zero. -/
def perCount [DecidableEq K] (sample : Bool) (total : K) (n : Nat) : Val K :=
  let d : K := if sample then (n : K) - 1 else n
  if d = 0 then none else some (total / d)

/-- The numbers among the cells. -/
def numbers (l : List (Val K)) : List K := l.filterMap id

/-- A pair of cells that are both numbers. -/
def complete : Val K × Val K → Option (K × K)
  | (some x, some y) => some (x, y)
  | _ => none

/-- The complete pairs of two lists of cells. -/
def pairs (xs ys : List (Val K)) : List (K × K) := (xs.zip ys).filterMap complete

end Stat
end LDT
