import Mathlib.Algebra.Order.Field.Basic
import Mathlib.Algebra.BigOperators.Group.List.Basic
/-! # Specification of the area under the ROC curve (no reference to the model of the code) -/
namespace LDT
namespace Roc

variable {K : Type} [Field K] [LinearOrder K]

/-- A positive with score `a` against a negative with score `b` (scores are probabilities of being negative):
1 if ranked correctly, one half for a tie, 0 otherwise. -/
def win (a b : K) : K := if a < b then 1 else if a = b then 1 / 2 else 0

/-- Weighted probability that a random positive is ranked correctly against a random negative; both lists hold
(score, weight) pairs. -/
def rankProb (pos neg : List (K × K)) : K :=
  (pos.map fun p => (neg.map fun n => p.2 * n.2 * win p.1 n.1).sum).sum /
    ((pos.map (·.2)).sum * (neg.map (·.2)).sum)

/-- Ties count as losses (the "pessimistic" area of Fawcett 2006). -/
def winPessimistic (a b : K) : K := if a < b then 1 else 0

/-- The pessimistic area. -/
def rankProbPessimistic (pos neg : List (K × K)) : K :=
  (pos.map fun p => (neg.map fun n => p.2 * n.2 * winPessimistic p.1 n.1).sum).sum /
    ((pos.map (·.2)).sum * (neg.map (·.2)).sum)

/-- Area under the straight line from `p` to `q` (`p.1 ≤ q.1`) to the left of `t`. -/
def segLeft (t : K) (p q : K × K) : K :=
  let c := max p.1 (min q.1 t) - p.1
  c * (p.2 + c * ((q.2 - p.2) / (q.1 - p.1)) / 2)

/-- Area under the polyline through the points to the left of `t`. -/
def areaLeft (t : K) : List (K × K) → K
  | p :: q :: l => segLeft t p q + areaLeft t (q :: l)
  | _ => 0

end Roc
end LDT
