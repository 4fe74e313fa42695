import Verif.Model.Distance
import Verif.Spec.Stat
import Mathlib.Analysis.SpecialFunctions.Pow.Real
/-!
# What the distance of two columns is (specification for C73)
-/
namespace LDT
namespace Ds
open Arr (Val)

/-- The Euclidean distance of the first to the second components. -/
noncomputable def euclid (l : List (ℝ × ℝ)) : ℝ := Real.sqrt (l.map (fun p => (p.1 - p.2) ^ 2)).sum

/-- The Manhattan distance. -/
noncomputable def manhattan (l : List (ℝ × ℝ)) : ℝ := (l.map (fun p => |p.1 - p.2|)).sum

/-- `x` is the greatest distance of a first to its second component. -/
def IsMaxDist (l : List (ℝ × ℝ)) (x : ℝ) : Prop :=
  (∃ p ∈ l, |p.1 - p.2| = x) ∧ ∀ p ∈ l, |p.1 - p.2| ≤ x

/-- The value of a metric for a list of pairs; the maximum of nothing is minus infinity. -/
def IsDistance (metric : Metric) (l : List (ℝ × ℝ)) (v : Fl ℝ) : Prop :=
  match metric with
  | .euclidean => v = .num (euclid l)
  | .manhattan => v = .num (manhattan l)
  | .maximum => (l = [] ∧ v = .ninf) ∨ ∃ x, v = .num x ∧ IsMaxDist l x

end Ds
end LDT
