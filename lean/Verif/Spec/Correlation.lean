import Verif.Spec.Stat
import Mathlib.Analysis.SpecialFunctions.Pow.Real
/-!
# Covariance and correlation of two columns of cells
-/
namespace LDT
namespace Co
open Stat Arr

/-- The covariance of two columns of cells, missing as soon as one cell is missing. -/
def covOf {K : Type} [Field K] [DecidableEq K] (adjust : Bool) (xs ys : List (Val K)) : Val K :=
  if none ∈ xs ∨ none ∈ ys then none else perCount adjust (coSum (pairs xs ys)) (pairs xs ys).length

open Classical in
/-- The coefficient of correlation of two columns of cells: missing as soon as one cell is missing or a column is constant. -/
noncomputable def corOf (xs ys : List (Val ℝ)) : Val ℝ :=
  if none ∈ xs ∨ none ∈ ys ∨ sqSum (numbers xs) = 0 ∨ sqSum (numbers ys) = 0 then none
  else some (coSum (pairs xs ys) / (Real.sqrt (sqSum (numbers xs)) * Real.sqrt (sqSum (numbers ys))))

end Co
end LDT
