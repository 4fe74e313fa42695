import Verif.Spec.Matrix
import Verif.Model.Array
import Mathlib.Analysis.Real.Sqrt
import Mathlib.Algebra.BigOperators.Group.Finset.Basic
import Mathlib.Data.Fintype.BigOperators
/-!
# What standardizing a table means

Plain mathematics: means and variances of the columns of a table of real numbers, the standardized value, the columns that are kept.
-/
namespace LDT
namespace Sd
open Mx
open Arr (Val)

variable {r c : ℕ}

/-- The object is an `r x c` matrix whose cells are these numbers (no NaN). -/
structure Holds (A : Mat (Val ℝ)) (M : Fin r → Fin c → ℝ) : Prop where
  wf : A.Wf
  rows : A.rows = r
  cols : A.cols = c
  cell : ∀ (i : Fin r) (j : Fin c), A.get (i : ℕ) (j : ℕ) = .ok (some (M i j))

/-- The object is a vector of these numbers. -/
structure HoldsVec (A : Mat (Val ℝ)) (v : Fin c → ℝ) : Prop where
  wf : A.Wf
  len : A.length = c
  cell : ∀ j : Fin c, A.getLin (j : ℕ) = .ok (some (v j))

/-- An optional vector: a pointer that may be null. -/
def HoldsOpt (A : Option (Mat (Val ℝ))) (v : Option (Fin c → ℝ)) : Prop :=
  match A, v with
  | none, none => True
  | some A, some v => HoldsVec A v
  | _, _ => False

/-- The mean of a column. -/
noncomputable def colMean (M : Fin r → Fin c → ℝ) (j : Fin c) : ℝ := (∑ i, M i j) / r

/-- The variance of a column, with the divisor `r - 1` (sample) or `r`. -/
noncomputable def colVar (sample : Bool) (M : Fin r → Fin c → ℝ) (j : Fin c) : ℝ :=
  (∑ i, (M i j - colMean M j) ^ 2) / (if sample then (r : ℝ) - 1 else r)

/-- The value that is subtracted from column `j`: the given mean, else the mean of the column, and 0 if the table is not to be
centred. -/
noncomputable def shift (center : Bool) (om : Option (Fin c → ℝ)) (M : Fin r → Fin c → ℝ) (j : Fin c) : ℝ :=
  if center then (om.getD (colMean M)) j else 0

/-- The variance used for column `j`: the given one, else the variance of the column. -/
noncomputable def spread (sample : Bool) (ov : Option (Fin c → ℝ)) (M : Fin r → Fin c → ℝ) (j : Fin c) : ℝ :=
  (ov.getD (colVar sample M)) j

open Classical in
/-- The standardized value; there is none (NaN) if it is to be scaled and the variance is not positive. -/
noncomputable def standardValue (scale : Bool) (mu v x : ℝ) : Option ℝ :=
  if scale then (if 0 < v then some ((x - mu) / Real.sqrt v) else none) else some (x - mu)

open Classical in
/-- The columns of the result, by their index in the table: all, or - if asked for - those whose variance is not 0. -/
noncomputable def keptColumns (remove : Bool) (v : Fin c → ℝ) : List (Fin c) :=
  (List.finRange c).filter (fun j => decide (remove = true → v j ≠ 0))

end Sd
end LDT
