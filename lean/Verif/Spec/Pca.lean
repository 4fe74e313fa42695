import Verif.Spec.Standardize
import Mathlib.Data.Matrix.Mul
/-!
# What principal components are

Plain mathematics on tables of real numbers.
-/
namespace LDT
namespace Pc
open Sd

variable {r k n : ℕ}

/-- The value of row `i` of the table in the direction `d`. -/
def score (X : Fin r → Fin k → ℝ) (i : Fin r) (d : Fin k → ℝ) : ℝ := ∑ j, X i j * d j

/-- The singular value decomposition `X = U diag(S) V` with `n = min r k` values: what `dgesvd` promises. -/
def IsSvd (X : Fin r → Fin k → ℝ) (S : Fin n → ℝ) (V : Fin n → Fin k → ℝ) : Prop :=
  (∀ a, 0 ≤ S a) ∧ (∀ a b, a ≤ b → S b ≤ S a) ∧ (∀ a b, ∑ j, V a j * V b j = if a = b then 1 else 0) ∧
    ∃ U : Fin r → Fin n → ℝ, (∀ a b, ∑ i, U i a * U i b = if a = b then 1 else 0) ∧ ∀ i j, X i j = ∑ a, U i a * S a * V a j

/-- `D` are the directions of the principal components of the table `X` with `r` rows and `sd` their standard deviations: orthonormal
directions; the components (the scores) are uncorrelated and have these standard deviations, in descending order; together they give
the table back; and no direction that is orthogonal to the earlier ones has a larger second moment. -/
structure IsPca (X : Fin r → Fin k → ℝ) (D : Fin n → Fin k → ℝ) (sd : Fin n → ℝ) : Prop where
  orthonormal : ∀ a b, ∑ j, D a j * D b j = if a = b then 1 else 0
  moments : ∀ a b, (∑ i, score X i (D a) * score X i (D b)) / ((r : ℝ) - 1) = if a = b then sd a ^ 2 else 0
  nonneg : ∀ a, 0 ≤ sd a
  descending : ∀ a b, a ≤ b → sd b ≤ sd a
  complete : ∀ i j, X i j = ∑ a, score X i (D a) * D a j
  best : ∀ (a : Fin n) (w : Fin k → ℝ), (∑ j, w j ^ 2 = 1) → (∀ b, b < a → ∑ j, D b j * w j = 0) →
    (∑ i, score X i w ^ 2) / ((r : ℝ) - 1) ≤ sd a ^ 2

/-- The number of columns that are analysed. -/
noncomputable def width {c : ℕ} (remove scale : Bool) (M : Fin r → Fin c → ℝ) : ℕ := (keptColumns (scale && remove) (colVar true M)).length

/-- The table that is analysed: the kept columns, centred and scaled as asked for. -/
noncomputable def analysed {c : ℕ} (remove center scale : Bool) (M : Fin r → Fin c → ℝ) (N : Fin n → Fin c → ℝ) (i : Fin n)
    (b : Fin (width remove scale M)) : ℝ :=
  let j := (keptColumns (scale && remove) (colVar true M))[(b : ℕ)]'b.2
  (N i j - (if center then colMean M j else 0)) / (if scale then Real.sqrt (colVar true M j) else 1)

/-- The object is a matrix with these numbers. -/
structure Table {c : ℕ} (A : Mx.Mat ℝ) (M : Fin r → Fin c → ℝ) : Prop where
  wf : A.Wf
  rows : A.rows = r
  cols : A.cols = c
  cell : ∀ (i : Fin r) (j : Fin c), A.get (i : ℕ) (j : ℕ) = .ok (M i j)

open Classical in
/-- The share of a component in the total variance; there is none (NaN) if the total is 0. -/
noncomputable def share (sd : Fin n → ℝ) (a : Fin n) : Option ℝ :=
  if ∑ b, sd b ^ 2 = 0 then none else some (sd a ^ 2 / ∑ b, sd b ^ 2)

end Pc
end LDT
