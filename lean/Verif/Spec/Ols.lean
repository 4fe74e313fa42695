import Mathlib.LinearAlgebra.Matrix.Defs
import Mathlib.Algebra.Field.Basic
import Mathlib.Algebra.BigOperators.Group.Finset.Basic
import Mathlib.Data.Fintype.BigOperators
/-!
# Specification: least squares
-/
namespace LDT
namespace Ls

section
variable {K : Type} [Field K] {ι κ : Type} [Fintype ι] [Fintype κ]

/-- What is left of the observations after the regressors with the coefficients `b`. -/
def misfit (X : Matrix ι κ K) (y : ι → K) (b : κ → K) : ι → K :=
  fun i => y i - ∑ l, X i l * b l

/-- The sum of squares `Σ v_i²`. -/
def squares (v : ι → K) : K := ∑ i, v i ^ 2

/-- The weighted sum of squares `Σ_i Σ_j v_i W_ij v_j`. -/
def weighted (W : Matrix ι ι K) (v : ι → K) : K := ∑ i, ∑ j, v i * W i j * v j

/-- No regressor is a linear combination of the others. -/
def FullRank (X : Matrix ι κ K) : Prop := ∀ b : κ → K, (∀ i, ∑ l, X i l * b l = 0) → b = 0

/-- Symmetric and positive definite. -/
def PosDef [LinearOrder K] (W : Matrix ι ι K) : Prop :=
  (∀ i j, W i j = W j i) ∧ ∀ v : ι → K, v ≠ 0 → 0 < weighted W v

end
end Ls
end LDT
