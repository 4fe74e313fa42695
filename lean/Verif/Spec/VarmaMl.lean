import Verif.Spec.VarmaFit
import Mathlib.Analysis.SpecialFunctions.Log.Basic
import Mathlib.Analysis.SpecialFunctions.Trigonometric.Basic
import Mathlib.LinearAlgebra.Matrix.PosDef
/-!
# Specification: maximum likelihood of a VARMA model
-/
namespace LDT
namespace Ve

section
variable {g n k p : ℕ}

/-- `e` are the residuals of the model with the coefficients `B`: those of an observation are what its regressors leave, and these include earlier residuals. -/
def Residuals (y : Matrix (Fin g) (Fin n) ℝ) (x : Matrix (Fin n) (Fin k) ℝ) (lag : Fin p → ℕ) (B : Matrix (Fin g) (Fin k ⊕ (Fin p × Fin g)) ℝ)
    (e : Matrix (Fin g) (Fin n) ℝ) : Prop :=
  ∃ X, WithLags x lag e X ∧ e = left y X B

/-- The logarithm of the likelihood of independent normal errors `e` with mean zero and covariance `S`, whose inverse is `W`. -/
noncomputable def logLik (e : Matrix (Fin g) (Fin n) ℝ) (S W : Matrix (Fin g) (Fin g) ℝ) : ℝ :=
  -((n * g : ℝ) * Real.log (2 * Real.pi) + n * Real.log S.det + ∑ i, ∑ j, ∑ j', e j i * W j j' * e j' i) / 2

end
end Ve
end LDT
