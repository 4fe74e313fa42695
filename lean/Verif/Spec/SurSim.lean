import Verif.Model.SurSim
import Mathlib.Algebra.BigOperators.Fin
/-!
# Specification: scores of projections
-/
namespace LDT
namespace Su
open Score

/-- Observations of variables with their projections and standard deviations. -/
structure Numbers where
  rows : ℕ
  y : ℕ → ℕ → ℝ
  mean : ℕ → ℕ → ℝ
  std : ℕ → ℕ → ℝ

/-- The loss of the projection `μ` (with the standard deviation `σ`) of the observation `y`; `c error σ` is the continuous ranked probability score. -/
noncomputable def loss (c : ℝ → ℝ → ℝ) : Sco → ℝ → ℝ → ℝ → ℝ
  | .sign, y, μ, _ => if 0 < y * μ then 1 else 0
  | .mae, y, μ, _ => |y - μ|
  | .mape, y, μ, _ => |(y - μ) / y|
  | .rmse, y, μ, _ => (y - μ) ^ 2
  | .rmspe, y, μ, _ => ((y - μ) / y) ^ 2
  | .crps, y, μ, σ => c (y - μ) σ
  | _, _, _, _ => 0

/-- The score reported for the mean of the losses. -/
noncomputable def scored : Sco → ℝ → ℝ
  | .mape, v => 100 * v
  | .rmse, v => Real.sqrt v
  | .rmspe, v => 100 * Real.sqrt v
  | _, v => v

/-- The mean loss over all observations of variable `j` in some test samples. -/
noncomputable def meanLoss (c : ℝ → ℝ → ℝ) (e : Sco) (T : List Numbers) (j : ℕ) : ℝ :=
  (T.map fun t => ∑ a ∈ Finset.range t.rows, loss c e (t.y a j) (t.mean a j) (t.std a j)).sum / (T.map fun t => (t.rows : ℝ)).sum

end Su
end LDT
