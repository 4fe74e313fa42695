import Mathlib.MeasureTheory.Integral.Bochner.Basic
import Mathlib.MeasureTheory.Measure.Lebesgue.Basic
import Mathlib.Probability.Distributions.Gaussian.Real
/-!
# The continuous ranked probability score

Of a forecast law `μ` and an observation `y`: the integral of the square of the difference between the distribution function of the law and that of the
observation. The laws are those of Mathlib; nothing here mentions the program.
-/
namespace LDT
namespace Crps
open MeasureTheory ProbabilityTheory

/-- The difference of the distribution functions at `x`. -/
noncomputable def gap (μ : Measure ℝ) (y x : ℝ) : ℝ := μ.real (Set.Iic x) - if y ≤ x then 1 else 0

/-- `v` is the score of `μ` at `y`. -/
def IsScore (μ : Measure ℝ) (y v : ℝ) : Prop := Integrable (fun x => gap μ y x ^ 2) ∧ ∫ x, gap μ y x ^ 2 = v

/-- The normal law with mean `m` and standard deviation `s`; for `s = 0` the mass is at `m`. -/
noncomputable def normal (m s : ℝ) : Measure ℝ := gaussianReal m (Real.toNNReal (s ^ 2))

/-- The law of a variable whose logarithm is normal. -/
noncomputable def logNormal (m s : ℝ) : Measure ℝ := (normal m s).map Real.exp

end Crps
end LDT
