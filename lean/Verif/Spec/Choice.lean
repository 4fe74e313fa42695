import Verif.Model.Choice
import Mathlib.MeasureTheory.Integral.Bochner.Set
import Mathlib.Analysis.SpecialFunctions.Gaussian.GaussianIntegral
import Mathlib.Analysis.SpecialFunctions.Log.Deriv
/-!
# Models of discrete choice

`y* = x'β + e`, where `e` has a logistic or a standard normal distribution, and the choice is `j` if `y*` lies between the cutoffs
`j - 1` and `j`: the first cutoff is 0, below it the choice is 0, above the last cutoff it is `J`.
-/
namespace LDT
namespace Dc
open MeasureTheory

/-- The logistic distribution function. -/
noncomputable def logistic (z : ℝ) : ℝ := Real.exp z / (1 + Real.exp z)

/-- The standard normal distribution function. -/
noncomputable def gaussian (z : ℝ) : ℝ := ∫ t in Set.Iio z, Real.exp (-t ^ 2 / 2) / Real.sqrt (2 * Real.pi)

/-- The distribution function of the errors. -/
noncomputable def Law.cdf : Law → ℝ → ℝ
  | .logit => logistic
  | .probit => gaussian

/-- The cutoffs: zero, and then those that follow the `k0` coefficients. -/
def cut (k0 : ℕ) (β : ℕ → ℝ) (j : ℕ) : ℝ := if j = 0 then 0 else β (k0 + j - 1)

/-- The cutoffs increase. -/
def Increasing (J k0 : ℕ) (β : ℕ → ℝ) : Prop := ∀ j, j + 1 < J → cut k0 β j < cut k0 β (j + 1)

/-- The probability that the choice is `j` (of `0, …, J`), when `e` has the distribution function `G` and `x'β = xb`. -/
def chance (G : ℝ → ℝ) (J k0 : ℕ) (β : ℕ → ℝ) (xb : ℝ) (j : ℕ) : ℝ :=
  (if j = J then 1 else G (cut k0 β j - xb)) - (if j = 0 then 0 else G (cut k0 β (j - 1) - xb))

/-- `x'β` for observation `i`. -/
def index (k0 : ℕ) (x : ℕ → ℕ → ℝ) (β : ℕ → ℝ) (i : ℕ) : ℝ := ∑ j ∈ Finset.range k0, x i j * β j

/-- The logarithm of the likelihood of the choices `c i`, each counted `w i` times. -/
noncomputable def logLik (G : ℝ → ℝ) (n J k0 : ℕ) (w : ℕ → ℝ) (c : ℕ → ℕ) (x : ℕ → ℕ → ℝ) (β : ℕ → ℝ) : ℝ :=
  ∑ i ∈ Finset.range n, w i * Real.log (chance G J k0 β (index k0 x β i) (c i))

/-- The regressors of the observations with a positive weight are independent. -/
def Independent (n k0 : ℕ) (w : ℕ → ℝ) (x : ℕ → ℕ → ℝ) : Prop :=
  ∀ b : ℕ → ℝ, (∀ i < n, 0 < w i → index k0 x b i = 0) → ∀ l < k0, b l = 0

/-- The set of errors for which the choice is `j`. -/
def chosen (J k0 : ℕ) (β : ℕ → ℝ) (xb : ℝ) (j : ℕ) : Set ℝ :=
  {e | (j ≠ 0 → cut k0 β (j - 1) ≤ xb + e) ∧ (j ≠ J → xb + e < cut k0 β j)}

end Dc
end LDT
