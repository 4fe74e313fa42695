import Verif.Spec.Stat
import Mathlib.Analysis.SpecialFunctions.Pow.Real
/-!
# Textbook descriptive statistics
-/
namespace LDT
namespace De
open Stat

section
variable {K : Type} [Field K]

/-- The sum of the `k`-th powers of the deviations from the mean. -/
def central (k : Nat) (l : List K) : K := (l.map (fun x => (x - mean l) ^ k)).sum

end

/-- The skewness of a population: the third central moment over the power 3/2 of the second. -/
noncomputable def popSkew (l : List ℝ) : ℝ :=
  (central 3 l / l.length) / (central 2 l / l.length) ^ (3 / 2 : ℝ)

/-- The excess kurtosis of a population: the fourth central moment over the square of the second, minus three. -/
noncomputable def popKurt (l : List ℝ) : ℝ :=
  (central 4 l / l.length) / (central 2 l / l.length) ^ 2 - 3

/-- The adjusted skewness of a sample, `n / ((n - 1) (n - 2)) Σ ((x - mean) / s)³` with the standard deviation `s` of the
sample. -/
noncomputable def sampleSkew (l : List ℝ) : ℝ :=
  (l.length : ℝ) / ((l.length - 1) * (l.length - 2)) *
    (l.map (fun x => ((x - mean l) / Real.sqrt (central 2 l / (l.length - 1))) ^ 3)).sum

/-- The adjusted excess kurtosis of a sample. -/
noncomputable def sampleKurt (l : List ℝ) : ℝ :=
  ((l.length : ℝ) - 1) / ((l.length - 2) * (l.length - 3)) * ((l.length + 1) * popKurt l + 6)

end De
end LDT
