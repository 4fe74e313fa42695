import Verif.Model.NelderMead
import Mathlib.MeasureTheory.Integral.Bochner.Set
import Mathlib.MeasureTheory.Measure.Lebesgue.Basic
import Mathlib.Analysis.SpecialFunctions.Gamma.Basic
import Mathlib.Analysis.SpecialFunctions.Pow.Real
import Mathlib.Topology.Algebra.InfiniteSum.Basic
/-!
# What a probability distribution is

An average is a sum over the integers weighted by a mass function, or an integral weighted by a density. The moments, the distribution
function and the quantiles of a law are defined from those; nothing here mentions the program.
-/
namespace LDT
namespace Di
open Op MeasureTheory

/-- `v` is the average of `g` under the mass function `w` on the integers. -/
def SumAvg (w : ℤ → ℝ) (g : ℝ → ℝ) (v : ℝ) : Prop := HasSum (fun k : ℤ => w k * g k) v

/-- `v` is the average of `g` under the density `f`. -/
def IntAvg (f : ℝ → ℝ) (g : ℝ → ℝ) (v : ℝ) : Prop :=
  Integrable (fun x => f x * g x) ∧ ∫ x, f x * g x = v

/-- Total mass one, mean `m` and variance `v`. -/
structure MeanVar (avg : (ℝ → ℝ) → ℝ → Prop) (m v : ℝ) : Prop where
  total : avg (fun _ => 1) 1
  mean : avg (fun x => x) m
  variance : avg (fun x => (x - m) ^ 2) v

/-- Skewness `s`: the third central moment is `s` times the third power of the standard deviation. -/
def Skew (avg : (ℝ → ℝ) → ℝ → Prop) (m v s : ℝ) : Prop := avg (fun x => (x - m) ^ 3) (s * (v * Real.sqrt v))

/-- Excess kurtosis `k`: the fourth central moment is `k + 3` times the square of the variance. -/
def Kurt (avg : (ℝ → ℝ) → ℝ → Prop) (m v k : ℝ) : Prop := avg (fun x => (x - m) ^ 4) ((k + 3) * v ^ 2)

/-- The five reported numbers describe the law with averages `avg`. Skewness and kurtosis only mean something if the variance is not zero. -/
def Described (avg : (ℝ → ℝ) → ℝ → Prop) (mean variance sd skewness kurtosis : Dbl ℝ) : Prop :=
  ∃ m v, mean = .num m ∧ variance = .num v ∧ MeanVar avg m v ∧ sd = .num (Real.sqrt v) ∧
    (0 < v → ∃ s k, skewness = .num s ∧ kurtosis = .num k ∧ Skew avg m v s ∧ Kurt avg m v k)

/-- The number in a `double`; zero for `NaN` and the infinities. -/
def real : Dbl ℝ → ℝ
  | .num x => x
  | _ => 0

/-- A mass function of a law on the integers: finite, not negative, total one. -/
structure IsMass (f : ℝ → Dbl ℝ) : Prop where
  finite : ∀ k : ℤ, ∃ w : ℝ, f k = .num w ∧ 0 ≤ w
  total : SumAvg (fun k => real (f k)) (fun _ => 1) 1

/-- A density: never negative, and of integral one. The value may be infinite, or not a number, at the finitely many points of `E`. -/
structure IsDensity (f : ℝ → Dbl ℝ) (E : Set ℝ) : Prop where
  few : E.Finite
  finite : ∀ x, x ∉ E → ∃ w : ℝ, f x = .num w ∧ 0 ≤ w
  total : IntAvg (fun x => real (f x)) (fun _ => 1) 1

/-- The probability of values up to `x`, for a mass function on the integers. -/
def SumUpTo (w : ℤ → ℝ) (x c : ℝ) : Prop := HasSum (fun k : ℤ => if (k : ℝ) ≤ x then w k else 0) c

/-- The probability of values up to `x`, for a density. -/
def IntUpTo (f : ℝ → ℝ) (x c : ℝ) : Prop := IntegrableOn f (Set.Iic x) ∧ ∫ y in Set.Iic x, f y = c

/-- The probability of values from `x` on, for a mass function on the integers. -/
def SumFrom (w : ℤ → ℝ) (x c : ℝ) : Prop := HasSum (fun k : ℤ => if x ≤ (k : ℝ) then w k else 0) c

/-- `m` is a median of the law on the integers with masses `w`: with probability at least one half a value is not above `m`, and with
probability at least one half it is not below. -/
def IsMedian (w : ℤ → ℝ) (m : ℝ) : Prop := ∃ lo hi, SumUpTo w m lo ∧ SumFrom w m hi ∧ 1 / 2 ≤ lo ∧ 1 / 2 ≤ hi

/-- What the special functions are. -/
structure Special (erfc erfInv : ℝ → ℝ) (gammaP gammaPInv : ℝ → ℝ → ℝ) (iBeta iBetaInv : ℝ → ℝ → ℝ → ℝ) : Prop where
  erfc_def : ∀ x, erfc x = 2 / Real.sqrt Real.pi * ∫ t in Set.Ioi x, Real.exp (-t ^ 2)
  erfInv_def : ∀ y, -1 < y → y < 1 → 1 - erfc (erfInv y) = y
  gammaP_def : ∀ a x, 0 < a → 0 ≤ x → gammaP a x = (∫ t in Set.Ioo 0 x, t ^ (a - 1) * Real.exp (-t)) / Real.Gamma a
  gammaPInv_def : ∀ a p, 0 < a → 0 < p → p < 1 → 0 < gammaPInv a p ∧ gammaP a (gammaPInv a p) = p
  iBeta_def : ∀ a b x, 0 < a → 0 < b → 0 ≤ x → x ≤ 1 →
    iBeta a b x = (∫ t in Set.Ioo 0 x, t ^ (a - 1) * (1 - t) ^ (b - 1)) / (Real.Gamma a * Real.Gamma b / Real.Gamma (a + b))
  iBetaInv_def : ∀ a b p, 0 < a → 0 < b → 0 < p → p < 1 → 0 < iBetaInv a b p ∧ iBetaInv a b p < 1 ∧ iBeta a b (iBetaInv a b p) = p

end Di
end LDT
