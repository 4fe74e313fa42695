import Verif.Model.NelderMead
import Mathlib.Analysis.SpecialFunctions.Gamma.Basic
import Mathlib.Analysis.SpecialFunctions.Pow.Real
import Mathlib.Analysis.SpecialFunctions.Trigonometric.Inverse
/-!
# Univariate distributions: `src/ldt_statistics/distributions/distributions_uni.cpp`

Arithmetic is exact, over the real numbers; `Dbl` adds `NaN` and the infinities, which are produced where the program divides by zero.
`std::tgamma`, `exp`, `log`, `pow`, `sqrt` and the constants of helpers.h are the functions and numbers themselves; `std::lgamma` is the
logarithm of the absolute value of Gamma. The remaining special functions (from boost) are parameters. Parameters and arguments are finite.
The generalized lambda distribution (`kGldFkml`) and drawing samples are not in this file.
-/
namespace LDT
namespace Di
open Op

/-- `DistributionType` without `kNone` and `kGldFkml`, distributions.h:12-67. -/
inductive Kind where
  | normal | logNormal | uniformCon | chi2 | t | exponential | f | gamma | beta
  | uniformDis | bernoulli | poisson | geometric | binomial
  deriving DecidableEq, Repr

/-- The special functions of boost used here, helpers.h:86-116. -/
structure Fns where
  erfc : ℝ → ℝ
  erfInv : ℝ → ℝ
  gammaP : ℝ → ℝ → ℝ
  gammaPInv : ℝ → ℝ → ℝ
  iBeta : ℝ → ℝ → ℝ → ℝ
  iBetaInv : ℝ → ℝ → ℝ → ℝ

/-- A distribution with the parameters that were accepted, distributions.h:186. -/
structure Dist where
  kind : Kind
  p1 : ℝ
  p2 : ℝ

/-- Division of finite numbers. -/
noncomputable def quot (a b : ℝ) : Dbl ℝ :=
  if b ≠ 0 then .num (a / b) else if 0 < a then .pinf else if a < 0 then .ninf else .nan

/-- The constructor, distributions_uni.cpp:86-167. -/
noncomputable def make (k : Kind) (p1 p2 : ℝ) : Outcome Dist :=
  match k with
  | .normal => if p2 < 0 then .throws else .ok ⟨k, p1, p2⟩
  | .logNormal => if p2 < 0 then .throws else .ok ⟨k, p1, p2⟩
  | .t => if p1 ≤ 0 then .throws else .ok ⟨k, p1, p2⟩
  | .chi2 => if p1 ≤ 0 then .throws else .ok ⟨k, p1, p2⟩
  | .uniformCon => if p1 > p2 then .throws else .ok ⟨k, p1, p2⟩
  | .exponential => if p1 ≤ 0 then .throws else .ok ⟨k, p1, p2⟩
  | .f => if p1 ≤ 0 ∨ p2 ≤ 0 then .throws else .ok ⟨k, p1, p2⟩
  | .gamma => if p1 ≤ 0 ∨ p2 ≤ 0 then .throws else .ok ⟨k, p1, p2⟩
  | .beta => if p1 ≤ 0 ∨ p2 ≤ 0 then .throws else .ok ⟨k, p1, p2⟩
  | .uniformDis => if p1 > p2 then .throws else .ok ⟨k, p1, p2⟩
  | .poisson => if p1 < 0 then .throws else .ok ⟨k, p1, p2⟩
  | .geometric => if p1 < 0 ∨ p1 > 1 then .throws else .ok ⟨k, p1, p2⟩
  | .bernoulli => if p1 < 0 ∨ p1 > 1 then .throws else .ok ⟨k, p1, p2⟩
  | .binomial => if p1 < 0 ∨ p1 > 1 then .throws else if p2 < 0 then .throws else .ok ⟨k, p1, p2⟩

/-- `GetMinimum()`, distributions_uni.cpp:209-262. -/
def Dist.minimum (d : Dist) : Dbl ℝ :=
  match d.kind with
  | .normal | .t => .ninf
  | .uniformCon | .uniformDis => .num d.p1
  | _ => .num 0

/-- `GetMaximum()`, distributions_uni.cpp:264-318. -/
def Dist.maximum (d : Dist) : Dbl ℝ :=
  match d.kind with
  | .uniformCon | .uniformDis | .binomial => .num d.p2
  | .beta | .bernoulli => .num 1
  | _ => .pinf

/-- `GetMean()`, distributions_uni.cpp:320-386. -/
noncomputable def Dist.mean (d : Dist) : Dbl ℝ :=
  match d.kind with
  | .normal => .num d.p1
  | .logNormal => .num (Real.exp (d.p1 + d.p2 * d.p2 / 2))
  | .t => if d.p1 > 1 then .num 0 else .nan
  | .chi2 => .num d.p1
  | .uniformCon => .num ((d.p1 + d.p2) / 2)
  | .exponential => .num (1 / d.p1)
  | .f => if d.p2 > 2 then .num (d.p2 / (d.p2 - 2)) else .nan
  | .gamma => .num (d.p1 * d.p2)
  | .beta => .num (d.p1 / (d.p1 + d.p2))
  | .uniformDis => .num ((d.p1 + d.p2) / 2)
  | .poisson => .num d.p1
  | .geometric => quot (1 - d.p1) d.p1
  | .bernoulli => .num d.p1
  | .binomial => .num (d.p1 * d.p2)

/-- `GetVariance()`, distributions_uni.cpp:388-466. -/
noncomputable def Dist.variance (d : Dist) : Dbl ℝ :=
  match d.kind with
  | .normal => .num (d.p2 * d.p2)
  | .logNormal => .num ((Real.exp (d.p2 * d.p2) - 1) * Real.exp (d.p1 + d.p1 + d.p2 * d.p2))
  | .t => if d.p1 > 2 then .num (d.p1 / (d.p1 - 2)) else if d.p1 > 1 then .pinf else .nan
  | .chi2 => .num (2 * d.p1)
  | .uniformCon => .num ((d.p2 - d.p1) * (d.p2 - d.p1) / 12)
  | .exponential => .num (1 / (d.p1 * d.p1))
  | .f => if d.p2 > 4 then
      .num ((2 * d.p2 * d.p2 * (d.p1 + d.p2 - 2)) / (d.p1 * (d.p2 - 2) * (d.p2 - 2) * (d.p2 - 4))) else .nan
  | .gamma => .num (d.p1 * d.p2 * d.p2)
  | .beta => .num ((d.p1 * d.p2) / ((d.p1 + d.p2) * (d.p1 + d.p2) * (d.p1 + d.p2 + 1)))
  | .uniformDis => .num (((d.p2 - d.p1 + 1) * (d.p2 - d.p1 + 1) - 1) / 12)
  | .poisson => .num d.p1
  | .geometric => quot (1 - d.p1) (d.p1 * d.p1)
  | .bernoulli => .num (d.p1 * (1 - d.p1))
  | .binomial => .num (d.p1 * (1 - d.p1) * d.p2)

/-- `std::sqrt`. -/
noncomputable def sqrtD : Dbl ℝ → Dbl ℝ
  | .num x => if 0 ≤ x then .num (Real.sqrt x) else .nan
  | .pinf => .pinf
  | _ => .nan

/-- `GetSandardDeviation()`, distributions_uni.cpp:468-476. -/
noncomputable def Dist.sd (d : Dist) : Dbl ℝ :=
  match d.kind with
  | .normal => .num d.p2
  | .logNormal => quot 1 d.p1
  | _ => sqrtD d.variance

/-- `GetSkewness()`, distributions_uni.cpp:478-549. -/
noncomputable def Dist.skewness (d : Dist) : Dbl ℝ :=
  match d.kind with
  | .normal => .num 0
  | .logNormal => .num ((Real.exp (d.p2 * d.p2) + 2) * Real.sqrt (Real.exp (d.p2 * d.p2) - 1))
  | .t => if d.p1 > 3 then .num 0 else .nan
  | .chi2 => .num (Real.sqrt (8 / d.p1))
  | .uniformCon => .num 0
  | .exponential => .num 2
  | .f => if d.p2 > 6 then
      .num (((2 * d.p1 + d.p2 - 2) * Real.sqrt (8 * (d.p2 - 4))) / ((d.p2 - 6) * Real.sqrt (d.p1 * (d.p1 + d.p2 - 2)))) else .nan
  | .gamma => .num (2 / Real.sqrt d.p1)
  | .beta => .num (2 * (d.p2 - d.p1) * Real.sqrt (d.p1 + d.p2 + 1) / ((d.p1 + d.p2 + 2) * Real.sqrt (d.p1 * d.p2)))
  | .uniformDis => .num 0
  | .poisson => quot 1 (Real.sqrt d.p1)
  | .geometric => quot (2 - d.p1) (Real.sqrt (1 - d.p1))
  | .bernoulli => quot (1 - 2 * d.p1) (Real.sqrt (d.p1 * (1 - d.p1)))
  | .binomial => quot (1 - 2 * d.p1) (Real.sqrt (d.p2 * d.p1 * (1 - d.p1)))

/-- Adding a finite number. -/
def plus (a : ℝ) : Dbl ℝ → Dbl ℝ
  | .num x => .num (a + x)
  | x => x

/-- `GetKurtosis()`, distributions_uni.cpp:551-645. -/
noncomputable def Dist.kurtosis (d : Dist) : Dbl ℝ :=
  match d.kind with
  | .normal => .num 0
  | .logNormal =>
    .num (Real.exp (4 * (d.p2 * d.p2)) + 2 * Real.exp (3 * (d.p2 * d.p2)) + 3 * Real.exp (2 * (d.p2 * d.p2)) - 6)
  | .t => if d.p1 > 4 then .num (6 / (d.p1 - 4)) else if d.p1 > 2 then .pinf else .nan
  | .chi2 => .num (12 / d.p1)
  | .uniformCon => .num (-(12 / 10))
  | .exponential => .num 6
  | .f => if d.p2 > 8 then
      .num (12 * (d.p1 * (5 * d.p2 - 22) * (d.p1 + d.p2 - 2) + (d.p2 - 4) * (d.p2 - 2) ^ 2) /
        (d.p1 * (d.p2 - 6) * (d.p2 - 8) * (d.p1 + d.p2 - 2))) else .nan
  | .gamma => .num (6 / d.p1)
  | .beta => .num (6 * ((d.p1 - d.p2) ^ 2 * (d.p1 + d.p2 + 1) - d.p1 * d.p2 * (d.p1 + d.p2 + 2)) /
      (d.p1 * d.p2 * (d.p1 + d.p2 + 2) * (d.p1 + d.p2 + 3)))
  | .uniformDis => quot (-(12 / 10) * ((d.p2 - d.p1 + 1) * (d.p2 - d.p1 + 1) + 1)) ((d.p2 - d.p1 + 1) * (d.p2 - d.p1 + 1) - 1)
  | .poisson => quot 1 d.p1
  | .geometric => plus 6 (quot (d.p1 * d.p1) (1 - d.p1))
  | .bernoulli => quot (1 - 6 * (d.p1 * (1 - d.p1))) (d.p1 * (1 - d.p1))
  | .binomial => quot (1 - 6 * (d.p1 * (1 - d.p1))) (d.p2 * (d.p1 * (1 - d.p1)))

/-- `GetMedian()`, distributions_uni.cpp:647-715. -/
noncomputable def Dist.median (d : Dist) : Dbl ℝ :=
  match d.kind with
  | .normal => .num d.p1
  | .logNormal => .num (Real.exp d.p1)
  | .t => .num 0
  | .chi2 => .num (d.p1 * (1 - 2 / (9 * d.p1)) ^ 3)
  | .uniformCon => .num ((d.p1 + d.p2) / 2)
  | .exponential => .num (Real.log 2 / d.p1)
  | .f | .gamma | .beta => .nan
  | .uniformDis => .num ((d.p1 + d.p2) / 2)
  | .poisson => if d.p1 = 0 then .ninf else .num (⌊d.p1 + 1 / 3 - (2 / 100) / d.p1⌋ : ℤ)
  | .geometric => if d.p1 = 0 then .pinf else if d.p1 = 1 then .num 1
      else .num ((⌈-Real.log 2 / Real.log (1 - d.p1)⌉ : ℤ) - 1)
  | .bernoulli => if d.p1 < 1 / 2 then .num 0 else if d.p1 > 1 / 2 then .num 1 else .num (1 / 2)
  | .binomial => .num (⌊d.p1 * d.p2⌋ : ℤ)

/-- `GetMode()`, distributions_uni.cpp:717-785. -/
noncomputable def Dist.mode (d : Dist) : Dbl ℝ :=
  match d.kind with
  | .normal => .num d.p1
  | .logNormal => .num (Real.exp (d.p1 - d.p2 * d.p2))
  | .t => .num 0
  | .chi2 => .num (max 0 (d.p1 - 2))
  | .uniformCon => d.median
  | .exponential => .num 0
  | .f => if d.p1 > 2 then .num (((d.p1 - 2) * d.p2) / ((d.p2 + 2) * d.p1)) else .nan
  | .gamma => if d.p1 ≥ 1 then .num ((d.p1 - 1) * d.p2) else .nan
  | .beta =>
    if d.p1 = 1 ∧ d.p2 = 1 then .num (1 / 2)
    else if d.p1 ≤ 1 ∧ d.p2 > 0 then .num 0
    else if d.p1 > 1 ∧ d.p2 ≤ 0 then .num 1
    else if d.p1 < 1 ∧ d.p2 < 0 then .num 1
    else quot (d.p1 - 1) (d.p1 + d.p2 - 2)
  | .uniformDis => .nan
  | .poisson => .num (⌊d.p1⌋ : ℤ)
  | .geometric => .num 0
  | .bernoulli => if d.p1 < 1 / 2 then .num 0 else if d.p1 > 1 / 2 then .num 1 else .num 0
  | .binomial => .num (⌊(d.p2 + 1) * d.p1⌋ : ℤ)

/-- `DistributionProperty`, distributions.h:70-98. -/
inductive Property where
  | mean | variance | standardError | skewness | kurtosis | minimum | maximum | median | mode

/-- `GetProperty(propType)`, distributions_uni.cpp:173-198. -/
noncomputable def Dist.property (d : Dist) : Property → Dbl ℝ
  | .mean => d.mean
  | .variance => d.variance
  | .standardError => d.sd
  | .skewness => d.skewness
  | .kurtosis => d.kurtosis
  | .minimum => d.minimum
  | .maximum => d.minimum
  | .median => d.median
  | .mode => d.mode

/-- `x < GetMinimum() || x > GetMaximum()`, distributions_uni.cpp:875-876. -/
noncomputable def Dist.impossible (d : Dist) (x : ℝ) : Bool := (Dbl.num x).lt d.minimum || d.maximum.lt (Dbl.num x)

/-- A positive number times `std::pow(x, e)`, which is infinite for `x = 0` and a negative exponent; `v` is the product otherwise. -/
noncomputable def orInf (x e v : ℝ) : Dbl ℝ := if x = 0 ∧ e < 0 then .pinf else .num v

/-- `GetPdfOrPmf(x)` for a possible `x`, distributions_uni.cpp:879-936. The first parameter of `kChi2` is finite. With a standard deviation
of zero, and for `kLogNormal` and `kF` at zero, the result is `0/0`. `Math_BinomialCoefficient` is the binomial coefficient. -/
noncomputable def Dist.density (d : Dist) (x : ℝ) : Dbl ℝ :=
  match d.kind with
  | .normal => if d.p2 = 0 then .nan else
      .num (Real.exp (-(1 / 2) * ((x - d.p1) / d.p2) * ((x - d.p1) / d.p2)) / (Real.sqrt (2 * Real.pi) * d.p2))
  | .logNormal => if d.p2 = 0 ∨ x = 0 then .nan else
      .num (Real.exp (-(1 / 2) * ((Real.log x - d.p1) / d.p2) * ((Real.log x - d.p1) / d.p2)) /
        (x * Real.sqrt (2 * Real.pi) * d.p2))
  | .t => .num (Real.Gamma ((d.p1 + 1) / 2) * (1 + x * x / d.p1) ^ (-((d.p1 + 1) / 2)) /
      (Real.Gamma (d.p1 / 2) * Real.sqrt (d.p1 * Real.pi)))
  | .chi2 => orInf x (d.p1 / 2 - 1)
      (Real.exp (-x / 2) * x ^ (d.p1 / 2 - 1) / (2 ^ (d.p1 / 2) * Real.Gamma (d.p1 / 2)))
  | .uniformCon => quot 1 (d.p2 - d.p1)
  | .exponential => .num (d.p1 * Real.exp (-d.p1 * x))
  | .f => if x = 0 then .nan else
      .num (Real.sqrt ((d.p1 * x) ^ d.p1 * d.p2 ^ d.p2 / (d.p1 * x + d.p2) ^ (d.p1 + d.p2)) /
        (x * (Real.Gamma (d.p1 / 2) * Real.Gamma (d.p2 / 2) / Real.Gamma (d.p1 / 2 + d.p2 / 2))))
  | .gamma => orInf x (d.p1 - 1) (d.p2 ^ (-d.p1) * x ^ (d.p1 - 1) * Real.exp (-x / d.p2) / Real.Gamma d.p1)
  | .beta => if (x = 0 ∧ d.p1 - 1 < 0) ∨ (1 - x = 0 ∧ d.p2 - 1 < 0) then .pinf else
      .num (Real.Gamma (d.p1 + d.p2) / (Real.Gamma d.p1 * Real.Gamma d.p2) * x ^ (d.p1 - 1) * (1 - x) ^ (d.p2 - 1))
  | .uniformDis => if x ≥ d.p1 ∧ x ≤ d.p2 then .num (1 / (d.p2 - d.p1 + 1)) else .num 0
  | .poisson => if d.p1 = 0 then (if x = 0 then .nan else .num 0) else
      .num (Real.exp (-d.p1 + x * Real.log d.p1 - Real.log |Real.Gamma (x + 1)|))
  | .geometric => .num ((1 - d.p1) ^ x * d.p1)
  | .bernoulli => if x = 0 then .num (1 - d.p1) else if x = 1 then .num d.p1 else .num 0
  | .binomial => if x > d.p2 then .num 0 else
      .num ((Nat.choose ⌊d.p2⌋₊ ⌊x⌋₊ : ℝ) * d.p1 ^ x * (1 - d.p1) ^ (d.p2 - x))

/-- `GetPdfOrPmf(x)`, distributions_uni.cpp:874-937. -/
noncomputable def Dist.pdf (d : Dist) (x : ℝ) : Dbl ℝ := if d.impossible x then .num 0 else d.density x

/-- `GetCdf(x)` for `x` between the minimum and the maximum, distributions_uni.cpp:1046-1088. With a standard deviation of zero the
argument of `erfc` is infinite or `0/0`; `kLogNormal` at zero has `log(0) = -inf`; `kBinomial` at the number of trials divides by zero
(`0 * inf`), and so does probability zero. -/
noncomputable def Dist.cdfInside (S : Fns) (d : Dist) (x : ℝ) : Dbl ℝ :=
  match d.kind with
  | .normal => if d.p2 = 0 then (if d.p1 - x > 0 then .num 0 else if d.p1 - x < 0 then .num 1 else .nan)
      else .num (1 / 2 * S.erfc ((d.p1 - x) / (d.p2 * Real.sqrt 2)))
  | .logNormal => if x = 0 then .num 0
      else if d.p2 = 0 then (if d.p1 - Real.log x > 0 then .num 0 else if d.p1 - Real.log x < 0 then .num 1 else .nan)
      else .num (1 / 2 * S.erfc ((d.p1 - Real.log x) / (d.p2 * Real.sqrt 2)))
  | .t =>
    let b := 1 / 2 * S.iBeta (d.p1 / 2) (1 / 2) (d.p1 / (x * x + d.p1))
    if x ≤ 0 then .num b else .num (1 - b)
  | .chi2 => .num (S.gammaP (d.p1 / 2) (x / 2))
  | .uniformCon => quot (x - d.p1) (d.p2 - d.p1)
  | .exponential => .num (1 - Real.exp (-d.p1 * x))
  | .f => .num (S.iBeta (d.p1 / 2) (d.p2 / 2) (d.p1 * x / (d.p1 * x + d.p2)))
  | .gamma => .num (S.gammaP d.p1 (x / d.p2))
  | .beta => .num (S.iBeta d.p1 d.p2 x)
  | .uniformDis => .num (min 1 (((⌊x⌋ : ℤ) - d.p1 + 1) / (d.p2 - d.p1 + 1)))
  | .poisson => .num (1 - S.gammaP (x + 1) d.p1)
  | .geometric => .num (1 - (1 - d.p1) ^ (x + 1))
  | .bernoulli => if x = 0 then .num 0 else if x = 1 then .num 1 else .num (1 - d.p1)
  | .binomial =>
    if d.p1 = 0 ∨ d.p2 - x = 0 then .nan
    else
      let d1 := 2 * (d.p2 - x)
      let d2 := 2 * (x + 1)
      let xx := (1 - d.p1) / d.p1 * ((x + 1) / (d.p2 - x))
      .num (S.iBeta (d1 / 2) (d2 / 2) (d1 * xx / (d1 * xx + d2)))

/-- `GetCdf(x)`, distributions_uni.cpp:1035-1089. -/
noncomputable def Dist.cdf (S : Fns) (d : Dist) (x : ℝ) : Dbl ℝ :=
  if (Dbl.num x).lt d.minimum then .num 0
  else if d.maximum.lt (Dbl.num x) then .num 1
  else d.cdfInside S x

/-- The downward search, distributions_uni.cpp:1155-1162. -/
noncomputable def searchDown (cdf : ℝ → Dbl ℝ) (p : ℝ) : Nat → ℝ → Dbl ℝ
  | 0, _ => .nan
  | i + 1, q => if (cdf (q - 1)).lt (Dbl.num p) then .num (q - 1 + 1) else searchDown cdf p i (q - 1)

/-- The upward search, distributions_uni.cpp:1163-1171. -/
noncomputable def searchUp (cdf : ℝ → Dbl ℝ) (p : ℝ) : Nat → ℝ → Dbl ℝ
  | 0, _ => .nan
  | i + 1, q => if (Dbl.num p).le (cdf (q + 1)) then .num (q + 1) else searchUp cdf p i (q + 1)

/-- `Math_ErfInv`-based quantile of the normal distribution, distributions_uni.cpp:1097-1098. -/
noncomputable def normalQuantile (S : Fns) (m s p : ℝ) : ℝ := m + s * Real.sqrt 2 * S.erfInv (2 * p - 1)

/-- The search of the discrete distributions from the normal approximation, distributions_uni.cpp:1146-1171. `a`, `b` are minimum and
maximum (infinity is `none`). Mean and variance must be finite here. -/
noncomputable def searchQuantile (S : Fns) (d : Dist) (m v : ℝ) (lo : ℝ) (hi : Option ℝ) (p : ℝ) : Dbl ℝ :=
  let q0 := max lo (⌊normalQuantile S m v p⌋ : ℤ)
  let q := match hi with | none => q0 | some h => min h q0
  if (Dbl.num p).lt (d.cdf S q) then searchDown (d.cdf S) p 100 q else searchUp (d.cdf S) p 100 q

/-- `GetQuantile(p)` for `0 < p < 1`, distributions_uni.cpp:1097-1188. Parameters of `kT` are finite. For `kGeometric` the probability is
not zero (mean and variance are infinite otherwise). -/
noncomputable def Dist.quantileInside (S : Fns) (d : Dist) (p : ℝ) : Dbl ℝ :=
  match d.kind with
  | .normal => .num (normalQuantile S d.p1 d.p2 p)
  | .logNormal => .num (Real.exp (d.p1 + d.p2 * Real.sqrt 2 * S.erfInv (2 * p - 1)))
  | .t =>
    if p = 1 / 2 then .num 0
    else if d.p1 = 1 then .num (Real.tan (Real.pi * (p - 1 / 2)))
    else if d.p1 = 2 then .num ((2 * p - 1) * Real.sqrt (2 / (4 * p * (1 - p))))
    else if d.p1 = 4 then
      .num ((SignType.sign (p - 1 / 2) : ℝ) * 2 *
        Real.sqrt (Real.cos (1 / 3 * Real.arccos (Real.sqrt (4 * p * (1 - p)))) / Real.sqrt (4 * p * (1 - p)) - 1))
    else
      let x := S.iBetaInv (d.p1 / 2) (1 / 2) (if p < 1 / 2 then 2 * p else 2 * (1 - p))
      let y := Real.sqrt (d.p1 * (1 - x) / x)
      .num (if p < 1 / 2 then -y else y)
  | .chi2 => .num (S.gammaPInv (d.p1 / 2) p * 2)
  | .uniformCon => .num (d.p1 + p * (d.p2 - d.p1))
  | .exponential => .num (-Real.log (1 - p) / d.p1)
  | .f => let x := S.iBetaInv (d.p1 / 2) (d.p2 / 2) p
    .num (d.p2 * x / (d.p1 * (1 - x)))
  | .gamma => .num (S.gammaPInv d.p1 p * d.p2)
  | .beta => .num (S.iBetaInv d.p1 d.p2 p)
  | .uniformDis => .num (⌊d.p1 + p * (d.p2 - d.p1)⌋ : ℤ)
  | .poisson => searchQuantile S d d.p1 d.p1 0 none p
  | .geometric => searchQuantile S d ((1 - d.p1) / d.p1) ((1 - d.p1) / (d.p1 * d.p1)) 0 none p
  | .bernoulli => searchQuantile S d d.p1 (d.p1 * (1 - d.p1)) 0 (some 1) p
  | .binomial => searchQuantile S d (d.p1 * d.p2) (d.p1 * (1 - d.p1) * d.p2) 0 (some d.p2) p

/-- `GetQuantile(p)`, distributions_uni.cpp:1091-1189. -/
noncomputable def Dist.quantile (S : Fns) (d : Dist) (p : ℝ) : Dbl ℝ :=
  if p ≤ 0 then d.minimum else if p ≥ 1 then d.maximum else d.quantileInside S p

/-- `std::log`. -/
noncomputable def logD (x : ℝ) : Dbl ℝ := if 0 < x then .num (Real.log x) else if x = 0 then .ninf else .nan

/-- Addition. -/
noncomputable def addD : Dbl ℝ → Dbl ℝ → Dbl ℝ
  | .num a, .num b => .num (a + b)
  | .nan, _ => .nan
  | _, .nan => .nan
  | .pinf, .ninf => .nan
  | .ninf, .pinf => .nan
  | .pinf, _ => .pinf
  | _, .pinf => .pinf
  | .ninf, _ => .ninf
  | _, .ninf => .ninf

/-- A finite number times a value: zero times an infinity is `NaN`. -/
noncomputable def scaleD (c : ℝ) : Dbl ℝ → Dbl ℝ
  | .num a => .num (c * a)
  | .nan => .nan
  | .pinf => if 0 < c then .pinf else if c < 0 then .ninf else .nan
  | .ninf => if 0 < c then .ninf else if c < 0 then .pinf else .nan

/-- `std::log` of a value. -/
noncomputable def logOf : Dbl ℝ → Dbl ℝ
  | .num x => logD x
  | .pinf => .pinf
  | _ => .nan

/-- `std::lgamma`. -/
noncomputable def lgamma (x : ℝ) : ℝ := Real.log |Real.Gamma x|

/-- `GetPdfOrPmfLog(x)` for a possible `x`, distributions_uni.cpp:952-1032. With a standard deviation of zero the program computes
`NaN` or `-inf + inf`; so does `kLogNormal` at zero. -/
noncomputable def Dist.logDensity (d : Dist) (x : ℝ) : Dbl ℝ :=
  match d.kind with
  | .normal => if d.p2 = 0 then .nan else
      .num (-(1 / 2) * ((x - d.p1) / d.p2) * ((x - d.p1) / d.p2) - Real.log d.p2 - Real.log (Real.sqrt (2 * Real.pi)))
  | .logNormal => if d.p2 = 0 ∨ x = 0 then .nan else
      .num (-(1 / 2) * ((Real.log x - d.p1) / d.p2) * ((Real.log x - d.p1) / d.p2) - Real.log (x * d.p2) -
        Real.log (Real.sqrt (2 * Real.pi)))
  | .t => .num (lgamma ((d.p1 + 1) / 2) - (d.p1 + 1) / 2 * Real.log (1 + x * x / d.p1) - lgamma (d.p1 / 2) -
      1 / 2 * Real.log (d.p1 * Real.pi))
  | .chi2 => addD (.num (-x / 2)) (addD (scaleD (d.p1 / 2 - 1) (logD x)) (.num (-(d.p1 / 2 * Real.log 2) - lgamma (d.p1 / 2))))
  | .exponential => if x = 0 then .ninf else .num (Real.log d.p1 - d.p1 * x)
  | .gamma => addD (.num (-d.p1 * Real.log d.p2)) (addD (scaleD (d.p1 - 1) (logD x)) (.num (-(x / d.p2) - lgamma d.p1)))
  | .beta => addD (.num (lgamma (d.p1 + d.p2) - lgamma d.p1 - lgamma d.p2))
      (addD (scaleD (d.p1 - 1) (logD x)) (scaleD (d.p2 - 1) (logD (1 - x))))
  | .uniformDis => if x ≥ d.p1 ∧ x ≤ d.p2 then .num (-Real.log (d.p2 - d.p1 + 1)) else .ninf
  | .poisson => addD (.num (-d.p1)) (addD (scaleD x (logD d.p1)) (.num (-lgamma (x + 1))))
  | .geometric => addD (scaleD x (logD (1 - d.p1))) (logD d.p1)
  | .bernoulli => if x = 0 then logD (1 - d.p1) else if x = 1 then logD d.p1 else .ninf
  | .binomial => if x > d.p2 then .nan else
      addD (logD (Nat.choose ⌊d.p2⌋₊ ⌊x⌋₊ : ℝ)) (addD (scaleD x (logD d.p1)) (scaleD (d.p2 - x) (logD (1 - d.p1))))
  | .uniformCon | .f => logOf (d.pdf x)

/-- `GetPdfOrPmfLog(x)`, distributions_uni.cpp:939-1033. -/
noncomputable def Dist.logPdf (d : Dist) (x : ℝ) : Dbl ℝ := if d.impossible x then .ninf else d.logDensity x

/-- `static_cast<Ti>` of a number: towards zero. -/
noncomputable def trunc (x : ℝ) : ℤ := if 0 ≤ x then ⌊x⌋ else ⌈x⌉

/-- `GetPmfSupportIncrement()`, distributions_uni.cpp:787-801. -/
def Dist.supportIncrement (d : Dist) : Outcome Int :=
  match d.kind with
  | .uniformDis | .poisson | .geometric | .bernoulli | .binomial => .ok 1
  | _ => .throws

/-- `GetPmfSupportSize(min, max)`, distributions_uni.cpp:803-830, for finite arguments whose difference fits the integer type. -/
noncomputable def Dist.supportSize (d : Dist) (lo hi : ℝ) : Outcome Int :=
  match d.kind with
  | .uniformDis => .ok (trunc (min d.p2 hi - max d.p1 lo) + 1)
  | .poisson | .geometric => .ok (trunc (hi - lo) + 1)
  | .bernoulli => .ok 2
  | .binomial => .ok (trunc (min d.p2 hi - max 0 lo) + 1)
  | _ => .throws

/-- `GetPmfSupport(x, Value, log, length, for_continuous_plot, min)`, distributions_uni.cpp:832-872: the points and their values. The two
arrays have room for `length` numbers. -/
noncomputable def Dist.support (d : Dist) (log : Bool) (length : Nat) (plot : Bool) (lo : ℝ) : Outcome (List (ℝ × Dbl ℝ)) :=
  if length = 0 then .throws
  else match d.kind with
    | .uniformDis | .poisson | .geometric | .bernoulli | .binomial =>
      let value : ℝ → Dbl ℝ := fun x => if log then d.logPdf x else d.pdf x
      if plot then .ok ((List.range (length / 3)).flatMap fun i : Nat =>
        [(lo + i, .num 0), (lo + i, value (lo + i)), (lo + i, .num 0)])
      else .ok ((List.range length).map fun i : Nat => (lo + i, value (lo + i)))
    | _ => .throws

/-- `IsDiscrete()`, distributions_uni.cpp:1216-1228. -/
def Dist.isDiscrete (d : Dist) : Bool :=
  match d.kind with
  | .uniformDis | .poisson | .geometric | .bernoulli | .binomial => true
  | _ => false

end Di
end LDT
