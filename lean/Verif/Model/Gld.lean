import Verif.Model.Distribution
import Verif.Spec.NelderMead
import Mathlib.Analysis.Real.Pi.Bounds
/-!
# The generalized lambda distribution: `src/ldt_statistics/distributions/distribution_gld.cpp` and the branches `kGldFkml` of
`src/ldt_statistics/distributions/distributions_uni.cpp`

Arithmetic is exact, with the infinities and NaN of IEEE where they occur in quantiles. A zero has no sign. The moments are those of finite shapes; there a
division by zero cannot happen, because of the checks before (`C135_variance` shows that the variance is positive). The special functions of boost are parameters.
-/
namespace LDT
namespace Gl
open Op

noncomputable scoped instance : Add (Dbl ℝ) := ⟨(exact : Ops ℝ).add⟩
noncomputable scoped instance : Sub (Dbl ℝ) := ⟨(exact : Ops ℝ).sub⟩
noncomputable scoped instance : Mul (Dbl ℝ) := ⟨(exact : Ops ℝ).mul⟩
noncomputable scoped instance : Div (Dbl ℝ) := ⟨(exact : Ops ℝ).div⟩
noncomputable scoped instance : Coe ℝ (Dbl ℝ) := ⟨.num⟩

/-- A shape parameter that is not NaN. -/
inductive Shape where
  | num (x : ℝ)
  | pinf
  | ninf

open Classical in
/-- `d == 0`. -/
noncomputable def Shape.isZero : Shape → Bool
  | .num x => decide (x = 0)
  | _ => false

/-- `std::isinf(d)`. -/
def Shape.isInf : Shape → Bool
  | .num _ => false
  | _ => true

/-- The value of a finite shape. -/
def Shape.val : Shape → ℝ
  | .num x => x
  | _ => 0

/-- `std::log`. -/
noncomputable def logD : Dbl ℝ → Dbl ℝ
  | .num x => if 0 < x then .num (Real.log x) else if x = 0 then .ninf else .nan
  | .pinf => .pinf
  | _ => .nan

open Classical in
/-- `std::pow` of finite numbers: a negative base has integer powers only. -/
noncomputable def powD (x a : ℝ) : Dbl ℝ :=
  if 0 < x then .num (x ^ a)
  else if x = 0 then if 0 < a then .num 0 else if a = 0 then .num 1 else .pinf
  else if h : ∃ n : ℤ, a = n then .num (x ^ h.choose) else .nan

/-- `DistributionGld::GetQuantile`, distribution_gld.cpp:22-47. The last four branches need the values of finite shapes only. -/
noncomputable def quantileFn (p d1 d2 : ℝ) (d3 d4 : Shape) : Dbl ℝ :=
  if d3.isZero then
    if d4.isZero then .num d1 + (.num 1 / .num d2) * logD (.num p / .num (1 - p))
    else if d4.isInf then .num d1 + (.num 1 / .num d2) * logD (.num p)
    else .num d1 + (.num 1 / .num d2) * (logD (.num p) - (powD (1 - p) d4.val - .num 1) / .num d4.val)
  else if d4.isZero then
    if d3.isInf then .num d1 - (.num 1 / .num d2) * logD (.num (1 - p))
    else .num d1 + (.num 1 / .num d2) * ((powD p d3.val - .num 1) / .num d3.val - logD (.num (1 - p)))
  else if d3.isInf then
    if d4.isInf then infBoth p d1 d2 d4
    else .num d1 - (.num 1 / .num d2) * ((powD (1 - p) d4.val - .num 1) / .num d4.val)
  else if d4.isInf then .num d1 + (.num 1 / .num d2) * ((powD p d3.val - .num 1) / .num d3.val)
  else .num d1 + (.num 1 / .num d2) * ((powD p d3.val - .num 1) / .num d3.val - (powD (1 - p) d4.val - .num 1) / .num d4.val)
where
  /-- Line 37 with `d4` infinite: `pow(1 - p, d4)` for `0 < p < 1` is 0 or infinite; other values of `p` are not modelled (NaN). -/
  infBoth (p d1 d2 : ℝ) (d4 : Shape) : Dbl ℝ :=
    if 0 < p ∧ p < 1 then
      match d4 with
      | .ninf => .num d1 - (.num 1 / .num d2) * .nan
      | .num _ => .nan
      | .pinf => .num d1 - (.num 1 / .num d2) * .num 0
    else .nan

/-- `DistributionGld::GetDensityQuantile`, distribution_gld.cpp:49-73, where at most one shape is infinite. -/
noncomputable def densityFn (p d2 : ℝ) (d3 d4 : Shape) : Dbl ℝ :=
  if d3.isZero then
    if d4.isZero then .num d2 * .num p - .num d2 * .num p * .num p
    else if d4.isInf then .num d2 * .num p
    else .num d2 / (powD (1 - p) (d4.val - 1) + .num 1 / .num p)
  else if d4.isZero then
    if d3.isInf then .num d2 * .num (1 - p)
    else .num d2 / (powD p (d3.val - 1) + .num 1 / .num (1 - p))
  else if d3.isInf then .num d2 / powD (1 - p) (d4.val - 1)
  else if d4.isInf then .num d2 / powD p (d3.val - 1)
  else .num d2 / (powD p (d3.val - 1) + powD (1 - p) (d4.val - 1))

/-- `GetGldFklmRegion`, distribution_gld.cpp:306-318. -/
noncomputable def region (l3 l4 : ℝ) : ℕ :=
  if l3 ≤ 0 then if l4 > 0 then 1 else 4
  else if l4 > 0 then 3 else 2

/-- The functions and constants of boost, helpers.h:73-87. -/
structure Fns where
  euler : ℝ
  digamma : ℝ → ℝ
  /-- `Math_PolyGamma(n, x)` -/
  polygamma : ℕ → ℝ → ℝ
  beta : ℝ → ℝ → ℝ
  /-- `c_zeta3`, helpers.h:50 -/
  zeta3 : ℝ

variable (F : Fns)

/-- `vk_M2_zero`, distribution_gld.cpp:77-82. -/
noncomputable def m2zero (L : ℝ) : ℝ :=
  (2 * (2 * L ^ 3 + L ^ 2 - L - 1)) / (L * (L + 1) * (2 * L + 1)) + (2 * (F.euler + F.digamma (L + 2))) / (L * (L + 1))

/-- `vk_M3_zero`, distribution_gld.cpp:84-99. -/
noncomputable def m3zero (L sign : ℝ) : ℝ :=
  let L2 := L * L
  let L2_1 := L2 * (L + 1)
  let diG2 := F.digamma (L + 2)
  (3 * sign * (12 * L ^ 5 + 10 * L2 * L2 - 4 * L ^ 3 - L2 + 4 * L + 1)) / (L2_1 * (2 * L + 1) * (3 * L + 1)) - (6 * sign * (F.euler + diG2)) / L2_1 +
    (3 * sign * (F.euler + F.digamma (2 * L + 2))) / (L2 * (2 * L + 1)) +
    (3 * sign * (Real.pi ^ 2 / 6 + (F.euler + diG2) ^ 2 - F.polygamma 1 (L + 2))) / (L * (L + 1))

/-- `vk_M4_zero`, distribution_gld.cpp:101-127. -/
noncomputable def m4zero (L : ℝ) : ℝ :=
  let L2 := L * L
  let L3 := L2 * L
  let pi2_6 := Real.pi ^ 2 / 6
  let a := F.euler + F.digamma (L + 2)
  let b := F.euler + F.digamma (2 * L + 2)
  let psi := F.polygamma 1 (L + 2)
  (4 * (144 * L ^ 7 + 156 * L ^ 6 - 18 * L ^ 5 - 24 * L2 ^ 2 + 7 * L3 - 11 * L2 - 7 * L - 1)) / (L3 * (L + 1) * (2 * L + 1) * (3 * L + 1) * (4 * L + 1)) +
    (12 * a) / (L3 * (L + 1)) - (12 * b) / (L3 * (2 * L + 1)) + (4 * (F.euler + F.digamma (3 * L + 2))) / (L3 * (3 * L + 1)) -
    (12 * (pi2_6 + a ^ 2 - psi)) / (L2 * (L + 1)) + (6 * (pi2_6 + b ^ 2 - F.polygamma 1 (2 * L + 2))) / (L2 * (2 * L + 1)) +
    (4 * (3 * (pi2_6 - psi) * a + a ^ 3 + 2 * F.zeta3 + F.polygamma 2 (L + 2))) / (L * (L + 1))

/-- `GetMk(k, L3, L4)`, distribution_gld.cpp:135-185. -/
noncomputable def moment (k : ℕ) (a b : ℝ) : Outcome ℝ :=
  match k with
  | 1 => .ok (if a = b then 0 else if a = 0 ∧ b ≠ 0 then -b / (b + 1) else if a ≠ 0 ∧ b = 0 then a / (a + 1)
      else 1 / (a * (a + 1)) - 1 / (b * (b + 1)))
  | 2 => .ok (if a = 0 ∧ b = 0 then Real.pi ^ 2 / 3 else if a = 0 ∧ b ≠ 0 then m2zero F b else if a ≠ 0 ∧ b = 0 then m2zero F a
      else 1 / (a ^ 2 * (2 * a + 1)) + 1 / (b ^ 2 * (2 * b + 1)) - 2 / (a * b) * F.beta (a + 1) (b + 1))
  | 3 => .ok (if a = b then 0 else if a = 0 ∧ b ≠ 0 then m3zero F b (-1) else if a ≠ 0 ∧ b = 0 then m3zero F a 1
      else 1 / (a ^ 3 * (3 * a + 1)) - 1 / (b ^ 3 * (3 * b + 1)) - 3 / (a ^ 2 * b) * F.beta (2 * a + 1) (b + 1) + 3 / (a * b ^ 2) * F.beta (a + 1) (2 * b + 1))
  | 4 => .ok (if a = 0 ∧ b = 0 then 7 * Real.pi ^ 4 / 15 else if a ≠ 0 ∧ b = 0 then m4zero F a else if a = 0 ∧ b ≠ 0 then m4zero F b
      else 1 / (a ^ 4 * (4 * a + 1)) + 1 / (b ^ 4 * (4 * b + 1)) + 6 / ((a * b) ^ 2) * F.beta (2 * a + 1) (2 * b + 1) -
        4 / (a ^ 3 * b) * F.beta (3 * a + 1) (b + 1) - 4 / (a * b ^ 3) * F.beta (a + 1) (3 * b + 1))
  | _ => .throws

/-- The branch of `GetMs` for one shape that is zero, distribution_gld.cpp:194-235 (`sign = -1`) and 236-280 (`sign = 1`), without the first moment. -/
noncomputable def msZero (H sign : ℝ) : ℝ × ℝ × ℝ :=
  let p4 := H ^ 3
  let p5 := H ^ 5
  let L2 := H * H
  let L3 := L2 * H
  let L2_1 := L2 * (H + 1)
  let pi2_6 := Real.pi ^ 2 / 6
  let diG2 := F.digamma (H + 2)
  let a := F.euler + F.digamma (H + 2)
  let b := F.euler + F.digamma (2 * H + 2)
  let psi := F.polygamma 1 (H + 2)
  ((2 * (2 * p4 + H ^ 2 - H - 1)) / (H * (H + 1) * (2 * H + 1)) + (2 * a) / (H * (H + 1)),
   (3 * sign * (12 * p5 + 10 * L2 * L2 - 4 * p4 - L2 + 4 * H + 1)) / (L2_1 * (2 * H + 1) * (3 * H + 1)) - (6 * sign * (F.euler + diG2)) / L2_1 +
    (3 * sign * b) / (L2 * (2 * H + 1)) + (3 * sign * (Real.pi ^ 2 / 6 + (F.euler + diG2) ^ 2 - psi)) / (H * (H + 1)),
   (4 * (144 * H ^ 7 + 156 * H ^ 6 - 18 * p5 - 24 * L2 ^ 2 + 7 * L3 - 11 * L2 - 7 * H - 1)) / (L3 * (H + 1) * (2 * H + 1) * (3 * H + 1) * (4 * H + 1)) +
    (12 * a) / (L3 * (H + 1)) - (12 * b) / (L3 * (2 * H + 1)) + (4 * (F.euler + F.digamma (3 * H + 2))) / (L3 * (3 * H + 1)) -
    (12 * (pi2_6 + a ^ 2 - psi)) / (L2 * (H + 1)) + (6 * (pi2_6 + b ^ 2 - F.polygamma 1 (2 * H + 2))) / (L2 * (2 * H + 1)) +
    (4 * (3 * (pi2_6 - psi) * a + a ^ 3 + 2 * F.zeta3 + F.polygamma 2 (H + 2))) / (H * (H + 1)))

/-- `GetMs(H3, H4, M1, M2, M3, M4)`, distribution_gld.cpp:187-300. -/
noncomputable def ms (a b : ℝ) : ℝ × ℝ × ℝ × ℝ :=
  if a = 0 ∧ b = 0 then (0, Real.pi ^ 2 / 3, 0, 7 * Real.pi ^ 4 / 15)
  else if a = 0 ∧ b ≠ 0 then (-b / (b + 1), msZero F b (-1))
  else if a ≠ 0 ∧ b = 0 then (a / (a + 1), msZero F a 1)
  else
    let a2 := a ^ 2
    let a3 := a ^ 3
    let b2 := b ^ 2
    let b3 := b ^ 3
    (1 / (a * (a + 1)) - 1 / (b * (b + 1)),
     1 / (a2 * (2 * a + 1)) + 1 / (b2 * (2 * b + 1)) - 2 / (a * b) * F.beta (a + 1) (b + 1),
     1 / (a3 * (3 * a + 1)) - 1 / (b3 * (3 * b + 1)) - 3 / (a2 * b) * F.beta (2 * a + 1) (b + 1) + 3 / (a * b2) * F.beta (a + 1) (2 * b + 1),
     1 / (a ^ 4 * (4 * a + 1)) + 1 / (b ^ 4 * (4 * b + 1)) + 6 / ((a * b) ^ 2) * F.beta (2 * a + 1) (2 * b + 1) -
       4 / (a3 * b) * F.beta (3 * a + 1) (b + 1) - 4 / (a * b3) * F.beta (a + 1) (3 * b + 1))

/-- A distribution with finite parameters that were accepted. -/
structure Gld where
  d1 : ℝ
  d2 : ℝ
  d3 : ℝ
  d4 : ℝ

/-- The constructors, distributions_uni.cpp:124-135 and distribution_gld.cpp:11-20. -/
noncomputable def make (d1 d2 d3 d4 : ℝ) : Outcome Gld := if d2 ≤ 0 then .throws else .ok ⟨d1, d2, d3, d4⟩

variable (g : Gld)

/-- `GetMinimum()`, distributions_uni.cpp:233-246. -/
noncomputable def Gld.minimum : Dbl ℝ :=
  if region g.d3 g.d4 = 1 ∨ region g.d3 g.d4 = 4 then .ninf else .num (g.d1 - 1 / (g.d2 * g.d3))

/-- `GetMaximum()`, distributions_uni.cpp:284-297. -/
noncomputable def Gld.maximum : Dbl ℝ :=
  if region g.d3 g.d4 = 2 ∨ region g.d3 g.d4 = 4 then .pinf else .num (g.d1 + 1 / (g.d2 * g.d4))

/-- `GetQuantile(p)`, distributions_uni.cpp:1091-1095, 1136-1137. -/
noncomputable def Gld.quantile (p : ℝ) : Dbl ℝ :=
  if p ≤ 0 then g.minimum else if p ≥ 1 then g.maximum else quantileFn p g.d1 g.d2 (.num g.d3) (.num g.d4)

/-- `GetDensityQuantile(p)`, distributions_uni.cpp:1191-1196. -/
noncomputable def Gld.density (p : ℝ) : Dbl ℝ := densityFn p g.d2 (.num g.d3) (.num g.d4)

/-- `GetMean()`, distributions_uni.cpp:356-370. -/
noncomputable def Gld.mean : Outcome (Dbl ℝ) :=
  if g.d3 ≤ -1 ∨ g.d4 ≤ -1 then .ok .nan
  else do
    let m1 ← moment F 1 g.d3 g.d4
    if g.d3 ≠ 0 ∧ g.d4 ≠ 0 ∧ g.d3 ≠ g.d4 then pure (.num (g.d1 + 1 / g.d2 * (m1 - 1 / g.d3 + 1 / g.d4)))
    else pure (.num (g.d1 + m1 / g.d2))

/-- `GetVariance()`, distributions_uni.cpp:437-449. -/
noncomputable def Gld.variance : Outcome (Dbl ℝ) :=
  if g.d3 ≤ -0.5 ∨ g.d4 ≤ -0.5 then .ok .nan
  else do
    let m1 ← moment F 1 g.d3 g.d4
    let m2 ← moment F 2 g.d3 g.d4
    pure (.num ((m2 - m1 * m1) / (g.d2 * g.d2)))

/-- `std::pow(std::sqrt(v), 3)` below a finite number. -/
noncomputable def overSd (x v : ℝ) : Dbl ℝ := if v < 0 then .nan else Di.quot x (Real.sqrt v ^ 3)

/-- `GetSkewness()`, distributions_uni.cpp:517-531. -/
noncomputable def Gld.skewness : Outcome (Dbl ℝ) :=
  if g.d3 ≤ -1 / 3 ∨ g.d4 ≤ -1 / 3 then .ok .nan
  else do
    let m1 ← moment F 1 g.d3 g.d4
    let m2 ← moment F 2 g.d3 g.d4
    let m3 ← moment F 3 g.d3 g.d4
    pure (overSd (m3 - 3 * m1 * m2 + 2 * m1 ^ 3) (m2 - m1 * m1))

/-- `x - 3`. -/
def minus3 : Dbl ℝ → Dbl ℝ
  | .num x => .num (x - 3)
  | x => x

/-- `GetKurtosis()`, distributions_uni.cpp:607-625. -/
noncomputable def Gld.kurtosis : Outcome (Dbl ℝ) :=
  if g.d3 ≤ -0.25 ∨ g.d4 ≤ -0.25 then .ok .nan
  else do
    let m1 ← moment F 1 g.d3 g.d4
    let m2 ← moment F 2 g.d3 g.d4
    let m3 ← moment F 3 g.d3 g.d4
    let m4 ← moment F 4 g.d3 g.d4
    pure (minus3 (Di.quot (m4 - 4 * m1 * m3 + 6 * m1 * m1 * m2 - 3 * m1 ^ 4) ((m2 - m1 * m1) ^ 2)))

/-- `GetSample(storage, length, seed)` where the engine draws `us`, distributions_uni.cpp:1325-1330. -/
noncomputable def Gld.sample (us : List ℝ) : List (Dbl ℝ) := us.map fun u => quantileFn u g.d1 g.d2 (.num g.d3) (.num g.d4)

/-- `GetSample1(eng)` where the engine draws `u`, distributions_uni.cpp:1395-1397. -/
def Gld.sample1 (_ : Gld) (u : ℝ) : Dbl ℝ := .num u

/-- `isSymetric`, distribution_gld.cpp:347-348. -/
def symmetric (type : ℤ) : Bool :=
  decide (type = 1) || decide (type = 3) || decide (type = 5) || decide (type = 7) || decide (type = 10)

/-- The bounds for `L3` and `L4`, distribution_gld.cpp:339-341, 364-382, 399-423; `none` is `INFINITY`; only the first two are used if the type is symmetric.
`eps` is `DBL_EPSILON`. -/
noncomputable def bounds (eps : ℝ) (type : ℤ) : (ℝ × Option ℝ) × (ℝ × Option ℝ) :=
  if symmetric type then
    if type = 3 then ((-0.25 + eps, some (1 - eps)), (-0.25 + eps, none))
    else if type = 5 then ((-0.25 + eps, some (0.5 - eps)), (-0.25 + eps, none))
    else if type = 7 then ((2 + eps, none), (-0.25 + eps, none))
    else if type = 10 then ((1 + eps, some (2 - eps)), (-0.25 + eps, none))
    else ((-0.25 + eps, none), (-0.25 + eps, none))
  else if type = 2 then ((-0.25 + eps, some (1 - eps)), (-0.25 + eps, some (1 - eps)))
  else if type = 4 then ((-0.25 + eps, some (0.5 - eps)), (-0.25 + eps, some (0.5 - eps)))
  else if type = 6 then ((2 + eps, none), (2 + eps, none))
  else if type = 9 then ((1 + eps, some (2 - eps)), (1 + eps, some (2 - eps)))
  else if type = 11 then ((1 + eps, none), (-0.25 + eps, some (1 - eps)))
  else ((-0.25 + eps, none), (-0.25 + eps, none))

/-- The skewness of the objectives, distribution_gld.cpp:355, 391, 440-441, where the variance is positive. -/
noncomputable def skewAt (a b : ℝ) : ℝ :=
  let m := ms F a b
  (m.2.2.1 - 3 * m.1 * m.2.1 + 2 * m.1 ^ 3) / (m.2.1 - m.1 * m.1) ^ (1.5 : ℝ)

/-- The excess kurtosis of the objectives, distribution_gld.cpp:356-358, 392-394, 442-444, where the variance is positive. -/
noncomputable def kurtAt (a b : ℝ) : ℝ :=
  let m := ms F a b
  (-3 : ℝ) + (m.2.2.2 - 4 * m.1 * m.2.2.1 + 6 * m.1 * m.1 * m.2.1 - 3 * m.1 ^ 4) / (m.2.1 - m.1 * m.1) ^ 2

/-- The penalty of the type 8, distribution_gld.cpp:428-437. -/
noncomputable def penalty8 (eps a b : ℝ) : ℝ :=
  if a > 2 + eps ∧ b > 1 + eps ∧ b < 2 - eps then 0
  else if b > 2 + eps ∧ a > 1 + eps ∧ a < 2 - eps then 0
  else 0 + ((1.5 - a) ^ 2 + (1.5 - b) ^ 2)

/-- The objective, distribution_gld.cpp:350-362, 386-398, 424-449, where the variance is positive. -/
noncomputable def objective (eps : ℝ) (type : ℤ) (skewness kurtosis a b : ℝ) : ℝ :=
  if symmetric type then (kurtosis - kurtAt F a a) ^ 2 + (skewAt F a a - skewness) ^ 2
  else if type = 8 then penalty8 eps a b * (kurtosis - kurtAt F a b) ^ 2 + (skewAt F a b - skewness) ^ 2
  else (kurtosis - kurtAt F a b) ^ 2 + (skewAt F a b - skewness) ^ 2

/-- The parameters for the shapes that were found, distribution_gld.cpp:459-469; `found` is `optim.Result`. -/
noncomputable def fromFound (mean variance : ℝ) (type : ℤ) (found : ℝ × ℝ) : Outcome (ℝ × ℝ × ℝ × ℝ) := do
  let l3 := found.1
  let l4 := if symmetric type then found.1 else found.2
  let m1 ← moment F 1 l3 l4
  let m2 ← moment F 2 l3 l4
  let l2 := Real.sqrt ((m2 - m1 * m1) / variance)
  let l1 := if l3 = 0 ∨ l4 = 0 ∨ l3 = l4 then mean - 1 / l2 * m1 else mean - 1 / l2 * (m1 - 1 / l3 + 1 / l4)
  pure (l1, l2, l3, l4)

/-- `GetFromMoments`, distribution_gld.cpp:322-470; `minimize` is `NelderMead::Minimize` (C95) for the objective with bounds and a start. -/
noncomputable def fromMoments (eps : ℝ) (minimize : (ℝ → ℝ → ℝ) → (ℝ × Option ℝ) × (ℝ × Option ℝ) → ℝ × ℝ → Outcome (ℝ × ℝ)) (mean variance skewness kurtosis : ℝ)
    (type : ℤ) (start : ℝ × ℝ) : Outcome (ℝ × ℝ × ℝ × ℝ) := do
  let found ← minimize (objective F eps type skewness kurtosis) (bounds eps type) start
  fromFound F mean variance type found

end Gl
end LDT
