import Verif.Model.Array
import Mathlib.Analysis.SpecialFunctions.Pow.Real
/-!
# Running moments: `include/math/statistics/running.h`

Numbers are elements of a field `K` (the reals where square roots and powers occur).
-/
namespace LDT
namespace Arr
open Classical in
section
variable {K : Type} [Field K] [DecidableEq K]

/-- `RunningMoments<4, …>`, include/math/statistics/running.h:8-25: `mom = none` when the stored numbers
are not finite. (For fewer moments, the template ignores the higher ones.) -/
structure RM (K : Type) where
  count : Int
  sumW : K
  mom : Option (Mom K)
  deriving DecidableEq

/-- Constructor and `Reset`, include/math/statistics/running.h:12-35. -/
def RM.empty : RM K := { count := 0, sumW := 0, mom := some ⟨0, 0, 0, 0⟩ }

/-- `PushNew`, include/math/statistics/running.h:77-92. -/
def RM.push (isWeighted skipNAN : Bool) (r : RM K) (x : Val K) (weight : K) : RM K :=
  let w := if isWeighted then weight else 1
  match x with
  | none =>
    if skipNAN then r else { count := r.count + 1, sumW := r.sumW + w, mom := none }
  | some x => { count := r.count + 1, sumW := r.sumW + w, mom := r.mom.bind (update x w r.sumW) }

/-- `Combine(other)`, include/math/statistics/running.h:96-143.  With `skipNAN`, nothing happens when the
other or the result has a NaN.  A zero total weight gives NaN when the numerator of the mean is zero
and infinities otherwise. -/
def RM.combine (skipNAN : Bool) (r other : RM K) : RM K :=
  let bad : RM K := { count := r.count + other.count, sumW := other.sumW + r.sumW, mom := none }
  match other.mom, r.mom with
  | some o, some a =>
    match Arr.combine other.sumW o r.sumW a with
    | some m => { count := r.count + other.count, sumW := other.sumW + r.sumW, mom := some m }
    | none => if skipNAN ∧ other.sumW * o.mean + r.sumW * a.mean = 0 then r else bad
  | _, _ => if skipNAN then r else bad

/-- `GetMean`, include/math/statistics/running.h:39. -/
def RM.getMean (r : RM K) : Val K := if r.sumW = 0 then none else r.mom.map (·.mean)

/-- `GetVariance`, include/math/statistics/running.h:44-50. -/
def RM.getVariance (r : RM K) : Val K := if r.sumW = 0 then none else r.mom.map (fun m => m.m2 / r.sumW)

end

section
open Classical

/-- Division of doubles: not finite when the divisor is zero. -/
noncomputable def divV (a b : ℝ) : Val ℝ := if b = 0 then none else some (a / b)

/-- `sqrt`: NaN for negative arguments. -/
noncomputable def sqrtV (a : ℝ) : Val ℝ := if a < 0 then none else some (Real.sqrt a)

/-- `pow(·, 1.5)`: NaN for negative arguments. -/
noncomputable def pow15V (a : ℝ) : Val ℝ := if a < 0 then none else some (a ^ (3 / 2 : ℝ))

/-- `GetSkewness`, include/math/statistics/running.h:55-61. -/
noncomputable def RM.getSkewness (r : RM ℝ) : Val ℝ :=
  if r.sumW = 0 then none
  else do
    let m ← r.mom
    let s ← sqrtV r.sumW
    let p ← pow15V m.m2
    divV (s * m.m3) p

/-- `GetKurtosis`, include/math/statistics/running.h:66-72. -/
noncomputable def RM.getKurtosis (r : RM ℝ) : Val ℝ :=
  if r.sumW = 0 then none
  else do
    let m ← r.mom
    let q ← divV (r.sumW * m.m4) (m.m2 * m.m2)
    some (q - 3)

/-- Conversion of summary statistics to central sums, include/math/statistics/running.h:162-187, for the
number of moments of the template; `none`: a NaN occurs. -/
noncomputable def fromStats (moments : Nat) (mean var skew kurt : Val ℝ) (weight : ℝ) : Val (Mom ℝ) := do
  let mean ← mean
  let m2 ← if moments ≥ 2 then var.map (· * weight) else some 0
  let m3 ← if moments ≥ 3 then (do
    let p ← pow15V m2
    let sk ← skew
    let s ← sqrtV weight
    divV (p * sk) s) else some 0
  let m4 ← if moments = 4 then (do
    let k ← kurt
    divV ((k + 3) * (m2 * m2)) weight) else some 0
  some ⟨mean, m2, m3, m4⟩

/-- `Combine(mean, var, skew, kurt, weight, count)` with `skipNAN`,
include/math/statistics/running.h:154-218. -/
noncomputable def RM.combineStats (moments : Nat) (r : RM ℝ) (mean var skew kurt : Val ℝ) (weight : ℝ) (count : Int) :
    RM ℝ :=
  match fromStats moments mean var skew kurt weight with
  | none => r
  | some o => RM.combine true r { count := count, sumW := weight, mom := some o }

end
end Arr
end LDT
