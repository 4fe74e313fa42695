import Verif.Model.Distribution
import Verif.Spec.NelderMead
/-!
# The continuous ranked probability scores: `src/ldt_statistics/scoring/scoring.cpp:11-38`

Exact arithmetic, with NaN and the infinities (`Dbl`); `c_sqrt2` and `c_sqrt_pi` (helpers.h:28-40) are the numbers they stand for.
-/
namespace LDT
namespace Crps
open Op Di

/-- `Scoring::GetScoreCrpsNormal(y, mean, std)`, scoring.cpp:11-20. -/
noncomputable def crpsNormal (S : Fns) (y mean std : ℝ) : Outcome (Dbl ℝ) :=
  let o : Ops ℝ := exact
  let y := y - mean
  if std = 0 then .ok (.num |y|)
  else do
    let d ← make .normal 0 std
    let z := y / std
    pure (o.add (o.mul (.num y) (o.sub (o.mul (.num 2) (d.cdf S y)) (.num 1)))
      (.num (std * (Real.sqrt 2 * Real.exp (-(1 / 2) * z ^ 2) - 1) / Real.sqrt Real.pi)))

/-- `Scoring::GetScoreCrpsLogNormal(y, meanLog, stdLog)`, scoring.cpp:22-38. -/
noncomputable def crpsLogNormal (S : Fns) (y meanLog stdLog : ℝ) : Outcome (Dbl ℝ) := do
  let o : Ops ℝ := exact
  let var := stdLog ^ 2
  let d1 ← make .logNormal meanLog stdLog
  let d2 ← make .logNormal (meanLog + var) stdLog
  let d3 ← make .normal 0 1
  pure (o.sub (o.mul (.num y) (o.sub (o.mul (.num 2) (d1.cdf S y)) (.num 1)))
    (o.mul (.num (2 * Real.exp (meanLog + 1 / 2 * var))) (o.sub (o.add (d2.cdf S y) (d3.cdf S (stdLog / Real.sqrt 2))) (.num 1))))

/-- `Scoring::GetScoreCrpsNormal(error, 0, std)` with arguments that need not be numbers, scoring.cpp:11-20 as called from sur_simulation.cpp:89: a negative
standard deviation is refused by the distribution (distributions_uni.cpp:88-93), NaN is not. -/
noncomputable def crpsError (S : Fns) : Dbl ℝ → Dbl ℝ → Outcome (Dbl ℝ)
  | .num e, .num s => crpsNormal S e 0 s
  | e, .num s => if s = 0 then .ok ((exact : Ops ℝ).abs e) else if s < 0 then .throws else .ok ((exact : Ops ℝ).abs e)
  | .num _, .pinf => .ok .pinf
  | _, .pinf => .ok .nan
  | _, .ninf => .throws
  | _, .nan => .ok .nan

end Crps
end LDT
