import Verif.Model.Text
import Mathlib.Analysis.SpecialFunctions.Log.Basic
/-!
# Metrics, include/math/statistics/scoring.h and src/ldt_statistics/scoring/scoring.cpp

Weights are modelled in exact real arithmetic (no rounding, no underflow).
-/
namespace LDT
namespace Score
open Text

/-- `GoodnessOfFitType`, scoring.h:13-29. -/
inductive Gof where
  | aic | sic | frequencyCost | auc | brier
  deriving DecidableEq, Repr

/-- `ScoringType`, scoring.h:98-129. -/
inductive Sco where
  | direction | sign | mae | mape | rmse | rmspe | crps | frequencyCost | auc | brier
  deriving DecidableEq, Repr

/-- `StartsWith(code, str)`, src/helpers.cpp:11-13. -/
def startsWith (code str : Str) : Bool := code.isPrefixOf str

/-- `ToString(GoodnessOfFitType, true)`, scoring.h:36-51. -/
def gofName : Gof → Str
  | .aic => "aic".toList
  | .sic => "sic".toList
  | .frequencyCost => "frequencyCostIn".toList
  | .auc => "aucIn".toList
  | .brier => "brierIn".toList

/-- `FromString_GoodnessOfFitType`, scoring.h:56-71. -/
def gofOfName (v : Str) : Outcome Gof :=
  if startsWith "aic".toList v then .ok .aic
  else if startsWith "sic".toList v then .ok .sic
  else if startsWith "freq".toList v then .ok .frequencyCost
  else if startsWith "auc".toList v then .ok .auc
  else if startsWith "bri".toList v then .ok .brier
  else .throws

/-- `ToString(ScoringType, true)`, scoring.h:136-168. -/
def scoName : Sco → Str
  | .direction => "direction".toList
  | .sign => "sign".toList
  | .mae => "mae".toList
  | .mape => "mape".toList
  | .rmse => "rmse".toList
  | .rmspe => "rmspe".toList
  | .crps => "crps".toList
  | .frequencyCost => "frequencyCostOut".toList
  | .auc => "aucOut".toList
  | .brier => "brierOut".toList

/-- `FromString_ScoringType`, scoring.h:173-202 (note the order of "rms" and "rmsp"). -/
def scoOfName (v : Str) : Outcome Sco :=
  if startsWith "dir".toList v then .ok .direction
  else if startsWith "sig".toList v then .ok .sign
  else if startsWith "mae".toList v then .ok .mae
  else if startsWith "map".toList v then .ok .mape
  else if startsWith "rms".toList v then .ok .rmse
  else if startsWith "rmsp".toList v then .ok .rmspe
  else if startsWith "crp".toList v then .ok .crps
  else if startsWith "freq".toList v then .ok .frequencyCost
  else if startsWith "auc".toList v then .ok .auc
  else if startsWith "bri".toList v then .ok .brier
  else .throws

/-- `GoodnessOfFit::ToWeight`, scoring.cpp:52-71. -/
noncomputable def gofToWeight (t : Gof) (metric minMetric : ℝ) : ℝ :=
  match t with
  | .aic | .sic | .brier => Real.exp (-0.5 * (metric - minMetric))
  | .auc => metric
  | .frequencyCost => 1 - metric

/-- `GoodnessOfFit::FromWeight`, scoring.cpp:73-89. -/
noncomputable def gofFromWeight (t : Gof) (weight minMetric : ℝ) : ℝ :=
  match t with
  | .aic | .sic | .brier => -2.0 * Real.log weight + minMetric
  | .auc => weight
  | .frequencyCost => 1 - weight

/-- `GoodnessOfFit::IsPositiveOriented`, scoring.cpp:91-104. -/
def gofPositive : Gof → Bool
  | .aic | .sic | .brier | .frequencyCost => false
  | .auc => true

/-- `Scoring::ToWeight`, scoring.cpp:106-135. -/
noncomputable def scoToWeight (t : Sco) (metric minMetric : ℝ) : ℝ :=
  match t with
  | .direction | .sign => metric
  | .mae | .rmse | .brier | .crps => Real.exp (-0.5 * (metric - minMetric))
  | .mape | .rmspe => Real.exp (-0.5 * (metric - minMetric) / 100)
  | .auc => metric
  | .frequencyCost => 1 - metric

/-- `Scoring::FromWeight`, scoring.cpp:137-164. -/
noncomputable def scoFromWeight (t : Sco) (weight minMetric : ℝ) : ℝ :=
  match t with
  | .direction | .sign => weight
  | .mae | .rmse | .crps | .brier => -2 * Real.log weight + minMetric
  | .mape | .rmspe => -2 * Real.log weight * 100 + minMetric
  | .auc => weight
  | .frequencyCost => 1 - weight

/-- `Scoring::IsPositiveOriented`, scoring.cpp:166-186. -/
def scoPositive : Sco → Bool
  | .direction | .sign | .auc => true
  | .mae | .rmse | .crps | .brier | .mape | .rmspe | .frequencyCost => false

end Score
end LDT
