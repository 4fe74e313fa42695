import Verif.Model.Scoring
import Verif.Model.NelderMead
/-!
# The options of a search: include/math/statistics/inference/searchers.h and
src/ldt_statistics/modeling/search/summary.cpp

A `std::map` is a partial function; `insert` keeps an existing entry.
-/
namespace LDT
namespace SOpt
open Text Score Op

/-- `SearchMetricOptions`, searchers.h:132-192, without `WeightedEval` and the minimum metrics, which `Update` neither reads
nor writes, and `mIsOutOfSampleRandom`, which nothing sets. -/
structure Metrics (K : Type) where
  /-- `MetricsIn` -/
  metricsIn : List Gof
  /-- `MetricsOut` -/
  metricsOut : List Sco
  /-- `EvalIsPosOrientation` -/
  orient : List Bool := []
  /-- `TrainFixSize` -/
  trainFix : Int := 0
  /-- `TrainRatio` -/
  trainRatio : Dbl K
  /-- `SimFixSize` -/
  simFix : Int := 0
  /-- `Seed` -/
  seed : Int
  /-- `Horizons` -/
  horizons : List Int := []
  /-- `mIsTimeSeries` -/
  isTimeSeries : Bool := false
  /-- `MetricInIndices` -/
  indexIn : Gof → Option Int := fun _ => none
  /-- `MetricOutIndices` -/
  indexOut : Sco → Option Int := fun _ => none

/-- `map.insert(std::make_pair(k, v))`: an entry that exists stays. -/
def insert {α : Type} [DecidableEq α] (f : α → Option Int) (k : α) (v : Int) : α → Option Int :=
  fun x => if x = k ∧ f k = none then some v else f x

/-- The loop over the in-sample metrics, summary.cpp:61-65. -/
def insertIn (metricsIn : List Gof) : List Gof → (Gof → Option Int) → Gof → Option Int
  | [], f => f
  | m :: ms, f => insertIn metricsIn ms (insert f m (indexOf metricsIn m))

/-- The loop over the out-of-sample metrics, summary.cpp:67-72. -/
def insertOut (metricsOut : List Sco) : List Sco → (Sco → Option Int) → Sco → Option Int
  | [], f => f
  | m :: ms, f => insertOut metricsOut ms (insert f m (indexOf metricsOut m))

/-- `SearchMetricOptions::Update`, summary.cpp:23-73. -/
def Metrics.update {K : Type} [DecidableEq K] [Zero K] (o : Metrics K) (isOutOfSampleRandom isTimeSeries : Bool) :
    Outcome (Metrics K) :=
  let o := { o with isTimeSeries := isTimeSeries }
  let o := if isOutOfSampleRandom = false then { o with seed := 0 } else o
  let o := if isTimeSeries = false then { o with horizons := [] } else o
  let hasOut : Bool := decide (o.simFix > 0)
  if hasOut = false ∧ o.metricsOut.length > 0 then .throws
  else
    let o := if o.trainFix > 0 then { o with trainRatio := .num 0 } else o
    if hasOut = true ∧ isTimeSeries = false ∧ o.trainFix = 0 ∧ o.trainRatio = .num 0 then .throws
    else if isTimeSeries = true ∧ ((o.horizons.length = 0 ∧ o.metricsOut.length > 0) ∨
        (o.horizons.length > 0 ∧ o.metricsOut.length = 0)) then .throws
    else .ok { o with
      orient := o.metricsIn.map gofPositive ++ o.metricsOut.map scoPositive
      indexIn := insertIn o.metricsIn [.aic, .auc, .brier, .frequencyCost, .sic] o.indexIn
      indexOut := insertOut o.metricsOut
        [.auc, .brier, .crps, .direction, .frequencyCost, .mae, .mape, .rmse, .rmspe, .sign] o.indexOut }

/-- `SearchModelChecks`, searchers.h:195-249, without the bounds of the predictions, which `Update` does not read. -/
structure Checks (K : Type) where
  /-- `Estimation` -/
  estimation : Bool := false
  /-- `MinObsCount` -/
  minObs : Int := 0
  /-- `MinDof` -/
  minDof : Int := 0
  /-- `MinOutSim` -/
  minOutSim : Int := 0
  /-- `MinR2` -/
  minR2 : Dbl K := .ninf
  /-- `MaxAic` -/
  maxAic : Dbl K := .pinf
  /-- `MaxSic` -/
  maxSic : Dbl K := .pinf
  /-- `MaxConditionNumber` -/
  maxCondition : Dbl K := .pinf
  /-- `Prediction` -/
  prediction : Bool := false
  /-- `mCheckCN` -/
  checkCN : Bool := false
  /-- `mCheckCN_all` -/
  checkCNAll : Bool := false

/-- `std::isinf`. -/
def isInf {K : Type} : Dbl K → Bool
  | .pinf => true
  | .ninf => true
  | _ => false

/-- `-x`. -/
def neg {K : Type} [Neg K] : Dbl K → Dbl K
  | .pinf => .ninf
  | .ninf => .pinf
  | .nan => .nan
  | .num x => .num (-x)

/-- `SearchModelChecks::Update`, summary.cpp:75-101. -/
def Checks.update {K : Type} [Neg K] (c : Checks K) (m : Metrics K) : Outcome (Checks K) :=
  let c := if m.isTimeSeries = false then { c with prediction := false } else c
  if m.simFix > 0 ∧ c.minOutSim > m.simFix then .throws
  else
    let checkN : Bool := decide (c.minObs > 0)
    let checkDof : Bool := decide (c.minDof > 0)
    let checkAic : Bool := isInf c.maxAic == false
    let checkSic : Bool := isInf c.maxSic == false
    let checkR2 : Bool := isInf (neg c.minR2) == false
    let c := { c with
      checkCN := decide (m.metricsOut.length > 0) && isInf c.maxCondition == false
      checkCNAll := c.estimation && isInf c.maxCondition == false }
    .ok (if c.estimation = false ∧ (m.metricsIn.length > 0 ∨ checkN = true ∨ checkDof = true ∨ checkAic = true ∨
        checkSic = true ∨ checkR2 = true) then { c with estimation := true } else c)

/-- `SearchItems::Update`, summary.cpp:14-21: the number of metrics and the number of targets. -/
def itemsUpdate {K : Type} (m : Metrics K) (targetCount : Int) : Outcome (Int × Int) :=
  if targetCount ≤ 0 then .throws
  else .ok ((m.metricsIn.length + m.metricsOut.length : Nat), targetCount)

end SOpt
end LDT
