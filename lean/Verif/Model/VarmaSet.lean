import Verif.Model.VarmaSearcher
import Verif.Model.ChoiceSet
/-!
# The set of the searchers of VARMA models: `src/ldt_statistics/modeling/time_series/varma/varma_modelset.cpp:302-391`

`ModelSet` is that of `Verif.Model.ChoiceSet`. Exact arithmetic; without weights.
-/
namespace LDT
namespace Vm
open Op Mx Arr Score

/-- What the user asks for: the arguments, varma_modelset.cpp:302-311. -/
structure SetRequest where
  source : DsTs ℝ
  /-- `data.NumEndo` -/
  numEndo : ℕ
  /-- `data.NumExo` -/
  numExo : ℕ
  /-- `data.Lambdas` -/
  lambdas : List (Val ℝ)
  /-- `Partitions`, `NumFixPartitions`, `NumFixItems` -/
  comb : Srch.Combinations
  /-- `Sizes` -/
  sizes : List ℤ
  /-- `InnerGroups` -/
  groups : List (List ℤ)
  items : Srch.Items
  /-- `KeepModelEvaluations` -/
  keepModels : Bool
  /-- `LengthTargets` -/
  targets : ℕ
  /-- `LengthEndogenous` -/
  endo : ℕ
  /-- `Length1` -/
  length1 : ℕ
  metrics : SOpt.Metrics ℝ
  /-- `MinMetricIn` -/
  minIn : Gof → Option (List ℝ)
  /-- `MinMetricOut` -/
  minOut : Sco → Option (List ℝ)
  checks : SOpt.Checks ℝ
  /-- `PredictionLower` -/
  lower : Option (Mat (Dbl ℝ))
  /-- `PredictionUpper` -/
  upper : Option (Mat (Dbl ℝ))
  /-- `varmaMaxParameters6` -/
  params : List ℤ
  /-- `seasonCount` -/
  season : ℤ
  usePrevious : Bool
  maxHorizon : ℤ

/-- The orders of a model: (p, d, q) and, of the season, (P, D, Q). -/
structure Order where
  p : ℤ
  d : ℤ
  q : ℤ
  sp : ℤ
  sd : ℤ
  sq : ℤ
  deriving DecidableEq

/-- `p, d, q, P, D, Q`, varma_modelset.cpp:34-35. -/
def Order.list (o : Order) : List ℤ := [o.p, o.d, o.q, o.sp, o.sd, o.sq]

/-- The orders in the order of the loops, varma_modelset.cpp:360-367. -/
def orders (m : List ℤ) : List Order :=
  ((upTo 0 (m.getD 0 0 + 1)).flatMap fun p => (upTo 0 (m.getD 1 0 + 1)).flatMap fun d => (upTo 0 (m.getD 2 0 + 1)).flatMap fun q =>
    (upTo 0 (m.getD 3 0 + 1)).flatMap fun sp => (upTo 0 (m.getD 4 0 + 1)).flatMap fun sd => (upTo 0 (m.getD 5 0 + 1)).map fun sq => ⟨p, d, q, sp, sd, sq⟩).filter
    fun o => !(decide (o.p = 0) && decide (o.q = 0) && decide (o.sp = 0) && decide (o.sq = 0))

/-- A searcher. -/
structure SetSearcher where
  cfg : Srch.RegCfg
  setup : Setup
  memory : Memory
  /-- the members of `SearcherReg` after the constructor -/
  init : Srch.RegSt

/-- The elements of the partitions, varma_modelset.cpp:324-335. -/
def checkPartitions (endo : ℤ) (partitions : List (List ℤ)) : Outcome Unit :=
  if partitions.any fun b => b.any fun a => decide (a > endo) || decide (a < 0) then .throws else .ok ()

/-- The largest orders, varma_modelset.cpp:337-343. -/
def checkParams (m : List ℤ) : Outcome Unit :=
  if m.length ≠ 6 then .throws
  else if m.any fun i => decide (i < 0) then .throws
  else .ok ()

/-- `ExoIndexes`, varma_modelset.cpp:345-347. -/
def SetRequest.exoGroups (q : SetRequest) : List (List ℤ) := if q.groups.length = 0 then [[]] else q.groups

/-- `T`, varma_modelset.cpp:349. -/
def SetRequest.obs (q : SetRequest) : Outcome ℤ := match q.source.ranges with
  | [] => .throws
  | r :: _ => .ok (r.stop + 1)

/-- The members of `SearcherReg`, varma_modelset.cpp:22-23. -/
def SetRequest.cfg (q : SetRequest) (metrics : SOpt.Metrics ℝ) (evals : ℤ) (n : ℤ) (e : List ℤ) : Srch.RegCfg where
  items := q.items
  keepModels := q.keepModels
  lengthEvals := evals.toNat
  lengthTargets := q.targets
  length1 := q.length1
  numEndo := q.numEndo
  numExo := q.numExo
  hasWeight := false
  metricsIn := metrics.metricsIn
  metricsOut := metrics.metricsOut
  minIn := q.minIn
  minOut := q.minOut
  pos := metrics.orient
  innerExo := true
  inner := e
  n := n.toNat

/-- The set-up of a searcher, varma_modelset.cpp:24-25, 34-35. -/
def SetRequest.setup (q : SetRequest) (metrics : SOpt.Metrics ℝ) (checks : SOpt.Checks ℝ) (z : Varma.Sizes) (o : Order) : Setup where
  metrics := metrics
  checks := checks
  lower := q.lower
  upper := q.upper
  length1 := q.length1
  targets := q.targets
  sizes := z
  params := o.list
  maxHorizon := q.maxHorizon
  usePrevious := q.usePrevious
  lambdas := q.lambdas

/-- The sizes of a model, varma_modelset.cpp:372-373; `T` observations, `junk` is the content of the work array of the polynomials. -/
def SetRequest.sizesFor (q : SetRequest) (junk T n : ℤ) (o : Order) (e : List ℤ) : Outcome Varma.Sizes :=
  Varma.makeSizes junk T n e.length o.p o.d o.q o.sp o.sd o.sq q.season

/-- One searcher: varma_modelset.cpp:372-378 with `Searcher::Searcher` (searcher.cpp:18-22), `SearcherReg::SearcherReg` and varma_modelset.cpp:14-73. -/
noncomputable def setSearcher (q : SetRequest) (junk : ℤ) (w : Varma.Sizes → Needs) (big tiny : ℝ) (metrics : SOpt.Metrics ℝ) (checks : SOpt.Checks ℝ) (evals T n : ℤ)
    (o : Order) (e : List ℤ) : Outcome SetSearcher := do
  let z ← q.sizesFor junk T n o e
  if (q.comb.numFixPartitions : ℤ) > n then .throws
  else do
    let c := q.cfg metrics evals n e
    let st ← Srch.regConstruct c big tiny
    let u := q.setup metrics checks z o
    let M ← construct u (w z) q.source.pData.cols n.toNat e.length
    pure ⟨c, u, M, st⟩

/-- The loop over the sizes, varma_modelset.cpp:353-387. -/
noncomputable def setSizes (q : SetRequest) (junk : ℤ) (w : Varma.Sizes → Needs) (big tiny : ℝ) (metrics : SOpt.Metrics ℝ) (checks : SOpt.Checks ℝ) (evals T : ℤ) :
    List ℤ → Outcome (List SetSearcher)
  | [] => .ok []
  | s :: ss =>
    if s ≤ 0 then .throws
    else do
      let a ← (orders q.params).mapM fun o => q.exoGroups.mapM (setSearcher q junk w big tiny metrics checks evals T s o)
      let rest ← setSizes q junk w big tiny metrics checks evals T ss
      pure (a.flatten ++ rest)

/-- The object; `work` is that of `ModelSet`. -/
structure VarmaModelset where
  metrics : SOpt.Metrics ℝ
  checks : SOpt.Checks ℝ
  searchers : List SetSearcher
  work : ℤ

/-- The constructor, varma_modelset.cpp:302-390. -/
noncomputable def varmaModelset (q : SetRequest) (junk : ℤ) (w : Varma.Sizes → Needs) (big tiny : ℝ) (parallel : Bool) : Outcome VarmaModelset := do
  let metrics ← q.metrics.update false true
  let checks ← q.checks.update metrics
  let it ← SOpt.itemsUpdate metrics q.targets
  if q.length1 > 0 ∧ checks.prediction = false then .throws
  else do
    let _ ← checkPartitions q.endo q.comb.partitions
    let _ ← checkParams q.params
    let T ← q.obs
    let ss ← setSizes q junk w big tiny metrics checks it.1 T q.sizes
    pure ⟨metrics, checks, ss, Dc.workSize parallel (ss.map fun s => s.memory.work)⟩

end Vm
end LDT
