import Verif.Model.SurSearcher
import Verif.Model.ChoiceSet
/-!
# The set of the searchers of systems of regressions: `src/ldt_statistics/modeling/linear/sur_modelset.cpp:166-244`

`ModelSet` is that of `Verif.Model.ChoiceSet`. Exact arithmetic; the seeds do not overflow.
-/
namespace LDT
namespace Su
open Op Mx Arr Score

/-- What the user asks for: the arguments, sur_modelset.cpp:166-172. -/
structure SetRequest where
  source : Mat (Val ℝ)
  /-- `data.NumEndo` -/
  numEndo : ℕ
  /-- `data.NumExo` -/
  numExo : ℕ
  /-- `data.Lambdas` -/
  lambdas : List (Val ℝ)
  /-- `Partitions`, `NumFixPartitions`, `NumFixItems` -/
  comb : Srch.Combinations
  /-- `Sizes` -/
  sizes : List ℤ
  /-- `InnerGroups` -/
  groups : List (List ℤ)
  items : Srch.Items
  /-- `KeepModelEvaluations` -/
  keepModels : Bool
  /-- `LengthTargets` -/
  targets : ℕ
  /-- `LengthEndogenous` -/
  endo : ℕ
  /-- `LengthExogenous` -/
  exo : ℕ
  /-- `Length1` -/
  length1 : ℕ
  metrics : SOpt.Metrics ℝ
  /-- `MinMetricIn` -/
  minIn : Gof → Option (List ℝ)
  /-- `MinMetricOut` -/
  minOut : Sco → Option (List ℝ)
  checks : SOpt.Checks ℝ
  maxIter : ℤ
  maxProb : ℝ

/-- A searcher. -/
structure SetSearcher where
  cfg : Srch.RegCfg
  setup : SsSetup
  sizes : SsSizes
  seed : ℤ
  /-- the members of `SearcherReg` after the constructor -/
  init : Srch.RegSt

/-- The elements of the partitions, sur_modelset.cpp:187-204. -/
def checkPartitions (endo exo : ℤ) (partitions : List (List ℤ)) : Outcome Unit :=
  if partitions.any fun b => b.any fun a => decide (a < endo) || decide (a ≥ endo + exo) || decide (a < 0) then .throws else .ok ()

/-- The seed of the searcher after `co` others, sur_modelset.cpp:222-225. -/
def setSeed (seed : ℤ) (co : ℕ) : ℤ := if seed = 0 then 0 else if seed < 0 then -seed else seed + co

/-- The members of `SearcherReg`, sur_modelset.cpp:24-25. -/
def SetRequest.cfg (q : SetRequest) (metrics : SOpt.Metrics ℝ) (evals : ℤ) (n : ℤ) (e : List ℤ) : Srch.RegCfg where
  items := q.items
  keepModels := q.keepModels
  lengthEvals := evals.toNat
  lengthTargets := q.targets
  length1 := q.length1
  numEndo := q.numEndo
  numExo := q.numExo
  hasWeight := false
  metricsIn := metrics.metricsIn
  metricsOut := metrics.metricsOut
  minIn := q.minIn
  minOut := q.minOut
  pos := metrics.orient
  innerExo := false
  inner := e
  n := n.toNat

/-- The set-up of a searcher, sur_modelset.cpp:26-27. -/
def SetRequest.setup (q : SetRequest) (metrics : SOpt.Metrics ℝ) (checks : SOpt.Checks ℝ) : SsSetup :=
  ⟨metrics, checks, q.length1, q.numEndo, q.maxIter, q.maxProb, q.lambdas⟩

/-- One searcher: `Searcher::Searcher` (searcher.cpp:18-22), `SearcherReg::SearcherReg` and sur_modelset.cpp:14-62. -/
noncomputable def setSearcher (q : SetRequest) (big tiny : ℝ) (metrics : SOpt.Metrics ℝ) (checks : SOpt.Checks ℝ) (evals seed n : ℤ) (e : List ℤ) :
    Outcome SetSearcher :=
  if (q.comb.numFixPartitions : ℤ) > n then .throws
  else do
    let c := q.cfg metrics evals n e
    let st ← Srch.regConstruct c big tiny
    let u := q.setup metrics checks
    let z ← ssConstruct u q.source.rows e.length n.toNat
    pure ⟨c, u, z, seed, st⟩

/-- The loop over the groups for the size `s`, sur_modelset.cpp:216-234; `co` searchers were made before. With the number of those made now. -/
noncomputable def setGroups (q : SetRequest) (big tiny : ℝ) (metrics : SOpt.Metrics ℝ) (checks : SOpt.Checks ℝ) (evals s : ℤ) :
    (co : ℕ) → List (List ℤ) → Outcome (List SetSearcher)
  | _, [] => .ok []
  | _, [] :: _ => .throws
  | co, (a :: e) :: es =>
    if a > (q.targets : ℤ) then setGroups q big tiny metrics checks evals s co es
    else do
      let x ← setSearcher q big tiny metrics checks evals (setSeed metrics.seed co) s (a :: e)
      let rest ← setGroups q big tiny metrics checks evals s (co + 1) es
      pure (x :: rest)

/-- The loop over the sizes, sur_modelset.cpp:207-235; `co` searchers were made before. -/
noncomputable def setSizes (q : SetRequest) (big tiny : ℝ) (metrics : SOpt.Metrics ℝ) (checks : SOpt.Checks ℝ) (evals : ℤ) :
    (co : ℕ) → List ℤ → Outcome (List SetSearcher)
  | _, [] => .ok []
  | co, s :: ss =>
    if s ≤ 0 then .throws
    else if (q.comb.numFixPartitions : ℤ) > s then setSizes q big tiny metrics checks evals co ss
    else do
      let a ← setGroups q big tiny metrics checks evals s co q.groups
      let rest ← setSizes q big tiny metrics checks evals (co + a.length) ss
      pure (a ++ rest)

/-- The object; `work` is that of `ModelSet`. -/
structure SurModelset where
  metrics : SOpt.Metrics ℝ
  checks : SOpt.Checks ℝ
  searchers : List SetSearcher
  work : ℤ

/-- The constructor, sur_modelset.cpp:166-239. -/
noncomputable def surModelset (q : SetRequest) (big tiny : ℝ) (parallel : Bool) : Outcome SurModelset := do
  let metrics ← q.metrics.update true false
  let checks ← q.checks.update metrics
  let it ← SOpt.itemsUpdate metrics q.targets
  if q.length1 ≠ 0 ∧ q.length1 ≠ q.exo then .throws
  else if q.length1 ≠ 0 ∧ checks.estimation = false then .throws
  else do
    let _ ← checkPartitions q.endo q.exo q.comb.partitions
    let ss ← setSizes q big tiny metrics checks it.1 0 q.sizes
    pure ⟨metrics, checks, ss, Dc.workSize parallel (ss.map fun s => s.sizes.work)⟩

end Su
end LDT
