import Verif.Model.ChoiceSearch
import Verif.Model.MatrixElem
import Verif.Model.MatrixExt
/-!
# The set of the searchers of discrete choice models: src/ldt_statistics/modeling/discrete/discrete_choice_modelset.cpp:339-466, and
`ModelSet`: src/ldt_statistics/modeling/search/modelset.cpp:18-115

Exact arithmetic.  `items.Length2` is 0 (the class has no results of that kind).
-/
namespace LDT
namespace Dc
open Op Di Mx Arr Score

/-- What the user asks for: the arguments, discrete_choice_modelset.cpp:340-346. -/
structure Request where
  source : Mat (Val ℝ)
  hasWeight : Bool
  form : Form
  /-- `data.NumEndo` -/
  numEndo : ℕ
  /-- `data.NumExo` -/
  numExo : ℕ
  /-- `Partitions`, `NumFixPartitions`, `NumFixItems` -/
  comb : Srch.Combinations
  /-- `Sizes` -/
  sizes : List ℤ
  items : Srch.Items
  /-- `KeepModelEvaluations` -/
  keepModels : Bool
  /-- `Length1` -/
  length1 : ℤ
  metrics : SOpt.Metrics ℝ
  /-- `metrics.WeightedEval` -/
  weightedEval : Bool
  /-- `MinMetricIn` -/
  minIn : Gof → Option (List ℝ)
  /-- `MinMetricOut` -/
  minOut : Sco → Option (List ℝ)
  checks : SOpt.Checks ℝ
  costs : List (Mat ℝ)
  roc : Roc.Options ℝ
  /-- `aucOptions.Costs` -/
  rocCosts : Option (ℕ → ℝ)
  addLogit : Bool
  addProbit : Bool

/-- A searcher. -/
structure DcSearcher where
  cfg : Srch.RegCfg
  setup : DcSetup
  sizes : DcSizes
  seed : ℤ
  /-- the members of `SearcherReg` after the constructor -/
  init : Srch.RegSt

/-- The elements of the partitions, discrete_choice_modelset.cpp:398-410. -/
def checkElements (exo : ℤ) (partitions : List (List ℤ)) : Outcome Unit :=
  if partitions.any fun b => b.any fun a => decide (a > exo) || decide (a < 0) then .throws else .ok ()

/-- The loop over the cost tables, discrete_choice_modelset.cpp:428-430. -/
noncomputable def checkTables (numChoices : ℤ) : List (Mat ℝ) → Outcome Unit
  | [] => .ok ()
  | c :: cs => do
    let _ ← FCost.check c numChoices
    checkTables numChoices cs

/-- The checks of the cost tables, discrete_choice_modelset.cpp:412-431. -/
noncomputable def checkCosts (m : SOpt.Metrics ℝ) (costs : List (Mat ℝ)) (numChoices : ℤ) : Outcome Unit := do
  let i ← pos m.indexIn .frequencyCost
  let o ← pos m.indexOut .frequencyCost
  if i = -1 ∧ o = -1 then (if costs.length > 0 then .throws else .ok ())
  else if i > 0 ∨ o > 0 then (if costs.length = 0 then .throws else checkTables numChoices costs)
  else .ok ()

/-- The seed of the `co`-th size (from 1), discrete_choice_modelset.cpp:441-444: `Seed` is a signed integer. -/
def seedOf (seed co : ℤ) : ℤ := if seed = 0 then 0 else if seed < 0 then -seed else seed + co

/-- The members of `SearcherReg`, discrete_choice_modelset.cpp:24-26: the dependent variable is the inner index. -/
def Request.cfg (q : Request) (metrics : SOpt.Metrics ℝ) (evals targets n : ℤ) : Srch.RegCfg where
  items := q.items
  keepModels := q.keepModels
  lengthEvals := evals.toNat
  lengthTargets := targets.toNat
  length1 := q.length1.toNat
  numEndo := q.numEndo
  numExo := q.numExo
  hasWeight := q.hasWeight
  metricsIn := metrics.metricsIn
  metricsOut := metrics.metricsOut
  minIn := q.minIn
  minOut := q.minOut
  pos := metrics.orient
  innerExo := false
  inner := [0]
  n := n.toNat

/-- The set-up of a searcher of the law `law`. -/
def Request.setup (q : Request) (metrics : SOpt.Metrics ℝ) (checks : SOpt.Checks ℝ) (numChoices : ℤ) (law : Law) : DcSetup :=
  ⟨law, q.form, numChoices, q.hasWeight, q.weightedEval, q.costs, q.roc, q.rocCosts, metrics, checks, q.length1.toNat⟩

/-- One searcher: `Searcher::Searcher` (searcher.cpp:18-22), `SearcherReg::SearcherReg` and discrete_choice_modelset.cpp:14-102. -/
noncomputable def makeSearcher (q : Request) (big tiny : ℝ) (metrics : SOpt.Metrics ℝ) (checks : SOpt.Checks ℝ) (evals targets numChoices seed n : ℤ) (law : Law) :
    Outcome DcSearcher :=
  if (q.comb.numFixPartitions : ℤ) > n then .throws
  else do
    let c := q.cfg metrics evals targets n
    let st ← Srch.regConstruct c big tiny
    let u := q.setup metrics checks numChoices law
    let z ← dcConstruct u q.comb.numFixPartitions q.source.rows st.cols.length n
    pure ⟨c, u, z, seed, st⟩

/-- The loop over the sizes, discrete_choice_modelset.cpp:433-462; `co` sizes were treated before. -/
noncomputable def makeSearchers (q : Request) (big tiny : ℝ) (metrics : SOpt.Metrics ℝ) (checks : SOpt.Checks ℝ) (evals targets numChoices : ℤ) :
    (co : ℤ) → List ℤ → Outcome (List DcSearcher)
  | _, [] => .ok []
  | co, s :: ss =>
    if s ≤ 0 then .throws
    else do
      let seed := seedOf metrics.seed (co + 1)
      let a ← (if q.addLogit then do let x ← makeSearcher q big tiny metrics checks evals targets numChoices seed s .logit; pure [x] else pure [])
      let b ← (if q.addProbit then do let x ← makeSearcher q big tiny metrics checks evals targets numChoices seed s .probit; pure [x] else pure [])
      let rest ← makeSearchers q big tiny metrics checks evals targets numChoices (co + 1) ss
      pure (a ++ b ++ rest)

/-- The object; `work` and `workI` are those of `ModelSet`. -/
structure DcModelset where
  numChoices : ℤ
  metrics : SOpt.Metrics ℝ
  checks : SOpt.Checks ℝ
  searchers : List DcSearcher
  work : ℤ
  workI : ℤ

/-- `ModelSet::ModelSet`, modelset.cpp:32-46: the largest of the work sizes, none if the searchers run in parallel. -/
def workSize (parallel : Bool) (sizes : List ℤ) : ℤ := if parallel then 0 else sizes.foldl max 0

/-- The constructor, discrete_choice_modelset.cpp:339-466.  Without a number in the first column the maximum is minus infinity, whose cast
to an integer is undefined. -/
noncomputable def dcModelset (q : Request) (big tiny : ℝ) (parallel : Bool) : Outcome DcModelset := do
  let mx ← q.source.maximumInColumn 0
  match mx with
  | none => .ub
  | some top =>
    let numChoices := trunc (top.1 + 1)
    let exo := q.source.cols - (if q.hasWeight then 2 else 1)
    if numChoices < 2 then .throws
    else if exo < 1 then .throws
    else do
      let metrics ← q.metrics.update true false
      let checks ← q.checks.update metrics
      let it ← SOpt.itemsUpdate metrics 1
      if q.length1 ≠ 0 ∧ q.length1 ≠ exo + numChoices - 2 then .throws
      else if q.length1 ≠ 0 ∧ checks.estimation = false then .throws
      else do
        let one ← q.source.equalsValueColumn (if q.hasWeight then 2 else 1) (some 1) 0 false true
        if one = false then .throws
        else do
          let _ ← checkElements exo q.comb.partitions
          let _ ← checkCosts metrics q.costs numChoices
          let ss ← makeSearchers q big tiny metrics checks it.1 it.2 numChoices 0 q.sizes
          pure ⟨numChoices, metrics, checks, ss, workSize parallel (ss.map fun s => s.sizes.work), workSize parallel (ss.map fun s => s.sizes.workI)⟩

/-- `ModelSet::Start` without parallel execution, modelset.cpp:88-94, for the searchers in the order in which they are left by the shuffle (modelset.cpp:49-54): `cancel k`
is the value of `RequestCancel` that is read before the `k`-th of them, `run s` the call of `Start` (C17, C119).  A searcher that was not started has done nothing. -/
def startAll {σ τ : Type} (run : σ → Outcome τ) (idle : σ → τ) (cancel : ℕ → Bool) : ℕ → List σ → Outcome (List τ)
  | _, [] => .ok []
  | k, s :: ss =>
    if cancel k then .ok ((s :: ss).map idle)
    else do
      let x ← run s
      let rest ← startAll run idle cancel (k + 1) ss
      pure (x :: rest)

/-- `GetExpectedNumberOfModels`, modelset.cpp:108-115. -/
def expectedAll {σ : Type} (count : σ → Outcome ℕ) : List σ → Outcome ℕ
  | [] => .ok 0
  | s :: ss => do
    let x ← count s
    let rest ← expectedAll count ss
    pure (x + rest)

/-- `GetNumberOfEstimatedModels`, modelset.cpp:99-105. -/
def searchedAll (l : List Srch.St) : ℕ := (l.map fun s => s.counter).sum

end Dc
end LDT
