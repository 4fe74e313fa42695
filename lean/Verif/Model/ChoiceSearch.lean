import Verif.Model.ChoiceSim
import Verif.Model.SearchOptions
import Verif.Model.SearchReg
import Verif.Model.MatrixStat
/-!
# The searcher of discrete choice models: src/ldt_statistics/modeling/discrete/discrete_choice_modelset.cpp:14-288

Exact arithmetic. An infinite AIC or SIC is not told from NaN in the table of the metrics, a training ratio that is not a number is
taken for 0.  Memory that was not written is `junk`.
-/
namespace LDT
namespace Dc
open Op Di Mx Arr Score

/-- What the class is made with, discrete_choice_modelset.cpp:16-22. -/
structure DcSetup where
  law : Law
  form : Form
  numChoices : ℤ
  hasWeight : Bool
  /-- `metrics.WeightedEval` -/
  weightedEval : Bool
  costs : List (Mat ℝ)
  roc : Roc.Options ℝ
  /-- `aucOptions.Costs` -/
  rocCosts : Option (ℕ → ℝ)
  metrics : SOpt.Metrics ℝ
  checks : SOpt.Checks ℝ
  /-- `items.Length1` -/
  length1 : ℕ

/-- `NumCutoff`. -/
def DcSetup.cuts (u : DcSetup) : ℕ := (u.numChoices - 1).toNat

/-- There are simulations, discrete_choice_modelset.cpp:53,174,251. -/
def DcSetup.simulates (u : DcSetup) : Bool := decide (u.metrics.simFix > 0) && decide (u.metrics.metricsOut.length > 0)

/-- `std::map::at`. -/
def pos {α : Type} (f : α → Option ℤ) (k : α) : Outcome ℤ := Outcome.ofOption (f k)

/-- `INT32_MAX`. -/
def intMax : ℤ := 2147483647

/-- The simulation object, discrete_choice_modelset.cpp:54-66, and what it is called with, 179-183: the seventh argument of the code
(`SimFixSize - MinOutSim`) is `checkSizes`, and `maxInvalidSim` is `INT32_MAX`. -/
noncomputable def simSetup (u : DcSetup) : Outcome SimSetup := do
  let b ← pos u.metrics.indexOut .brier
  let a ← pos u.metrics.indexOut .auc
  pure ⟨u.law, u.form, u.numChoices, u.hasWeight, (Srch.toVal u.metrics.trainRatio).getD 0, u.metrics.trainFix, u.costs,
    decide (b ≥ 0), decide (a ≥ 0), false, u.weightedEval, u.roc, u.rocCosts, intMax⟩

/-- `DiscreteChoiceSim::Calculate`, discrete_choice_sim.cpp:88-334, of an object that was made for another number of rows and has `n1` as
`N1`; the model of the simulations is made for `rows - n1` and `n1` rows, 114,170-172. -/
noncomputable def simulateMade (S : Fns) (u : SimSetup) (n1 : ℤ) (checkSizes : Bool) (E : ∀ k, Env k) (other : Outcome (Ext u.form u.model.cuts))
    (junk : ℕ → ℕ → Val ℝ) (simMax : ℕ) (data : Mat ℝ) (storage : List ℝ) (orders : ℕ → ℕ → List ℤ) : Outcome SimResult := do
  let _ ← (if checkSizes then do let _ ← simConstruct u data.rows data.cols; pure () else pure () : Outcome Unit)
  if u.form ≠ .binary then .throws
  else do
    let sz ← extConstruct u.form (data.rows - n1) data.cols u.hasWeight false u.numChoices false n1 none
    let st ← Split.calculateD u.numChoices.toNat data storage u.ratio u.fix
    let s ← simLoop u (fun i => Split.shuffleD data st (orders i)) (simFit S u sz E other junk) (List.range simMax) ⟨tally0 u, 0, 0⟩
    simEnd u s

/-- The sizes the constructor computes, discrete_choice_modelset.cpp:36-91. -/
structure DcSizes where
  /-- `Data.StorageSize` -/
  data : ℤ
  /-- the sizes of `DModel`, 0 if it was not made -/
  model : Sizes
  /-- the sizes of `Model`, 0 if it was not made -/
  sim : SimSizes
  work : ℤ
  workI : ℤ

/-- An object that was not made. -/
def noSizes : Sizes := ⟨0, 0, 0⟩

/-- An object that was not made. -/
def noSim : SimSizes := ⟨0, 0, 0, 0, ⟨0, 0, 0, noSizes⟩⟩

/-- A score in the sample is wanted, discrete_choice_modelset.cpp:76-78. -/
def scored (u : DcSetup) : Outcome Bool := do
  let c ← pos u.metrics.indexIn .frequencyCost
  let a ← pos u.metrics.indexIn .auc
  let b ← pos u.metrics.indexIn .brier
  pure (decide (c ≥ 0) || decide (a ≥ 0) || decide (b ≥ 0))

/-- The constructor, discrete_choice_modelset.cpp:14-102, after that of `SearcherReg`; `rows` are those of the data, `cols` is the number of
column indices.  The `std::logic_error` of line 95 is made and not thrown. -/
noncomputable def dcConstruct (u : DcSetup) (fixPartitions rows cols numExo : ℤ) : Outcome DcSizes :=
  if fixPartitions = 0 then .throws
  else do
    let ds ← Dataset.make rows cols true true
    let m ← (if u.checks.estimation then construct u.form rows numExo u.numChoices false else pure noSizes)
    let s ← (if u.simulates then do let v ← simSetup u; simConstruct v rows cols else pure noSim)
    let work := ds.storageSize + m.storage + s.storage + max m.work s.work
    let sc ← scored u
    let work := if sc then work + (max (rows + u.numChoices - 2) (costStorage u.costs.length) + rows * u.numChoices) else work
    pure ⟨ds.storageSize, m, s, work, s.workI⟩

/-- The blocks laid over the work array by `EstimateOneReg`: while `DModel` estimates (150-151), while `Model` simulates (179-180), and for the
scores (204-206, 231-234: the work array of `GetProbabilities` and then that of the costs). -/
def dcBlocks (u : DcSetup) (z : DcSizes) (rows : ℤ) (probRows : ℤ) : List (List ℤ) :=
  [[z.data, z.model.storage, z.model.work], [z.data, z.model.storage, z.sim.storage, z.sim.work],
    [z.data, z.model.storage, z.sim.storage, rows * u.numChoices, probWork u.form probRows u.cuts],
    [z.data, z.model.storage, z.sim.storage, rows * u.numChoices, costStorage u.costs.length]]

/-- The tables that `EstimateOneReg` fills (of one column, since there is one target). -/
structure DcTables where
  metric : ℕ → Val ℝ
  mean : ℕ → Val ℝ
  variance : ℕ → Val ℝ
  extra : ℤ

/-- The tables as `SearcherReg::EstimateOne` makes them, searcher_reg.cpp:89-100. -/
def tables0 : DcTables := ⟨fun _ => some 0, fun _ => none, fun _ => some 0, 0⟩

/-- `metrics.Mat.Set0(ind, 0, v)` with `n` rows. -/
def setMetric (n : ℕ) (ind : ℤ) (v : Val ℝ) (t : DcTables) : Outcome DcTables :=
  if ind < 0 ∨ (n : ℤ) ≤ ind then .ub else .ok { t with metric := fun i => if (i : ℤ) = ind then v else t.metric i }

/-- `if (ind >= 0) metrics.Mat.Set0(off + ind, 0, v)`. -/
def setIf (n : ℕ) (off ind : ℤ) (v : Val ℝ) (t : DcTables) : Outcome DcTables :=
  if ind ≥ 0 then setMetric n (off + ind) v t else .ok t

/-- The number of metrics. -/
def DcSetup.rows (u : DcSetup) : ℕ := u.metrics.metricsIn.length + u.metrics.metricsOut.length

/-- The sample as numbers: `Dataset` has left out the rows with a missing cell. -/
def tableOf (m : Mat (Val ℝ)) : Mat ℝ := ⟨m.rows, m.cols, some ((m.mem.take (m.rows * m.cols).toNat).map fun v => v.getD 0)⟩

/-- The checks before the estimation, discrete_choice_modelset.cpp:137-145: throws or goes on. -/
def checkBefore (u : DcSetup) (count numExo : ℤ) : Outcome Unit :=
  if u.checks.minObs > 0 ∧ u.checks.minObs > count then .throws
  else if u.checks.minDof > 0 ∧ u.checks.minDof > count - numExo - u.numChoices - 2 then .throws
  else .ok ()

/-- `condition_number > MaxConditionNumber`; the number is NaN if it was not computed. -/
noncomputable def condAbove (c : Option ℝ) (limit : Dbl ℝ) : Bool := match c with
  | some x => Dbl.lt limit (.num x)
  | none => false

/-- The checks after the estimation, discrete_choice_modelset.cpp:156-171. -/
noncomputable def checkAfter (u : DcSetup) (condition : Option ℝ) (aic sic : Dbl ℝ) : Outcome Unit :=
  if u.checks.checkCNAll = true ∧ condAbove condition u.checks.maxCondition = true then .throws
  else if Dbl.lt u.checks.maxAic aic = true then .throws
  else if Dbl.lt u.checks.maxSic sic = true then .throws
  else .ok ()

/-- The scores in the sample, discrete_choice_modelset.cpp:198-248.  `rows` is the number of rows of the data, for which `Probs` was made; `mem` are the
cells behind `Y.Data`.  The flag of the result: returned because of a cancellation (`cancel 4`, `cancel 5`). -/
noncomputable def inScores (S : Fns) (u : DcSetup) (rows : ℕ) (mem : List (Val ℝ)) (D : Data) (β : ℕ → ℝ) (junk : ℕ → ℕ → Val ℝ) (cancel : ℕ → Bool)
    (t : DcTables) : Outcome (DcTables × Bool) := do
  let costInd ← pos u.metrics.indexIn .frequencyCost
  let aucInd ← pos u.metrics.indexIn .auc
  let briInd ← pos u.metrics.indexIn .brier
  if costInd > 0 ∨ aucInd > 0 ∨ briInd > 0 then do
    let probs := probabilities S u.law u.form u.cuts D.k0 β D.n D.x junk
    let weighted := u.hasWeight && u.weightedEval
    let w : ℕ → ℝ := fun i => if weighted then D.wt i else 1
    let t ← (if briInd > 0 then
      setMetric u.rows briInd (brier rows (fun i => if weighted then mem.getD (D.n + i) none else some 1) (fun i => mem.getD i none) (fun i => probs i 1)) t
      else .ok t)
    if costInd > 0 ∧ cancel 4 = true then pure (t, true)
    else do
      let t ← (if costInd > 0 then do
        let r ← FCost.calculate u.costs (costObs D.n D.y w) (dense rows u.numChoices.toNat fun i j => (probs i j).getD 0)
        setMetric u.rows costInd (some r.2) t
        else .ok t)
      if aucInd > 0 ∧ cancel 5 = true then pure (t, true)
      else do
        let t ← (if aucInd > 0 then do
          let a ← aucOf u.roc none D.n D.y (fun i => (probs i 0).getD 0) w
          setMetric u.rows aucInd a t
          else .ok t)
        pure (t, false)
  else pure (t, false)

/-- The metrics of the estimation, discrete_choice_modelset.cpp:189-249. -/
noncomputable def inMetrics (S : Fns) (u : DcSetup) (rows : ℕ) (mem : List (Val ℝ)) (D : Data) (est : Option (Est (kOf u.form u.cuts D)))
    (junk : ℕ → ℕ → Val ℝ) (cancel : ℕ → Bool) (t : DcTables) : Outcome (DcTables × Bool) :=
  match est with
  | none => .ok (t, false)
  | some e => do
    let a ← pos u.metrics.indexIn .aic
    let t ← setIf u.rows 0 a (Srch.toVal e.aic) t
    let s ← pos u.metrics.indexIn .sic
    let t ← setIf u.rows 0 s (Srch.toVal e.sic) t
    inScores S u rows mem D (ext e.beta) junk cancel t

/-- The metrics of the simulations, discrete_choice_modelset.cpp:251-266. -/
noncomputable def outMetrics (u : DcSetup) (sim : Option SimResult) (t : DcTables) : Outcome DcTables :=
  match sim with
  | none => .ok t
  | some r => do
    let j : ℤ := u.metrics.metricsIn.length
    let c ← pos u.metrics.indexOut .frequencyCost
    let mean ← Mat.mean ⟨r.ratios.length, 1, some r.ratios⟩ false
    let t ← setIf u.rows j c mean t
    let a ← pos u.metrics.indexOut .auc
    let t ← setIf u.rows j a r.auc t
    let b ← pos u.metrics.indexOut .brier
    setIf u.rows j b r.brier t

/-- The loop over the selected variables, discrete_choice_modelset.cpp:278-284, from the `i`-th on. -/
def writeCoefs (len : ℕ) (beta var : ℕ → ℝ) : List ℤ → ℕ → DcTables → Outcome DcTables
  | [], _, t => .ok t
  | b :: bs, i, t =>
    if b - 1 < 0 ∨ (len : ℤ) ≤ b - 1 then .ub
    else writeCoefs len beta var bs (i + 1)
      { t with mean := fun k => if (k : ℤ) = b - 1 then some (beta i) else t.mean k
               variance := fun k => if (k : ℤ) = b - 1 then some (var i) else t.variance k }

/-- `(Ti)distType`: the order of the enumeration, discrete_choice.h:24-36. -/
def lawCode : Law → ℤ
  | .logit => 0
  | .probit => 1

/-- The coefficients, discrete_choice_modelset.cpp:268-287; `DModel.WorkSize > 0` if `DModel` was made. -/
noncomputable def coefs (u : DcSetup) {k : ℕ} (est : Option (Est k)) (cur : List ℤ) (t : DcTables) : Outcome DcTables :=
  let t := { t with extra := lawCode u.law }
  match est with
  | none => .ok t
  | some e =>
    if u.length1 > 0 then writeCoefs u.length1 (ext e.beta) (fun i => if h : i < k then e.betaVar ⟨i, h⟩ ⟨i, h⟩ else 0) cur 0 t else .ok t

/-- The estimation with its checks, discrete_choice_modelset.cpp:135-172; `none` twice: cancelled (`cancel 1`). -/
noncomputable def estimated (S : Fns) (u : DcSetup) (z : DcSizes) (E : ∀ k, Env k) (cancel : ℕ → Bool) (numExo : ℤ) (D : Data) :
    Outcome (Option (Option (Est (kOf u.form u.cuts D)))) :=
  if u.checks.estimation then do
    let _ ← checkBefore u D.n numExo
    if cancel 1 then pure none
    else do
      let _ ← cutoffs u.form z.model false D.n D.n (if u.hasWeight then some (D.n : ℤ) else none) D.k0 0 u.numChoices
      let e ← estimate S u.law u.form u.cuts D E false true fun _ => none
      let _ ← checkAfter u e.condition e.aic e.sic
      pure (some (some e))
  else pure (some none)

/-- The simulations, discrete_choice_modelset.cpp:174-185; `sim` stands for `Model.Calculate`. -/
noncomputable def simulated (u : DcSetup) (sim : Mat ℝ → Outcome SimResult) (t : Mat ℝ) : Outcome (Option SimResult) :=
  if u.simulates then do
    let r ← sim t
    pure (some r)
  else pure none

/-- `EstimateOneReg`, discrete_choice_modelset.cpp:104-288, for the column indices `cols` and the selected variables `cur`; `sim` is the call of
`Model.Calculate` and `cancel k` what is read at the `k`-th place where the code looks at `RequestCancel`.  The flag of the result: returned early. -/
noncomputable def estimateReg (S : Fns) (u : DcSetup) (z : DcSizes) (E : ∀ k, Env k) (sim : Mat ℝ → Outcome SimResult) (source : Mat (Val ℝ))
    (storage : List (Val ℝ)) (junk : ℕ → ℕ → Val ℝ) (cancel : ℕ → Bool) (cols cur : List ℤ) : Outcome (DcTables × Bool) := do
  let ds ← Dataset.make source.rows cols.length true true
  let m ← ds.calculate Option.isNone source (some cols) storage
  if cancel 0 then pure (tables0, true)
  else do
    let D := dataOf u.hasWeight (tableOf m)
    let est ← estimated S u z E cancel (cols.length - 1 - (if u.hasWeight then 1 else 0)) D
    match est with
    | none => pure (tables0, true)
    | some est =>
      if u.simulates = true ∧ cancel 2 = true then pure (tables0, true)
      else do
        let r ← simulated u sim (tableOf m)
        let q ← inMetrics S u source.rows.toNat m.mem D est junk cancel tables0
        if q.2 then pure q
        else do
          let t ← outMetrics u r q.1
          if cancel 6 then pure (t, true)
          else do
            let t ← coefs u est cur t
            pure (t, false)

/-- `Model.Calculate(...)` as `EstimateOneReg` calls it, discrete_choice_modelset.cpp:179-183: without a cancellation (with one, the object is left as it
was, and the results are not used: `C121_cancelled`). -/
noncomputable def simCall (S : Fns) (u : DcSetup) (z : DcSizes) (E : ∀ k, Env k) (other : ∀ f n, Outcome (Ext f n)) (junk : ℕ → ℕ → Val ℝ)
    (storage : List ℝ) (orders : ℕ → ℕ → List ℤ) (t : Mat ℝ) : Outcome SimResult := do
  let v ← simSetup u
  simulateMade S v z.sim.n1 (decide (u.metrics.simFix - u.checks.minOutSim ≠ 0)) E (other _ _) junk u.metrics.simFix.toNat t storage orders

/-- What `SearcherReg::EstimateOne` sees of a call of `EstimateOneReg`, searcher_reg.cpp:102-110: the tables have one column. After undefined behaviour (or in a call
that does not end) there is no answer; the model takes an exception of another kind for it. -/
def regOut (x : Outcome (DcTables × Bool)) (message : String) (before after : Bool) : Srch.RegOut := match x with
  | .ok (t, _) => ⟨before, .returns "", after, fun i _ => t.metric i, fun k _ => t.mean k, fun k _ => t.variance k, [t.extra]⟩
  | .throws => ⟨before, .throwsMsg message, after, fun _ _ => none, fun _ _ => none, fun _ _ => none, []⟩
  | _ => ⟨before, .throwsOther, after, fun _ _ => none, fun _ _ => none, fun _ _ => none, []⟩

/-- `CurrentIndices` from the column indices, searcher_reg.cpp:58-86: the exogenous variables are behind the weight. -/
def curOf (hasWeight : Bool) (cols : List ℤ) : List ℤ := if hasWeight then (cols.drop 2).map (· - 1) else cols.drop 1

end Dc
end LDT
