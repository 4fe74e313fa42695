import Verif.Model.SurSim
import Verif.Model.ChoiceSearch
/-!
# The searcher of systems of regressions: `src/ldt_statistics/modeling/linear/sur_modelset.cpp:14-163`

Exact arithmetic. An infinite metric is not told from NaN in the table of the metrics, a training ratio that is not a number is taken for 0.
The data have no column of weights.
-/
namespace LDT
namespace Su
open Op Mx Arr Score

/-- What the class is made with, sur_modelset.cpp:16-27. -/
structure SsSetup where
  metrics : SOpt.Metrics ℝ
  checks : SOpt.Checks ℝ
  /-- `items.Length1` -/
  length1 : ℕ
  /-- `data.NumEndo` -/
  numEndo : ℤ
  /-- `SigSearchMaxIter` -/
  maxIter : ℤ
  /-- `SigSearchMaxProb` -/
  maxProb : ℝ
  /-- `data.Lambdas` -/
  lambdas : List (Val ℝ)

/-- The arguments of `DModel`, sur_modelset.cpp:33-41. -/
def SsSetup.model (u : SsSetup) : ExtSetup := ⟨decide (u.maxIter > 0), false, true, u.maxIter, false⟩

/-- There are simulations, sur_modelset.cpp:43-44 (`Model.WorkSize > 0`, 96, is the same for a table with a row). -/
def SsSetup.simulates (u : SsSetup) : Bool := decide (u.metrics.simFix > 0) && decide (u.metrics.metricsOut.length > 0)

/-- `Model`, sur_modelset.cpp:45-48, and what it is called with, 101-104. -/
noncomputable def SsSetup.sim (u : SsSetup) : SimSetup :=
  ⟨(Srch.toVal u.metrics.trainRatio).getD 0, u.metrics.trainFix, u.metrics.metricsOut, decide (u.maxIter > 0), u.maxIter,
    if u.checks.checkCN then u.checks.maxCondition else .pinf, u.metrics.simFix - u.checks.minOutSim,
    if u.lambdas.length = 0 then none else some u.lambdas⟩

/-- `SigSearchMaxIter > 0 ? &R : nullptr`, sur_modelset.cpp:75,99; the array of `R` is there if `SigSearchMaxProb > 0`, 57-61. `rmem` are its cells. -/
noncomputable def SsSetup.R (u : SsSetup) (km : ℤ) (rmem : List ℝ) : Option (Mat ℝ) :=
  if u.maxIter > 0 then some (if u.maxProb > 0 then ⟨km, km, some rmem⟩ else ⟨0, 0, none⟩) else none

/-- The sizes the constructor computes, sur_modelset.cpp:32-55; those of an object that was not made are 0. -/
structure SsSizes where
  /-- `Data.StorageSize` -/
  data : ℤ
  modelStorage : ℤ
  modelWork : ℤ
  simStorage : ℤ
  simWork : ℤ
  work : ℤ

/-- The constructor after that of `SearcherReg`, sur_modelset.cpp:28-62, for `m` endogenous and `k` exogenous variables. -/
noncomputable def ssConstruct (u : SsSetup) (rows : ℤ) (m k : ℕ) : Outcome SsSizes := do
  let ms := if u.checks.estimation then extStorage u.model rows m k 0 else 0
  let mw := if u.checks.estimation then extWork u.model rows m k 0 else 0
  let ss : ℤ := if u.simulates then m * u.metrics.metricsOut.length else 0
  let sw := if u.simulates then simWork u.sim rows m k else 0
  let ds ← Dataset.make rows (k + m) true true
  pure ⟨ds.storageSize, ms, mw, ss, sw, ms + ss + max mw sw + ds.storageSize⟩

/-- The blocks laid over the work array by `EstimateOneReg`: while `DModel` estimates (73-74) and while `Model` simulates (97-99). -/
def ssBlocks (z : SsSizes) : List (List ℤ) := [[z.data, z.modelStorage, z.modelWork], [z.data, z.modelStorage, z.simStorage, z.simWork]]

/-- The tables that `EstimateOneReg` fills: rows and columns (a column for each target). -/
structure SsTables where
  metric : ℕ → ℕ → Val ℝ
  mean : ℕ → ℕ → Val ℝ
  variance : ℕ → ℕ → Val ℝ

/-- The tables as `SearcherReg::EstimateOne` makes them, searcher_reg.cpp:89-100. -/
def ssTables0 : SsTables := ⟨fun _ _ => some 0, fun _ _ => none, fun _ _ => some 0⟩

/-- `for t: metrics.Mat.Set0(ind, t, v t)` for `T` targets, with `n` rows. -/
def setRow (n T : ℕ) (ind : ℤ) (v : ℕ → Val ℝ) (t : SsTables) : Outcome SsTables :=
  if ind < 0 ∨ (n : ℤ) ≤ ind then .ub else .ok { t with metric := fun i j => if (i : ℤ) = ind ∧ j < T then v j else t.metric i j }

/-- The number of metrics. -/
def SsSetup.rows (u : SsSetup) : ℕ := u.metrics.metricsIn.length + u.metrics.metricsOut.length

/-- The rows of AIC and SIC, sur_modelset.cpp:80-90. -/
noncomputable def ssCrit (u : SsSetup) (T : ℕ) (aic sic : Dbl ℝ) (t : SsTables) : Outcome SsTables := do
  let a ← Dc.pos u.metrics.indexIn .aic
  let t ← (if a ≥ 0 then setRow u.rows T a (fun _ => Srch.toVal aic) t else .ok t)
  let s ← Dc.pos u.metrics.indexIn .sic
  (if s ≥ 0 then setRow u.rows T s (fun _ => Srch.toVal sic) t else .ok t)

/-- The metrics of the estimation, sur_modelset.cpp:80-90. -/
noncomputable def ssIn (u : SsSetup) (T : ℕ) (e : ExtRes) (t : SsTables) : Outcome SsTables := ssCrit u T e.aic e.sic t

/-- `Results.Get0(ind, t)` for `t < T`. -/
def resultRow (r : Results) (ind : ℤ) (T : ℕ) : Outcome (ℕ → Val ℝ) :=
  match r[ind.toNat]? with
  | none => .ub
  | some v => if v.length < T then .ub else .ok fun t => Srch.toVal (v.getD t .nan)

/-- One of the six blocks of sur_modelset.cpp:108-136. -/
def ssOutOne (u : SsSetup) (T : ℕ) (r : Results) (e : Sco) (t : SsTables) : Outcome SsTables := do
  let ind ← Dc.pos u.metrics.indexOut e
  if ind ≥ 0 then do
    let v ← resultRow r ind T
    setRow u.rows T (u.metrics.metricsIn.length + ind) v t
  else .ok t

/-- The six scores in the order of the code, sur_modelset.cpp:108-136. -/
def ssScores : List Sco := [.sign, .mae, .mape, .rmse, .rmspe, .crps]

/-- The metrics of the simulations, sur_modelset.cpp:96-137. -/
def ssOut (u : SsSetup) (T : ℕ) (r : Results) : List Sco → SsTables → Outcome SsTables
  | [], t => .ok t
  | e :: es, t => do
    let t ← ssOutOne u T r e t
    ssOut u T r es t

/-- `std::pow(std, 2)`. -/
def square : Val ℝ → Val ℝ
  | none => none
  | some s => some (s ^ 2)

/-- The loop over the selected variables for column `t`, sur_modelset.cpp:149-156, from the `i`-th on. -/
noncomputable def coefColumn (len : ℕ) (numEndo : ℤ) (beta : Mat ℝ) (std : Mat (Val ℝ)) (t : ℕ) : List ℤ → ℕ → SsTables → Outcome SsTables
  | [], _, s => .ok s
  | b :: bs, i, s =>
    if b - numEndo < 0 ∨ (len : ℤ) ≤ b - numEndo then .ub
    else do
      let v ← beta.get0 i t
      let d ← std.get0 i t
      coefColumn len numEndo beta std t bs (i + 1)
        { s with mean := fun k j => if (k : ℤ) = b - numEndo ∧ j = t then some v else s.mean k j
                 variance := fun k j => if (k : ℤ) = b - numEndo ∧ j = t then square d else s.variance k j }

/-- The loop over the targets, sur_modelset.cpp:145-157. -/
noncomputable def coefColumns (len : ℕ) (numEndo : ℤ) (beta : Mat ℝ) (std : Mat (Val ℝ)) (cur : List ℤ) : List ℕ → SsTables → Outcome SsTables
  | [], s => .ok s
  | t :: ts, s => do
    let s ← coefColumn len numEndo beta std t cur 0 s
    coefColumns len numEndo beta std cur ts s

/-- The coefficients, sur_modelset.cpp:142-158; `DModel.WorkSize > 0` if `DModel` was made. Without details there are no standard deviations. -/
noncomputable def ssCoefs (u : SsSetup) (T : ℕ) (est : Option ExtRes) (cur : List ℤ) (t : SsTables) : Outcome SsTables :=
  match est with
  | none => .ok t
  | some e =>
    if u.length1 > 0 then
      match e.res.details with
      | none => .ub
      | some d => coefColumns u.length1 u.numEndo e.res.est.beta d.std cur (List.range T) t
    else .ok t

/-- The estimation, sur_modelset.cpp:72-78, of the sample `m`, for `n` endogenous variables, by an object made for `rows`, `n`, `k`. -/
noncomputable def ssEstimated (lu : List ℝ → List ℝ) (f : Fns ℝ) (u : SsSetup) (other : Outcome ExtRes) (rows : ℤ) (n k : ℕ)
    (m : Mat (Val ℝ)) (rmem storage work : List ℝ) : Outcome (Option ExtRes) :=
  if u.checks.estimation then do
    let e ← extended lu f u.model rows n k 0 other m n (u.R (k * n) rmem) u.maxProb none (some u.checks) storage work
    pure (some e)
  else .ok none

/-- The metrics of an estimation, if there was one, sur_modelset.cpp:72-91. -/
noncomputable def ssInIf (u : SsSetup) (T : ℕ) (est : Option ExtRes) (t : SsTables) : Outcome SsTables :=
  match est with
  | none => .ok t
  | some e => ssIn u T e t

/-- The simulations and their metrics, if there are any, sur_modelset.cpp:96-137; `r` is the call of `Model.Calculate`. -/
def ssOutIf (u : SsSetup) (T : ℕ) (r : Outcome SimResult) (t : SsTables) : Outcome SsTables :=
  if u.simulates then do
    let r ← r
    ssOut u T r.results ssScores t
  else .ok t

/-- `EstimateOneReg`, sur_modelset.cpp:64-163, for the endogenous variables `inner`, the selected variables `cur`, the column indices `cols` and `T`
targets; `sim` is the call of `Model.Calculate` and `cancel k` what is read at the `k`-th place where the code looks at `RequestCancel`. The flag of the
result: returned early. -/
noncomputable def ssEstimate (lu : List ℝ → List ℝ) (f : Fns ℝ) (u : SsSetup) (other : Outcome ExtRes) (sim : Mat ℝ → Outcome SimResult)
    (source : Mat (Val ℝ)) (dataStorage : List (Val ℝ)) (rmem storage work : List ℝ) (cancel : ℕ → Bool) (inner cols cur : List ℤ) (T : ℕ) :
    Outcome (SsTables × Bool) := do
  let ds ← Dataset.make source.rows cols.length true true
  let m ← ds.calculate Option.isNone source (some cols) dataStorage
  let est ← ssEstimated lu f u other source.rows inner.length cur.length m rmem storage work
  let t ← ssInIf u T est ssTables0
  if cancel 0 then pure (t, true)
  else do
    let t ← ssOutIf u T (sim (Dc.tableOf m)) t
    if cancel 1 then pure (t, true)
    else do
      let t ← ssCoefs u T est cur t
      pure (t, false)

/-- `Model.Calculate(...)` as `EstimateOneReg` calls it, sur_modelset.cpp:97-104: without a cancellation (with one, the results are not used). -/
noncomputable def ssSim (lu : List ℝ → List ℝ) (f : Fns ℝ) (crps : Dbl ℝ → Dbl ℝ → Outcome (Dbl ℝ)) (u : SsSetup) (rows : ℤ) (m k : ℕ)
    (other : Outcome ExtRes) (rmem splitStorage storage work : List ℝ) (orders : ℕ → List ℤ) (t : Mat ℝ) : Outcome SimResult :=
  simulate lu f crps u.sim rows m k other t (u.R (k * m) rmem) u.metrics.simFix u.maxProb splitStorage storage work orders

/-- What `SearcherReg::EstimateOne` sees of a call of `EstimateOneReg`, searcher_reg.cpp:102-110; there is no extra information, sur_modelset.cpp:25.
After undefined behaviour there is no answer; the model takes an exception of another kind for it. -/
def ssOutcome (x : Outcome (SsTables × Bool)) (message : String) (before after : Bool) : Srch.RegOut := match x with
  | .ok (t, _) => ⟨before, .returns "", after, t.metric, t.mean, t.variance, []⟩
  | .throws => ⟨before, .throwsMsg message, after, fun _ _ => none, fun _ _ => none, fun _ _ => none, []⟩
  | _ => ⟨before, .throwsOther, after, fun _ _ => none, fun _ _ => none, fun _ _ => none, []⟩

end Su
end LDT
