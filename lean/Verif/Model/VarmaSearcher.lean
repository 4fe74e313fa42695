import Verif.Model.VarmaSim
import Verif.Model.VarmaForecast
import Verif.Model.SurSearcher
/-!
# The searcher of VARMA models: `src/ldt_statistics/modeling/time_series/varma/varma_modelset.cpp:14-296`

Without cancellation (after one the tables are not used, searcher_reg.cpp:109-110). Exact arithmetic; an infinite metric is not told from NaN in the tables.
The estimation (`Varma::EstimateMl` after its check of the dimensions), the forecast (`VarmaForecast::Calculate`) and the estimations inside of the simulations are
parameters. The restriction of the MA part (varma_modelset.cpp:62-67, see C54) belongs to the estimation. A block of the work array that is larger than
its place is taken for undefined behaviour; those of the forecast and of the simulation are not represented.
-/
namespace LDT
namespace Vm
open Op Mx Arr Score

/-- What the class is made with, varma_modelset.cpp:14-25. -/
structure Setup where
  metrics : SOpt.Metrics ℝ
  checks : SOpt.Checks ℝ
  /-- `checks.PredictionLower`, if it has data -/
  lower : Option (Mat (Dbl ℝ))
  /-- `checks.PredictionUpper`, if it has data -/
  upper : Option (Mat (Dbl ℝ))
  /-- `items.Length1` -/
  length1 : ℕ
  /-- `items.LengthTargets` -/
  targets : ℕ
  sizes : Varma.Sizes
  /-- `Params`: p, d, q, P, D, Q, varma_modelset.cpp:34-35 -/
  params : List ℤ
  maxHorizon : ℤ
  usePrevious : Bool
  /-- `data.Lambdas` -/
  lambdas : List (Val ℝ)

/-- There are simulations, varma_modelset.cpp:51, 220. -/
def Setup.simulates (u : Setup) : Bool := decide (u.metrics.simFix > 0) && decide (u.metrics.metricsOut.length > 0)

/-- `FModel` is made, varma_modelset.cpp:39-48 (`FModel.WorkSize > 0`, 283, is the same). -/
def Setup.forecasts (u : Setup) : Bool := u.checks.estimation && u.checks.prediction

/-- `Model`, varma_modelset.cpp:52-54, and what it is called with, 226-233. -/
def Setup.sim (u : Setup) : Vs.Setup :=
  ⟨u.sizes.eqsCount.toNat, u.metrics.horizons, u.metrics.metricsOut, u.metrics.simFix, u.usePrevious, if u.lambdas.length = 0 then none else some u.lambdas⟩

/-! ## Memory -/

/-- Work sizes that do not depend on the number of observations (`ml`: the optimization, varma_sizes.cpp:220-236, from `q`, `g`, `f`; `forecast`:
varma_forecast.cpp:27-37) or belong to `VarmaSimulation` (`sim`, varma_simulation.cpp:46-66). -/
structure Needs where
  ml : ℤ → ℤ → ℤ → ℤ
  forecast : ℤ
  sim : ℤ

/-- `VarmaStorage::StorageSize` with details, varma_sizes.cpp:186-210; also the extent of `SetStorage`, 239-270. -/
def estStorage (z : Varma.Sizes) : ℤ :=
  z.numParams + 2 * (z.eqsCount * z.T) + z.T * z.numParamsEq + z.eqsCount * z.eqsCount + z.numParams * z.numParams + 4 * (z.eqsCount * z.numParamsEq)

/-- `VarmaStorage::WorkSize` with a restriction, varma_sizes.cpp:212-237; also the extent of the work array in `EstimateOls`, varma.cpp:90-155. -/
def estWork (ml : ℤ → ℤ → ℤ → ℤ) (z : Varma.Sizes) : ℤ :=
  let g := z.eqsCount
  let f := z.numParamsEq
  let q := z.numParams
  let ols := if z.arLength ≠ 0 ∨ z.exoCount ≠ 0 then f * f + f * g * f * g + g * z.T + f * g * z.T * g + q + z.T * f + (q * g * f + q * z.T * g + f * g) else 0
  let diff := if z.hasDiff then g * (z.obsCount - z.diffPoly.length + 1) else 0
  max (if z.hasMa then ml q g f else 0) (ols + diff)

/-- The sizes the constructor computes, varma_modelset.cpp:57-72; those of an object that is not made are 0. -/
structure Memory where
  eStorage : ℤ
  eWork : ℤ
  pStorage : ℤ
  pWork : ℤ
  sStorage : ℤ
  sWork : ℤ
  work : ℤ

/-- The check of the horizon, varma_modelset.cpp:41-44. -/
def checkHorizon (u : Setup) : Outcome Unit := if u.forecasts = true ∧ u.maxHorizon ≤ 0 then .throws else .ok ()

/-- The constructor of `Model` throws for a wrong number of simulations, varma_modelset.cpp:51-55. -/
def checkSim (u : Setup) : Outcome Unit :=
  if u.simulates then do
    let _ ← u.sim.make u.sizes.T
    pure ()
  else .ok ()

/-- The sizes, for data with `cols` periods, `n` endogenous and `k` exogenous variables. -/
def memory (u : Setup) (w : Needs) (cols : ℤ) (n k : ℕ) : Memory :=
  let es := if u.checks.estimation then estStorage u.sizes else 0
  let ew := if u.checks.estimation then estWork w.ml u.sizes else 0
  let ps := if u.forecasts then u.sizes.eqsCount * (u.maxHorizon + u.sizes.arMaxD) * 2 else 0
  let pw := if u.forecasts then w.forecast else 0
  let ss := if u.simulates then u.metrics.metricsOut.length * u.sizes.eqsCount else 0
  let sw := if u.simulates then w.sim else 0
  ⟨es, ew, ps, pw, ss, sw, ps + es + ss + max ew (max sw pw) + cols * n + if u.sizes.exoCount > 0 then cols * k else 0⟩

/-- The constructor after that of `SearcherReg`, varma_modelset.cpp:26-73. -/
def construct (u : Setup) (w : Needs) (cols : ℤ) (n k : ℕ) : Outcome Memory := do
  let _ ← checkHorizon u
  let _ ← checkSim u
  pure (memory u w cols n k)

/-- `len` cells from `off` on are inside of an array of `size` cells. -/
def fits (size off len : ℤ) : Outcome Unit := if 0 < len ∧ (off < 0 ∨ size < off + len) then .ub else .ok ()

/-! ## The sample -/

/-- `Source.Update(&ColIndices, nullptr)`: `Start` and `End`, dataset.cpp:141-188. -/
def window (d : DsTs ℝ) (cols : List ℤ) : Outcome (ℤ × ℤ) :=
  if d.select then (if d.hasNaN then biggestWithoutNaN d.ranges (some cols) else .ok (0, d.pData.cols - 1))
  else if d.hasNaN then biggestWithoutNaN d.ranges none
  else .ok (0, 0)

/-- `pData->GetSub(start, n, idx, false, …)`, varma_modelset.cpp:92-93, 103-104. (All cells are written; they are taken for NaN before.) -/
def copyRows (m : Mat (Val ℝ)) (start n : ℤ) (idx : List ℤ) : Outcome (Mat (Val ℝ)) :=
  m.getSubIdx start n idx false ⟨idx.length, n, some (List.replicate (idx.length * n).toNat none)⟩ 0 0 false

/-- `Y` and `X` (if it is used), and the place behind them. -/
structure Sample where
  y : Mat (Val ℝ)
  x : Option (Mat (Val ℝ))
  stop : ℤ

/-- The exogenous data, until the last period of the data, varma_modelset.cpp:98-105; `off` is the place behind `Y`. -/
def exoPart (d : DsTs ℝ) (size start off : ℤ) (inner : List ℤ) : Outcome (Option (Mat (Val ℝ)) × ℤ) :=
  if inner.length > 0 then do
    let xn := d.pData.cols - start
    let _ ← fits size off (inner.length * xn)
    let x ← copyRows d.pData start xn inner
    pure (some x, off + inner.length * xn)
  else .ok (none, off)

/-- The data of the model, varma_modelset.cpp:80-105: `inner` exogenous, `cur` endogenous variables, `cols` all of them. -/
def sample (d : DsTs ℝ) (size : ℤ) (inner cur cols : List ℤ) : Outcome Sample := do
  let se ← window d cols
  let n := se.2 - se.1 + 1
  let _ ← fits size 0 (cur.length * n)
  let y ← copyRows d.pData se.1 n cur
  let x ← exoPart d size se.1 (cur.length * n) inner
  pure ⟨y, x.1, x.2⟩

/-- The number of exogenous variables in the sample, `X.RowsCount`. -/
def Sample.exo (s : Sample) : ℤ := (s.x.map fun x => x.rows).getD 0

/-! ## Estimation -/

/-- `DModel.Result.Aic` and `Sic`. -/
structure Fitted where
  aic : Dbl ℝ
  sic : Dbl ℝ

/-- The parameters: an estimation with a limit for the condition number; its forecast (`Forecast` and `Variance` as columns); the estimations of the simulations, with
what they keep; the score of a normal distribution. -/
structure Oracle (σ : Type) where
  estimate : Dbl ℝ → Mat (Val ℝ) → Option (Mat (Val ℝ)) → Outcome Fitted
  forecast : Mat (Val ℝ) → Option (Mat (Val ℝ)) → Outcome (Vs.Cols × Vs.Cols)
  fit : Dbl ℝ → Mat (Val ℝ) → Option (Mat (Val ℝ)) → Vs.Estimator σ
  kept : σ
  crps : Dbl ℝ → Dbl ℝ → Outcome (Dbl ℝ)

/-- The sizes with the dimensions of the data, varma.cpp:67-70. -/
def sizesOf (z : Varma.Sizes) (s : Sample) : Varma.Sizes := { z with obsCount := s.y.cols, eqsCount := s.y.rows, exoCount := s.exo }

/-- The limit for the condition number, varma_modelset.cpp:138-140, 229-231. -/
def limit (b : Bool) (u : Setup) : Dbl ℝ := if b then u.checks.maxCondition else .pinf

/-- `DModel.EstimateMl`, varma_modelset.cpp:113-119, 135-140, with the check of the dimensions, varma.cpp:74-88. -/
def estimated {σ : Type} (u : Setup) (w : Needs) (M : Memory) (o : Oracle σ) (s : Sample) : Outcome Fitted :=
  let z := sizesOf u.sizes s
  if z.T < 1 ∨ z.eqsCount < 1 ∨ z.numParams < 1 then .throws
  else do
    let _ ← fits (s.stop + M.eStorage) s.stop (estStorage z)
    let _ ← fits M.work (s.stop + M.eStorage + M.pStorage + M.sStorage) (estWork w.ml z)
    o.estimate (limit u.checks.checkCNAll u) s.y s.x

/-- The checks before the estimation, varma_modelset.cpp:122-130. -/
def checkBefore (u : Setup) (s : Sample) : Outcome Unit :=
  if u.checks.minObs > 0 ∧ u.checks.minObs > s.y.cols then .throws
  else if u.checks.minDof > 0 ∧ u.checks.minDof > s.y.cols - s.exo then .throws
  else .ok ()

/-- The checks after it, varma_modelset.cpp:147-157. -/
noncomputable def checkAfter (u : Setup) (e : Fitted) : Outcome Unit :=
  if u.checks.maxAic.lt e.aic = true then .throws
  else if u.checks.maxSic.lt e.sic = true then .throws
  else .ok ()

/-- The bounds for row `i` of the forecast, which belongs to target `t`, at horizon `h`, varma_modelset.cpp:192-202. -/
noncomputable def boundCell (start : ℤ) (lower upper : Mat (Dbl ℝ)) (f : Vs.Cols) (i : ℕ) (t h : ℤ) : Outcome Unit := do
  let c ← Mx.read f (h + start - 1)
  let l ← lower.get0 (h - 1) t
  let r ← upper.get0 (h - 1) t
  if (c i).lt l = true then .throws
  else if r.lt (c i) = true then .throws
  else .ok ()

/-- The loop over the horizons, varma_modelset.cpp:185-203. -/
noncomputable def boundRow (start : ℤ) (lower upper : Mat (Dbl ℝ)) (f : Vs.Cols) (i : ℕ) (t : ℤ) : List ℤ → Outcome Unit
  | [] => .ok ()
  | h :: hs => do
    let _ ← boundCell start lower upper f i t h
    boundRow start lower upper f i t hs

/-- The loop over the endogenous variables from the `i`-th on, varma_modelset.cpp:181-205. -/
noncomputable def boundRows (u : Setup) (lower upper : Mat (Dbl ℝ)) (f : Vs.Cols) : List ℤ → ℕ → Outcome Unit
  | [], _ => .ok ()
  | t :: ts, i => do
    let _ ← (if t < (u.targets : ℤ) then boundRow u.sizes.arMaxD lower upper f i t u.metrics.horizons else .ok ())
    boundRows u lower upper f ts (i + 1)

/-- The check of the bounds, varma_modelset.cpp:180-206. -/
noncomputable def checkBounds (u : Setup) (f : Vs.Cols) (cur : List ℤ) : Outcome Unit :=
  match u.lower, u.upper with
  | some l, some r => boundRows u l r f cur 0
  | _, _ => .ok ()

/-- `Forecast.Any(NAN)`, varma_modelset.cpp:174. -/
noncomputable def anyNaN (n : ℕ) (f : Vs.Cols) : Bool := f.any fun c => (List.range n).any fun i => decide (c i = .nan)

/-- The forecast with its checks, varma_modelset.cpp:159-207. -/
noncomputable def predicted {σ : Type} (u : Setup) (o : Oracle σ) (s : Sample) (cur : List ℤ) : Outcome (Vs.Cols × Vs.Cols) := do
  let f ← o.forecast s.y s.x
  if anyNaN cur.length f.1 then .throws
  else do
    let _ ← checkBounds u f.1 cur
    pure f

/-! ## The tables -/

/-- The tables, with the extra information. -/
structure Tables where
  cells : Su.SsTables
  extra : List ℤ

/-- The metrics are written in the tables as for systems of regressions (`Verif.Model.SurSearcher`). -/
noncomputable def Setup.asSystem (u : Setup) : Su.SsSetup := ⟨u.metrics, u.checks, u.length1, 0, 0, 0, u.lambdas⟩

/-- The forecast, if there is one: no columns otherwise. -/
noncomputable def predictedIf {σ : Type} (u : Setup) (o : Oracle σ) (s : Sample) (cur : List ℤ) : Outcome (Vs.Cols × Vs.Cols) :=
  if u.checks.prediction then predicted u o s cur else .ok ([], [])

/-- The estimation, the forecast and the metrics in the sample, varma_modelset.cpp:120-218. -/
noncomputable def inSample {σ : Type} (u : Setup) (w : Needs) (M : Memory) (o : Oracle σ) (s : Sample) (cur : List ℤ) (T : ℕ) (t : Su.SsTables) :
    Outcome (Su.SsTables × (Vs.Cols × Vs.Cols)) :=
  if u.checks.estimation then do
    let _ ← checkBefore u s
    let e ← estimated u w M o s
    let _ ← checkAfter u e
    let f ← predictedIf u o s cur
    let t ← Su.ssCrit u.asSystem T e.aic e.sic t
    pure (t, f)
  else .ok (t, ([], []))

/-- The value of a cell of the data, as `double`. -/
def toDbl : Val ℝ → Dbl ℝ
  | none => .nan
  | some x => .num x

/-- The endogenous data, period by period. -/
def colsOf (m : Mat (Val ℝ)) : Vs.Cols := (upTo 0 m.cols).map fun t j => toDbl ((m.mem[(j + m.rows * t).toNat]?).getD none)

/-- The seven scores in the order of the code, varma_modelset.cpp:241-274. -/
def outScores : List Sco := [.sign, .direction, .mae, .mape, .rmse, .rmspe, .crps]

/-- `Model.Calculate`, varma_modelset.cpp:221-233. -/
noncomputable def simulated {σ : Type} (u : Setup) (o : Oracle σ) (s : Sample) : Outcome Vs.Result :=
  Vs.calculate o.crps u.sim u.sizes.T (colsOf s.y) (o.fit (limit u.checks.checkCN u) s.y s.x) (u.metrics.simFix - u.checks.minOutSim) o.kept

/-- The simulations and their metrics, varma_modelset.cpp:220-275. -/
noncomputable def outOfSample {σ : Type} (u : Setup) (o : Oracle σ) (s : Sample) (T : ℕ) (t : Su.SsTables) : Outcome Su.SsTables :=
  if u.simulates then do
    let r ← simulated u o s
    if r.valid = 0 then .throws
    else Su.ssOut u.asSystem T r.results outScores t
  else .ok t

/-- `Get` of a column: it throws outside of the matrix. -/
def columnAt (f : Vs.Cols) (j : ℤ) : Outcome (ℕ → Dbl ℝ) := if j < 0 then .throws else Outcome.ofOption f[j.toNat]?

/-- One turn of the loops over targets and horizons, varma_modelset.cpp:289-290. -/
noncomputable def setForecast (start : ℤ) (f : Vs.Cols × Vs.Cols) (s : Su.SsTables) (p : ℕ × ℕ) : Outcome Su.SsTables := do
  let m ← columnAt f.1 (p.2 + start)
  let v ← columnAt f.2 (p.2 + start)
  pure { s with mean := fun i t => if i = p.2 ∧ t = p.1 then Srch.toVal (m t) else s.mean i t
                variance := fun i t => if i = p.2 ∧ t = p.1 then Srch.toVal (v t) else s.variance i t }

/-- The pairs of a target and a horizon in the order of the loops. -/
def targetHorizons (T len : ℕ) : List (ℕ × ℕ) := (List.range T).flatMap fun t => (List.range len).map fun i => (t, i)

/-- The forecasts, varma_modelset.cpp:283-293. -/
noncomputable def setForecasts (u : Setup) (T : ℕ) (f : Vs.Cols × Vs.Cols) (t : Su.SsTables) : Outcome Su.SsTables :=
  if u.forecasts = true ∧ u.length1 > 0 then (targetHorizons T u.length1).foldlM (setForecast u.sizes.arMaxD f) t else .ok t

/-- `EstimateOneReg`, varma_modelset.cpp:75-296, for the exogenous variables `inner`, the endogenous variables `cur`, the column indices `cols` and `T` targets. -/
noncomputable def estimateOne {σ : Type} (u : Setup) (w : Needs) (M : Memory) (o : Oracle σ) (d : DsTs ℝ) (inner cur cols : List ℤ) (T : ℕ) :
    Outcome Tables := do
  let s ← sample d M.work inner cur cols
  let a ← inSample u w M o s cur T Su.ssTables0
  let t ← outOfSample u o s T a.1
  let t ← setForecasts u T a.2 t
  pure ⟨t, u.params⟩

/-- What `SearcherReg::EstimateOne` sees of a call of `EstimateOneReg`, searcher_reg.cpp:102-110 (see `Su.ssOutcome`). -/
def outcome (x : Outcome Tables) (message : String) (before after : Bool) : Srch.RegOut := match x with
  | .ok t => ⟨before, .returns "", after, t.cells.metric, t.cells.mean, t.cells.variance, t.extra⟩
  | .throws => ⟨before, .throwsMsg message, after, fun _ _ => none, fun _ _ => none, fun _ _ => none, []⟩
  | _ => ⟨before, .throwsOther, after, fun _ _ => none, fun _ _ => none, fun _ _ => none, []⟩

end Vm
end LDT
