import Verif.Model.SurSim
import Verif.Model.DatasetTs
/-!
# Out-of-sample scores of VARMA models: `src/ldt_statistics/modeling/time_series/varma/varma_simulation.cpp`

Without cancellation. Arithmetic is exact, with NaN and the infinities (`Dbl`). The estimation with the forecast (`Varma::EstimateMl` and
`VarmaForecast::Calculate`, or `VarmaExtended::Calculate`) is a parameter that may keep a state from one simulation to the next. `crps` is
`Scoring::GetScoreCrpsNormal(error, 0, std)` (which may throw). The places in the work array are not represented.
-/
namespace LDT
namespace Vs
open Mx Op Score
open Arr (Val)
open Su (backD sqrtD lambda lambdasOk requiresVariance finish Results)

/-- A table: the values of the variables, period by period. -/
abbrev Cols := List (ℕ → Dbl ℝ)

/-- The arguments of the constructor and of `Calculate` (no list of lambdas: null pointer; no number: NaN). -/
structure Setup where
  /-- `sizes.EqsCount` -/
  eqs : ℕ
  horizons : List ℤ
  metrics : List Sco
  count : ℤ
  usePrevious : Bool
  lambdas : Option (List (Val ℝ))

/-- `mDoForecastVar`, varma_simulation.cpp:37-42. -/
def Setup.doVar (u : Setup) : Bool := u.metrics.any requiresVariance

/-- The checks of the constructor, varma_simulation.cpp:25-35: `horizons.at(size - 1)` throws if there is none. -/
def Setup.make (u : Setup) (T : ℤ) : Outcome Setup :=
  if u.count = 0 ∨ u.count ≥ T then .throws
  else if u.horizons = [] then .throws
  else .ok u

/-- `hMin = horizons.at(0)`, varma_simulation.cpp:170, 397. -/
def Setup.hMin (u : Setup) : ℤ := u.horizons.headD 0

/-- `hMax = horizons.at(hh - 1)`, varma_simulation.cpp:171, 398. -/
def Setup.hMax (u : Setup) : ℤ := u.horizons.getLastD 0

/-- What a forecast leaves: `StartIndex`, `Forecast` and `Variance` (no columns if it is not there). -/
structure Fit where
  start : ℤ
  forecast : Cols
  variance : Cols

/-- What becomes of one estimation with its forecast: a failure (anything thrown) has a message. -/
inductive Try where
  | done (p : Fit)
  | failed (message : String)
  | ub
  | diverges

/-- State, sample end, horizon, and whether to start from the current estimates. -/
abbrev Estimator (σ : Type) := σ → ℤ → ℤ → Bool → σ × Try

/-- One column of `act`, `forc` and `std`. -/
structure Column where
  act : ℕ → Dbl ℝ
  forc : ℕ → Dbl ℝ
  std : ℕ → Dbl ℝ

/-- The column of `std`, varma_simulation.cpp:290-291, 524-525. -/
def variances (u : Setup) (p : Fit) (i : ℤ) : Outcome (ℕ → Dbl ℝ) :=
  if u.doVar then Mx.read p.variance i else .ok fun _ => .nan

/-- One turn of the loop that fills the columns, varma_simulation.cpp:281-297, 516-533. (Without variances `std` is not written and not used: NaN here.) -/
def column (u : Setup) (data : Cols) (p : Fit) (actIndex H h : ℤ) : Outcome Column :=
  if h ≤ H then do
    let a ← Mx.read data (actIndex + h)
    let f ← Mx.read p.forecast (p.start - 1 + h)
    let v ← variances u p (p.start - 1 + h)
    pure ⟨a, f, v⟩
  else pure ⟨fun _ => .nan, fun _ => .nan, fun _ => .nan⟩

/-- Standard deviations and back transformation, varma_simulation.cpp:300-325, 536-560. -/
noncomputable def Column.back (u : Setup) (c : Column) : Column where
  act i := backD (lambda u.lambdas i) (c.act i)
  forc i := backD (lambda u.lambdas i) (c.forc i)
  std i := if u.doVar then backD (lambda u.lambdas i) (sqrtD (c.std i)) else c.std i

/-- `act.Subtract0(forc, err)`, varma_simulation.cpp:327, 562. -/
noncomputable def Column.err (c : Column) (i : ℕ) : Dbl ℝ := (exact : Ops ℝ).sub (c.act i) (c.forc i)

/-- The body of `kDirection`, varma_simulation.cpp:79-95: `a` actual, `f` forecast, `l` last. -/
noncomputable def direction (a f l : Dbl ℝ) : Dbl ℝ :=
  if f = .nan then .nan
  else if l.lt a = true then (if l.lt f = true then .num 1 else .num 0)
  else if a.lt l = true then (if f.lt l = true then .num 1 else .num 0)
  else if a = l ∧ a ≠ .nan then (if f = l then .num 1 else .num 0)
  else .num 0

/-- The lambda of `kSign`, varma_simulation.cpp:101-109. -/
noncomputable def sign (a f : Dbl ℝ) : Dbl ℝ :=
  let z : Dbl ℝ := .num 0
  if f = .nan then .nan
  else if a = z ∨ f = z then .num (1 / 2)
  else if (z.lt a = true ∧ f.lt z = true) ∨ (a.lt z = true ∧ z.lt f = true) then .num 0
  else .num 1

/-- One cell of `GetScore`, varma_simulation.cpp:69-153. -/
noncomputable def score (crps : Dbl ℝ → Dbl ℝ → Outcome (Dbl ℝ)) (e : Sco) (l a f err std : Dbl ℝ) : Outcome (Dbl ℝ) :=
  let o : Ops ℝ := exact
  match e with
  | .direction => .ok (direction a f l)
  | .sign => .ok (sign a f)
  | .mae => .ok (o.abs err)
  | .mape => .ok (if a.le (.num 0) = true then .nan else o.div (o.abs err) a)
  | .rmse => .ok (o.mul err err)
  | .rmspe => .ok (if a.le (.num 0) = true then .nan else o.div (o.mul err err) (o.mul a a))
  | .crps => crps err std
  | _ => .throws

/-- The summation over the horizons, varma_simulation.cpp:342-349, 576-591: `k` counts only the horizons that are not skipped. -/
noncomputable def addHorizons (H : ℤ) (temp : List (Dbl ℝ)) : List ℤ → ℤ → Dbl ℝ → Outcome (Dbl ℝ)
  | [], _, v => .ok v
  | h :: r, k, v =>
    if h > H then addHorizons H temp r k v
    else do
      let t ← Mx.read temp k
      addHorizons H temp r (k + 1) ((exact : Ops ℝ).add v t)

/-- `GetScore` and the summation for equation `i`, varma_simulation.cpp:338-349, 572-591. (The C++ fills the scores of all equations first.) -/
noncomputable def addEquation (crps : Dbl ℝ → Dbl ℝ → Outcome (Dbl ℝ)) (e : Sco) (u : Setup) (H : ℤ) (last : ℕ → Dbl ℝ) (cols : List Column) (i : ℕ)
    (v : Dbl ℝ) : Outcome (Dbl ℝ) := do
  let temp ← cols.mapM fun c => score crps e (last i) (c.act i) (c.forc i) (c.err i) (c.std i)
  addHorizons H temp u.horizons 0 v

/-- The equations of one metric, from equation `i` on. -/
noncomputable def addRow (crps : Dbl ℝ → Dbl ℝ → Outcome (Dbl ℝ)) (e : Sco) (u : Setup) (H : ℤ) (last : ℕ → Dbl ℝ) (cols : List Column) :
    ℕ → List (Dbl ℝ) → Outcome (List (Dbl ℝ))
  | _, [] => .ok []
  | i, v :: r => do
    let v ← addEquation crps e u H last cols i v
    let r ← addRow crps e u H last cols (i + 1) r
    pure (v :: r)

/-- The loop over the metrics, varma_simulation.cpp:335-352, 568-593. -/
noncomputable def addScores (crps : Dbl ℝ → Dbl ℝ → Outcome (Dbl ℝ)) (u : Setup) (H : ℤ) (last : ℕ → Dbl ℝ) (cols : List Column) :
    List Sco → Results → Outcome Results
  | e :: es, v :: r => do
    let v ← addRow crps e u H last cols 0 v
    let r ← addScores crps u H last cols es r
    pure (v :: r)
  | _, _ => .ok []

/-- The number of horizons that are compared: how much `counter` grows, varma_simulation.cpp:286, 519. -/
def compared (u : Setup) (H : ℤ) : ℕ := (u.horizons.filter fun h => h ≤ H).length

/-- What one simulation adds, after the estimation and the forecast, varma_simulation.cpp:275-352, 511-593: the scores, the last observation and the columns. -/
noncomputable def simulate (crps : Dbl ℝ → Dbl ℝ → Outcome (Dbl ℝ)) (u : Setup) (data : Cols) (p : Fit) (actIndex H : ℤ) (t : Results) :
    Outcome (Results × (ℕ → Dbl ℝ) × List Column) := do
  let last ← Mx.read data actIndex
  let cols ← u.horizons.mapM fun h => column u data p actIndex H h
  if lambdasOk u.lambdas u.eqs = false then .throws
  else do
    let last := fun i => backD (lambda u.lambdas i) (last i)
    let cols := cols.map fun c => c.back u
    let t ← addScores crps u H last cols u.metrics t
    pure (t, last, cols)

/-- The state of the loop: what the estimator keeps, `success`, `ResultAggs`, `counter`, `ValidCounts`, `invalidCounts`. -/
structure St (σ : Type) where
  kept : σ
  success : Bool
  results : Results
  counter : ℕ
  valid : ℕ
  invalid : ℤ

/-- The loop of `Calculate` over the sample ends `se = n, …, 1`, varma_simulation.cpp:235-353. -/
noncomputable def loop {σ : Type} (crps : Dbl ℝ → Dbl ℝ → Outcome (Dbl ℝ)) (u : Setup) (data : Cols) (fit : Estimator σ) (maxInvalid : ℤ) :
    ℕ → St σ → Outcome (St σ)
  | 0, s => .ok s
  | n + 1, s =>
    let se : ℤ := n + 1
    let actIndex := (data.length : ℤ) - se - 1
    let H := min se u.hMax
    let s := { s with invalid := s.invalid + 1 }
    if actIndex < 0 then .ok s
    else if H < u.hMin then .ok s
    else if compared u H = 0 then .ok s
    else
      let r := fit s.kept se H (u.usePrevious && s.success)
      match r.2 with
      | .failed _ => loop crps u data fit maxInvalid n { s with kept := r.1 }
      | .ub => .ub
      | .diverges => .diverges
      | .done p =>
        if s.invalid - 1 > maxInvalid then .throws
        else do
          let t ← simulate crps u data p actIndex H s.results
          loop crps u data fit maxInvalid n ⟨r.1, true, t.1, s.counter + compared u H, s.valid + 1, s.invalid - 1⟩

/-- What a simulation leaves: `ResultAggs` and `ValidCounts`. -/
structure Result where
  results : Results
  valid : ℕ

/-- The averages, varma_simulation.cpp:362-385, 597-609. -/
noncomputable def averages (u : Setup) (counter : ℕ) (t : Results) : Results :=
  List.zipWith (fun e r => r.map fun v => finish e ((exact : Ops ℝ).div v (.num counter))) u.metrics t

/-- The end of `Calculate`, varma_simulation.cpp:355-385. -/
noncomputable def finished {σ : Type} (u : Setup) (maxInvalid : ℤ) (s : St σ) : Outcome Result :=
  if s.counter = 0 ∨ s.invalid > maxInvalid then .throws
  else .ok ⟨averages u s.counter s.results, s.valid⟩

/-- `ResultAggs.SetData(0, …)`, varma_simulation.cpp:203, 441. -/
def zeros (u : Setup) : Results := u.metrics.map fun _ => List.replicate u.eqs (.num 0)

/-- `VarmaSimulation(…).Calculate`, varma_simulation.cpp:155-386, by an object made for series of `T` periods. (The check of the sizes of the work array
is not represented.) -/
noncomputable def calculate {σ : Type} (crps : Dbl ℝ → Dbl ℝ → Outcome (Dbl ℝ)) (u : Setup) (T : ℤ) (data : Cols) (fit : Estimator σ) (maxInvalid : ℤ)
    (kept : σ) : Outcome Result := do
  let u ← u.make T
  if (data.length : ℤ) - u.count ≤ 0 then .throws
  else do
    let s ← loop crps u data fit maxInvalid u.count.toNat ⟨kept, false, zeros u, 0, 0, 0⟩
    finished u maxInvalid s

/-! ## The extended version -/

/-- An element of `Details`: sample end, metric, horizon, variable, last value, actual value, forecast, error, deviation. -/
structure Detail where
  se : ℤ
  metric : ℕ
  horizon : ℤ
  target : ℕ
  last : Dbl ℝ
  act : Dbl ℝ
  forc : Dbl ℝ
  err : Dbl ℝ
  std : Dbl ℝ

/-- The details of one metric, varma_simulation.cpp:576-585. -/
noncomputable def details (u : Setup) (se : ℤ) (c : ℕ) (H : ℤ) (last : ℕ → Dbl ℝ) (cols : List Column) : List ℤ → ℤ → Outcome (List Detail)
  | [], _ => .ok []
  | h :: r, k =>
    if h > H then details u se c H last cols r k
    else do
      let t ← Mx.read cols k
      let d ← details u se c H last cols r (k + 1)
      pure ((List.range u.eqs).map (fun i => ⟨se, c, h, i, last i, t.act i, t.forc i, t.err i, t.std i⟩) ++ d)

/-- The details of one simulation, varma_simulation.cpp:567-593. -/
noncomputable def allDetails (u : Setup) (se H : ℤ) (last : ℕ → Dbl ℝ) (cols : List Column) : List ℕ → Outcome (List Detail)
  | [] => .ok []
  | c :: r => do
    let d ← details u se c H last cols u.horizons 0
    let ds ← allDetails u se H last cols r
    pure (d ++ ds)

/-- `AddError`, varma_simulation.cpp:611-619; a message that is not there counts zero. -/
def addError (errors : String → ℕ) (message : String) : String → ℕ :=
  if message = "" then errors else fun m => if m = message then errors m + 1 else errors m

/-- The details of one simulation, if they are kept, varma_simulation.cpp:580. -/
noncomputable def keptDetails (keep : Bool) (u : Setup) (se H : ℤ) (last : ℕ → Dbl ℝ) (cols : List Column) : Outcome (List Detail) :=
  if keep then allDetails u se H last cols (List.range u.metrics.length) else .ok []

/-- The state of the loop of `CalculateE`. -/
structure StE (σ : Type) where
  kept : σ
  success : Bool
  results : Results
  counter : ℕ
  valid : ℕ
  details : List Detail
  errors : String → ℕ

/-- The loop of `CalculateE`, varma_simulation.cpp:474-594; `stop` is `D.End`. -/
noncomputable def loopE {σ : Type} (crps : Dbl ℝ → Dbl ℝ → Outcome (Dbl ℝ)) (u : Setup) (data : Cols) (stop : ℤ) (keep : Bool) (fit : Estimator σ) :
    ℕ → StE σ → Outcome (StE σ)
  | 0, s => .ok s
  | n + 1, s =>
    let se : ℤ := n + 1
    let actIndex := stop - se
    let H := min se u.hMax
    if actIndex < 0 then .ok s
    else if H < u.hMin then .ok s
    else if compared u H = 0 then .ok s
    else
      let r := fit s.kept se H (u.usePrevious && s.success)
      match r.2 with
      | .failed message => loopE crps u data stop keep fit n { s with kept := r.1, errors := addError s.errors message }
      | .ub => .ub
      | .diverges => .diverges
      | .done p => do
        let t ← simulate crps u data p actIndex H s.results
        let d ← keptDetails keep u se H t.2.1 t.2.2
        loopE crps u data stop keep fit n ⟨r.1, true, t.1, s.counter + compared u H, s.valid + 1, s.details ++ d, s.errors⟩

/-- What `CalculateE` leaves. -/
structure ResultE where
  results : Results
  valid : ℕ
  details : List Detail
  errors : String → ℕ

/-- A number or NaN. -/
def dbl : Val ℝ → Dbl ℝ
  | some x => .num x
  | none => .nan

/-- The table, period by period: the variables are in the columns. -/
def table (data : Mat (Val ℝ)) : Cols :=
  (List.range data.rows.toNat).map fun (t i : ℕ) => dbl ((data.mem[(t + data.rows * i : ℤ).toNat]?).getD none)

/-- `D.Start` and `D.End`, varma_simulation.cpp:401-410. -/
def window (data : Mat (Val ℝ)) (work : List (Val ℝ)) : Outcome (ℤ × ℤ) := do
  let d ← DsTs.make data.rows data.cols true false
  let d ← d.setData false data
  let w ← d.update false none work
  if d.hasMissing then .throws
  else if w.1 > w.2.1 then .throws
  else pure (w.1, w.2.1)

/-- `VarmaSimulation(…).CalculateE`, varma_simulation.cpp:388-609, of an object made for series of `T` periods that has not been used before. (The check
of the sizes of the work array is not represented.) -/
noncomputable def calculateE {σ : Type} (crps : Dbl ℝ → Dbl ℝ → Outcome (Dbl ℝ)) (u : Setup) (T : ℤ) (data : Mat (Val ℝ)) (work : List (Val ℝ))
    (keep : Bool) (fit : Estimator σ) (kept : σ) : Outcome ResultE := do
  let u ← u.make T
  let w ← window data work
  if w.2 - w.1 + 1 - u.count ≤ 0 then .throws
  else if data.cols < u.eqs then .ub
  else do
    let s ← loopE crps u (table data) w.2 keep fit u.count.toNat ⟨kept, false, zeros u, 0, 0, [], fun _ => 0⟩
    pure ⟨averages u s.counter s.results, s.valid, s.details, s.errors⟩

end Vs
end LDT
