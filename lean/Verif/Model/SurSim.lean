import Verif.Model.SurExt
import Verif.Model.DataSplit
import Verif.Model.Scoring
import Verif.Model.BoxCox
/-!
# Out-of-sample scores of systems of regressions: `src/ldt_statistics/modeling/linear/sur_simulation.cpp`

Without principal components and without cancellation. Arithmetic is exact, with NaN and the infinities (`Dbl`). The order that `std::shuffle` leaves
is a parameter. `crps` is `Scoring::GetScoreCrpsNormal(error, 0, std)` (which may throw).
-/
namespace LDT
namespace Su
open Mx Op Score
open Co (part)
open Arr (Val)

/-- `Scoring::RequiresVariance`, scoring.cpp:39-49. -/
def requiresVariance : Sco → Bool
  | .mae | .mape | .rmse | .rmspe => false
  | _ => true

/-- The arguments of the constructor, and `maxCondNum`, `maxInvalidSim`, `boxCoxLambdas` (no list: null pointer; no number: NaN). -/
structure SimSetup where
  ratio : ℝ
  fix : ℤ
  metrics : List Sco
  restricted : Bool
  maxIter : ℤ
  maxCond : Dbl ℝ
  maxInvalid : ℤ
  lambdas : Option (List (Val ℝ))

/-- `mDoForecastVar`, sur_simulation.cpp:29-34. -/
def SimSetup.doVar (u : SimSetup) : Bool := u.metrics.any requiresVariance

/-- The model of the simulation, sur_simulation.cpp:36-38. -/
def SimSetup.model (u : SimSetup) : ExtSetup := ⟨u.restricted, false, false, u.maxIter, u.doVar⟩

/-- `WorkSize` and `StorageSize` of the simulation, sur_simulation.cpp:21-45. -/
noncomputable def simWork (u : SimSetup) (N m k : ℤ) : ℤ :=
  let n0 := Split.trainSize N u.ratio u.fix
  let n1 := N - n0
  N * (m + k) + extStorage u.model n0 m k n1 + extWork u.model n0 m k n1 + n1 * m

/-- The blocks laid over the work array by `Calculate` of an object made for `N`, `m`, `k`, for a table of `rows` rows, sur_simulation.cpp:124-134. -/
noncomputable def simBlocks (u : SimSetup) (N m k rows : ℤ) : List ℤ :=
  let n0 := Split.trainSize N u.ratio u.fix
  let n1 := N - n0
  [N * (m + k), extStorage u.model n0 m k n1, extWork u.model n0 m k n1, (rows - Split.trainSize rows u.ratio u.fix) * m]

/-- `pow(x, y)` on numbers, with infinity for zero to a negative power. -/
noncomputable def powD (x y : ℝ) : Dbl ℝ :=
  if x = 0 ∧ y < 0 then .pinf
  else match Arr.cpow x y with
    | some v => .num v
    | none => .nan

/-- `Array::BoxCoxInv0`, src/array.cpp:155-163, with the infinity. -/
noncomputable def backD (lam : Val ℝ) : Dbl ℝ → Dbl ℝ
  | .num v => match lam with
    | none => .num v
    | some l => if l ≠ 0 then powD (l * v + 1) (1 / l) else .num (Real.exp v)
  | v => match lam with
    | none => v
    | some _ => .nan

/-- `std::sqrt`. -/
noncomputable def sqrtD : Dbl ℝ → Dbl ℝ
  | .num v => if v < 0 then .nan else .num (Real.sqrt v)
  | .pinf => .pinf
  | _ => .nan

/-- What the estimated model leaves for the test sample: `newY` and `Model.Projections`. -/
structure SimFit where
  y : Mat ℝ
  means : Mat ℝ
  variances : Mat ℝ

open Classical in
/-- The model of one iteration, sur_simulation.cpp:151-160: what is thrown here is caught. The object was made for tables of `N0`, `n1` rows. Matrices
of projections that were never made are read: `ub`. -/
noncomputable def simFit (lu : List ℝ → List ℝ) (f : Fns ℝ) (u : SimSetup) (N m k : ℤ) (other : Outcome ExtRes) (R : Option (Mat ℝ)) (maxProb : ℝ)
    (storage work : List ℝ) (s : Split.Samples ℝ) : Outcome SimFit :=
  let n0 := Split.trainSize N u.ratio u.fix
  let T := s.s1
  let y : Mat ℝ := ⟨T.rows, m, some (part T.mem 0 (T.rows * m))⟩
  let x : Mat ℝ := ⟨T.rows, k, some (part T.mem (m * T.rows) (T.rows * k))⟩
  do
    let e ← extended lu f u.model n0 m k (N - n0) other ⟨s.n0, s.cols, some ((part s.store 0 (s.n0 * s.cols)).map some)⟩ m R maxProb (some x) none
      storage work
    if u.maxCond.lt (.num e.condition) = true then .throws
    else match e.proj with
      | none => .ub
      | some p => .ok ⟨y, p.means, p.variances⟩

/-- The test sample of an iteration after the back transformation: `rows` observations of `m` variables, their projections and standard deviations. -/
structure Forecast where
  rows : ℕ
  y : ℕ → ℕ → Dbl ℝ
  mean : ℕ → ℕ → Dbl ℝ
  std : ℕ → ℕ → Dbl ℝ

/-- `newY.Subtract(Means, errors)`, sur_simulation.cpp:202. -/
noncomputable def Forecast.err (F : Forecast) (i j : ℕ) : Dbl ℝ := (exact : Ops ℝ).sub (F.y i j) (F.mean i j)

/-- `boxCoxLambdas->at(j)` throws for some `j < m`, unless there is a lambda for each variable, sur_simulation.cpp:183-190. -/
def lambdasOk (l : Option (List (Val ℝ))) (m : ℕ) : Bool :=
  match l with
  | none => true
  | some l => decide (m ≤ l.length)

/-- `boxCoxLambdas->at(j)`, after it is known not to throw; a null pointer: no transformation. -/
def lambda (l : Option (List (Val ℝ))) (j : ℕ) : Val ℝ :=
  match l with
  | none => none
  | some l => l.getD j none

/-- Standard deviations and back transformation, sur_simulation.cpp:171-202 (a variance in exact arithmetic is never NaN). -/
noncomputable def simForecast (u : SimSetup) (p : SimFit) : Forecast where
  rows := p.y.rows.toNat
  y i j := backD (lambda u.lambdas j) (.num (p.y.val i j))
  mean i j := backD (lambda u.lambdas j) (.num (p.means.val i j))
  std i j := if u.doVar then backD (lambda u.lambdas j) (sqrtD (.num (p.variances.val i j))) else .nan

/-- `errors.Any(NAN)`, sur_simulation.cpp:204. -/
noncomputable def Forecast.broken (F : Forecast) (m : ℕ) : Prop := ∃ i < F.rows, ∃ j < m, F.err i j = .nan

/-- The term of one observation in `sumScores`, sur_simulation.cpp:60-96. -/
noncomputable def term (crps : Dbl ℝ → Dbl ℝ → Outcome (Dbl ℝ)) (e : Sco) (y mean err std : Dbl ℝ) : Outcome (Dbl ℝ) :=
  let o : Ops ℝ := exact
  match e with
  | .sign => .ok (if (Dbl.num 0).lt (o.mul y mean) = true then .num 1 else .num 0)
  | .mae => .ok (o.abs err)
  | .mape => .ok (o.abs (o.div err y))
  | .rmse => .ok (o.sq err)
  | .rmspe => .ok (o.sq (o.div err y))
  | .crps => crps err std
  | _ => .throws

/-- `sumScores`, sur_simulation.cpp:58-97: the scores that are not there throw whatever the length. -/
noncomputable def sumScores (crps : Dbl ℝ → Dbl ℝ → Outcome (Dbl ℝ)) (e : Sco) (F : Forecast) (j : ℕ) : Outcome (Dbl ℝ) :=
  if e ∈ [Sco.direction, .frequencyCost, .auc, .brier] then .throws
  else (List.range F.rows).foldlM (fun s i => do
    let t ← term crps e (F.y i j) (F.mean i j) (F.err i j) (F.std i j)
    pure ((exact : Ops ℝ).add s t)) (.num 0)

/-- `Results`: for each metric the row. -/
abbrev Results := List (List (Dbl ℝ))

/-- One row of `Results`, sur_simulation.cpp:220-231. -/
noncomputable def addRow (crps : Dbl ℝ → Dbl ℝ → Outcome (Dbl ℝ)) (e : Sco) (F : Forecast) : ℕ → List (Dbl ℝ) → Outcome (List (Dbl ℝ))
  | _, [] => .ok []
  | j, v :: r => do
    let s ← sumScores crps e F j
    let r ← addRow crps e F (j + 1) r
    pure ((exact : Ops ℝ).add v s :: r)

/-- The scores of an iteration, sur_simulation.cpp:216-232. -/
noncomputable def addScores (crps : Dbl ℝ → Dbl ℝ → Outcome (Dbl ℝ)) (F : Forecast) : List Sco → Results → Outcome Results
  | e :: es, v :: r => do
    let v ← addRow crps e F 0 v
    let r ← addScores crps F es r
    pure (v :: r)
  | _, _ => .ok []

/-- `Results`, `ValidCounts`, `ValidIters`, `invalidCounts`. -/
structure SimState where
  results : Results
  counts : ℕ
  valid : ℕ
  invalid : ℤ

open Classical in
/-- The main loop, sur_simulation.cpp:144-233. `draw i` is the split of iteration `i`, `fit` the model. -/
noncomputable def simLoop (crps : Dbl ℝ → Dbl ℝ → Outcome (Dbl ℝ)) (u : SimSetup) (m : ℕ) {A : Type} (draw : ℕ → Outcome A)
    (fit : A → Outcome SimFit) : List ℕ → SimState → Outcome SimState
  | [], s => .ok s
  | i :: r, s => do
    let a ← draw i
    match fit a with
    | .throws => simLoop crps u m draw fit r { s with invalid := s.invalid + 1 }
    | .ub => .ub
    | .diverges => .diverges
    | .ok p =>
      if lambdasOk u.lambdas m = false then .throws
      else
        let F := simForecast u p
        if F.broken m then simLoop crps u m draw fit r { s with invalid := s.invalid + 1 }
        else if s.invalid > u.maxInvalid then .throws
        else do
          let t ← addScores crps F u.metrics s.results
          simLoop crps u m draw fit r ⟨t, s.counts + F.rows, s.valid + 1, s.invalid⟩

/-- The square roots and percentages, sur_simulation.cpp:244-262. -/
noncomputable def finish (e : Sco) (v : Dbl ℝ) : Dbl ℝ :=
  let v := if e = .rmse ∨ e = .rmspe then sqrtD v else v
  if e = .mape ∨ e = .rmspe then (exact : Ops ℝ).mul v (.num 100) else v

/-- What the simulation leaves. -/
structure SimResult where
  results : Results
  valid : ℕ

/-- The end of `Calculate`, sur_simulation.cpp:235-262. -/
noncomputable def simEnd (u : SimSetup) (s : SimState) : Outcome SimResult :=
  if s.invalid > u.maxInvalid then .throws
  else .ok ⟨List.zipWith (fun e r => r.map fun v => finish e ((exact : Ops ℝ).div v (.num s.counts))) u.metrics s.results, s.valid⟩

/-- `Results.SetValue(0.0)`, sur_simulation.cpp:115-116. -/
def zeros (u : SimSetup) (m : ℕ) : Results := u.metrics.map fun _ => List.replicate m (.num 0)

/-- `SurSimulation(N, m, k, ...).Calculate`, sur_simulation.cpp:99-263. `orders i` is the order of the rows in iteration `i`; each split is written over the
cells of the one before, all of which it replaces, so here each starts from the same storage; so do the models. -/
noncomputable def simulate (lu : List ℝ → List ℝ) (f : Fns ℝ) (crps : Dbl ℝ → Dbl ℝ → Outcome (Dbl ℝ)) (u : SimSetup) (N : ℤ) (m k : ℕ)
    (other : Outcome ExtRes) (data : Mat ℝ) (R : Option (Mat ℝ)) (maxIteration : ℤ) (maxProb : ℝ) (splitStorage storage work : List ℝ)
    (orders : ℕ → List ℤ) : Outcome SimResult :=
  if maxIteration ≤ 0 then .throws
  else do
    let st ← Split.calculate data splitStorage u.ratio u.fix
    let s ← simLoop crps u m (fun i => Split.shuffle st data (orders i)) (simFit lu f u N m k other R maxProb storage work)
      (List.range maxIteration.toNat) ⟨zeros u m, 0, 0, 0⟩
    simEnd u s

end Su
end LDT
