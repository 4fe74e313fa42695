import Verif.Model.ChoiceEstimate
import Verif.Model.DataSplit
import Verif.Model.FreqCost
import Verif.Model.Roc
/-!
# Discrete choice: from a table of data to a model and its scores, `src/ldt_statistics/modeling/discrete/discrete_choice_extended.cpp`, and
# out-of-sample scores, `discrete_choice_sim.cpp`

Without principal components (`pPcaOptions` is null) and without cancellation. Arithmetic is exact. A table that still has a missing cell after
`Dataset` (because `checkNan` is false) is handed to `other`, which stands for what the code then does. Memory that was not written is `junk`.
-/
namespace LDT
namespace Dc
open Op Di Mx Arr

/-! ## `DiscreteChoiceExtended` -/

/-- `StorageSize` and `WorkSize` of `DiscreteChoiceExtended`, `StorageSize` of its `Data`, and the sizes of its `Model`. -/
structure ExtSizes where
  storage : ℤ
  work : ℤ
  data : ℤ
  model : Sizes

/-- `FrequencyCost(count).StorageSize`, frequency_cost.cpp:11-13. -/
def costStorage (count : ℤ) : ℤ := 2 * count

/-- The constructor, discrete_choice_extended.cpp:11-72; `costs` is the number of cost matrices, `none` for a null pointer. -/
def extConstruct (form : Form) (rows cols : ℤ) (hasWeight checkNan : Bool) (numChoices : ℤ) (details : Bool) (numForecast : ℤ)
    (costs : Option ℤ) : Outcome ExtSizes := do
  let numExo := cols - (if hasWeight then 2 else 1)
  let ds ← Dataset.make rows cols checkNan false
  let m ← construct form rows numExo numChoices details
  let storage := ds.storageSize + m.storage
  let storage := if numForecast > 0 then storage + (numChoices * numForecast + numForecast * cols) else storage
  let work := if numForecast > 0 then max m.work (rows + numChoices - 2) else m.work
  if details then
    pure ⟨storage + numChoices * rows + (match costs with | some c => costStorage c | none => 0), max work (rows + numChoices - 2),
      ds.storageSize, m⟩
  else pure ⟨storage, work, ds.storageSize, m⟩

/-- The blocks laid over the storage by `Calculate`, discrete_choice_extended.cpp:97-203 (without principal components): the offsets of the first two
are the sizes that the object was made for, the others depend on the arguments. -/
def extBlocks (self : ExtSizes) (rows numChoices : ℤ) (details : Bool) (numForecast : ℤ) (costs : Option ℤ) : List ℤ :=
  [self.data, self.model.storage, numForecast * numChoices] ++
    if details then [rows * numChoices, match costs with | some c => costStorage c | none => 0] else []

/-- The cells `GetProbabilities` uses of the work array, discrete_choice.cpp:1071,1104: one for each row, and the cutoffs. -/
def probWork (form : Form) (rows J : ℤ) : ℤ := if form = .binary then rows else rows + (J - 1)

/-- The number of estimated coefficients and cutoffs. -/
def kOf (form : Form) (J : ℕ) (D : Data) : ℕ :=
  match form with
  | .binary => D.k0
  | .ordered => D.k0 + J - 1

/-- `EstimateBinary` or `EstimateOrdered`, discrete_choice.cpp:103-111. -/
noncomputable def estimate (S : Fns) (law : Law) (form : Form) (J : ℕ) (D : Data) (E : ∀ k, Env k) (dd ols : Bool)
    (start : ∀ k, Option (Fin k → ℝ)) : Outcome (Est (kOf form J D)) :=
  match form with
  | .binary => estimateBinary S law D (E D.k0) dd ols (start D.k0)
  | .ordered => estimateOrdered S law J D (E (D.k0 + J - 1)) dd ols (start (D.k0 + J - 1))

/-- `GetProbabilities` for `m` rows; `old` is what the result contained. -/
noncomputable def probabilities (S : Fns) (law : Law) (form : Form) (J k0 : ℕ) (β : ℕ → ℝ) (m : ℕ) (x : ℕ → ℕ → ℝ) (old : ℕ → ℕ → Val ℝ) :
    ℕ → ℕ → Val ℝ :=
  fun i j =>
    if i < m ∧ j ≤ J then
      some (match form with
        | .binary => binaryRow S law (dot k0 x β i) j
        | .ordered => orderedRow S law J k0 β (dot k0 x β i) (fun _ => 0) j)
    else old i j

/-- The columns of a table: dependent variable, weights, the others, discrete_choice_extended.cpp:106-115. The cells are those of the memory. -/
noncomputable def dataOf (hasWeight : Bool) (m : Mat ℝ) : Data :=
  let cell : ℕ → ℕ → ℝ := fun i j => m.mem.getD (i + j * m.rows.toNat) 0
  ⟨m.rows.toNat, (m.cols - (if hasWeight then 2 else 1)).toNat, fun i => cell i 0,
    fun i j => cell i (j + if hasWeight then 2 else 1), if hasWeight then some fun i => cell i 1 else none⟩

/-- The table as numbers, if its cells are. -/
def numbers (m : Mat (Val ℝ)) : Option (Mat ℝ) :=
  if (m.mem.take (m.rows * m.cols).toNat).all Option.isSome then
    some ⟨m.rows, m.cols, some ((m.mem.take (m.rows * m.cols).toNat).map fun v => v.getD 0)⟩
  else none

/-- The loop for `BrierScore`, discrete_choice_extended.cpp:148-158, discrete_choice_sim.cpp:250-262: `y`, `w` and `p` are the cells read. -/
noncomputable def brierSum (w y p : ℕ → Val ℝ) : List ℕ → Val (ℝ × ℝ) → Val (ℝ × ℝ)
  | [], s => s
  | i :: r, s => brierSum w y p r (do
    let s ← s
    let wi ← w i
    let yi ← y i
    let pi ← p i
    pure (s.1 + wi * (yi - pi) ^ 2, s.2 + wi))

/-- `BrierScore`, discrete_choice_extended.cpp:145-159. -/
noncomputable def brier (n : ℕ) (w y p : ℕ → Val ℝ) : Val ℝ := do
  let s ← brierSum w y p (List.range n) (some (0, 0))
  Roc.vdiv s.1 s.2

/-- The observations that `ROC` reads. -/
def rocObs (n : ℕ) (y s w x : ℕ → ℝ) : List (Roc.Obs ℝ) := (List.range n).map fun i => ⟨y i, s i, w i, x i⟩

open Classical in
/-- `auc->Calculate(y, probabilities, weights, aucOptions)`, discrete_choice_extended.cpp:161-183: with `Costs` of the options the class that uses
the cost matrix. -/
noncomputable def aucOf (o : Roc.Options ℝ) (costs : Option (ℕ → ℝ)) (n : ℕ) (y s w : ℕ → ℝ) : Outcome (Val ℝ) :=
  match costs with
  | some x =>
    if o.cost = none then .throws
    else do
      let r ← Roc.calculate o (rocObs n y s w x)
      pure r.1
  | none => do
    let r ← Roc.calculate { o with cost := none } (rocObs n y s w fun _ => 1)
    pure r.1

/-- The observations that `FrequencyCost` reads. -/
noncomputable def costObs (n : ℕ) (y w : ℕ → ℝ) : List (Option ℤ × ℝ) := (List.range n).map fun i => (some (trunc (y i)), w i)

/-- What `Calculate` computes with `doDetails`. -/
structure ExtDetails where
  projections : ℕ → ℕ → Val ℝ
  brier : Val ℝ
  auc : Val ℝ
  costAverage : Option ℝ

/-- The result of `Calculate`: the sample, the model, `PredProbs`, and the details. -/
structure Ext (form : Form) (J : ℕ) where
  data : Data
  est : Est (kOf form J data)
  pred : Option (ℕ → ℕ → Val ℝ)
  details : Option ExtDetails

/-- The arguments of the constructor and the options. -/
structure ExtSetup where
  law : Law
  form : Form
  numChoices : ℤ
  hasWeight : Bool
  checkNan : Bool
  details : Bool
  /-- `mWeightedEval` -/
  weightedEval : Bool
  costs : Option (List (Mat ℝ))
  roc : Roc.Options ℝ
  rocCosts : Option (ℕ → ℝ)

/-- `NumCutoff`. -/
def ExtSetup.cuts (u : ExtSetup) : ℕ := (u.numChoices - 1).toNat

/-- The part of `Calculate` with `mDoDetails`, discrete_choice_extended.cpp:139-203. `mem` are the cells behind `Y.Data`, of which the first
`count` are `Y`, the next `count` are `W` (with weights); `rows` is `data.RowsCount`. -/
noncomputable def extDetails (S : Fns) (u : ExtSetup) (work : ℤ) (mem : List (Val ℝ)) (rows : ℕ) (D : Data) (β : ℕ → ℝ)
    (junk : ℕ → ℕ → Val ℝ) : Outcome ExtDetails :=
  if probWork u.form D.n u.cuts > work then .ub
  else
    let proj := probabilities S u.law u.form u.cuts D.k0 β D.n D.x junk
    let weighted := u.hasWeight && u.weightedEval
    let score := brier rows (fun i => if weighted then mem.getD (D.n + i) none else some 1) (fun i => mem.getD i none) (fun i => proj i 1)
    match u.form with
    | .ordered => .throws
    | .binary => do
      let w : ℕ → ℝ := fun i => if weighted then D.wt i else 1
      let a ← aucOf u.roc u.rocCosts D.n D.y (fun i => (proj i 0).getD 0) w
      match u.costs with
      | none => pure ⟨proj, score, a, none⟩
      | some c => do
        let r ← FCost.calculate c (costObs D.n D.y w) (dense rows 2 fun i j => (proj i j).getD 0)
        pure ⟨proj, score, a, some r.2⟩

/-- `numForecast`, discrete_choice_extended.cpp:86. -/
def foreRows (fore : Option (ℕ × (ℕ → ℕ → ℝ))) : ℤ :=
  match fore with
  | some q => q.1
  | none => 0

/-- `Calculate` from the estimated model on, discrete_choice_extended.cpp:131-205. `mem` are the cells of `Data.Result`, `rows` is `data.RowsCount`. -/
noncomputable def extTail (S : Fns) (u : ExtSetup) (sz : ExtSizes) (rows : ℤ) (mem : List (Val ℝ)) (D : Data) (est : Est (kOf u.form u.cuts D))
    (fore : Option (ℕ × (ℕ → ℕ → ℝ))) (junk : ℕ → ℕ → Val ℝ) : Outcome (Ext u.form u.cuts) :=
  if (extBlocks sz rows u.numChoices u.details (foreRows fore) (u.costs.map fun c => (c.length : ℤ))).sum > sz.storage then .ub
  else
    match fore with
    | some q =>
      if probWork u.form q.1 u.cuts > sz.work then .ub
      else
        let pred := probabilities S u.law u.form u.cuts D.k0 (ext est.beta) q.1 q.2 junk
        if u.details then do
          let d ← extDetails S u sz.work mem rows.toNat D (ext est.beta) junk
          pure ⟨D, est, some pred, some d⟩
        else pure ⟨D, est, some pred, none⟩
    | none =>
      if u.details then do
        let d ← extDetails S u sz.work mem rows.toNat D (ext est.beta) junk
        pure ⟨D, est, none, some d⟩
      else pure ⟨D, est, none, none⟩

/-- `Calculate`, discrete_choice_extended.cpp:75-205. `sz` are the sizes of the object; `fore` is `xForecast` (rows and cells). A table larger than
the block that the object was made for would be overwritten by the model: `ub`. -/
noncomputable def extended (S : Fns) (u : ExtSetup) (sz : ExtSizes) (E : ∀ k, Env k) (other : Outcome (Ext u.form u.cuts))
    (data : Mat (Val ℝ)) (storage : List (Val ℝ)) (ols : Bool) (start : ∀ k, Option (Fin k → ℝ)) (fore : Option (ℕ × (ℕ → ℕ → ℝ)))
    (junk : ℕ → ℕ → Val ℝ) : Outcome (Ext u.form u.cuts) := do
  let temp ← extConstruct u.form data.rows data.cols u.hasWeight u.checkNan u.numChoices u.details (foreRows fore) (u.costs.map fun c => (c.length : ℤ))
  if temp.work > sz.work ∨ temp.storage > sz.storage then .throws
  else if data.rows * data.cols > sz.data then .ub
  else do
    let ds ← Dataset.make data.rows data.cols u.checkNan false
    let m ← ds.calculate Option.isNone data none storage
    match numbers m with
    | none => other
    | some t => do
      let D := dataOf u.hasWeight t
      let _ ← cutoffs u.form sz.model u.details D.n D.n (if u.hasWeight then some (D.n : ℤ) else none) D.k0 0 u.numChoices
      let est ← estimate S u.law u.form u.cuts D E u.details ols start
      extTail S u sz data.rows m.mem D est fore junk

/-! ## `DiscreteChoiceSim` -/

/-- The arguments of the constructor of the simulation, and `SimulationMax`, `maxInvalidSim`. -/
structure SimSetup where
  law : Law
  form : Form
  numChoices : ℤ
  hasWeight : Bool
  ratio : ℝ
  fix : ℤ
  costs : List (Mat ℝ)
  doBrier : Bool
  doAuc : Bool
  doTable : Bool
  weightedEval : Bool
  roc : Roc.Options ℝ
  rocCosts : Option (ℕ → ℝ)
  maxInvalid : ℤ

/-- `N1`, `StorageSize`, `WorkSize`, `WorkSizeI`. -/
structure SimSizes where
  n1 : ℤ
  storage : ℤ
  work : ℤ
  workI : ℤ
  model : ExtSizes

/-- The constructor, discrete_choice_sim.cpp:13-86. -/
noncomputable def simConstruct (u : SimSetup) (rows cols : ℤ) : Outcome SimSizes :=
  let c : ℤ := u.costs.length
  if u.numChoices < 1 then .throws
  else if u.numChoices = 2 ∧ u.form = .ordered then .throws
  else if u.numChoices > 2 ∧ u.form = .binary then .throws
  else if u.costs = [] ∧ u.doTable = false ∧ u.doAuc = false then .throws
  else if u.fix < 0 then .throws
  else if u.fix = 0 ∧ (u.ratio ≥ 1 ∨ u.ratio ≤ 0) then .throws
  else
    let n0 := Split.trainSize rows u.ratio u.fix
    if n0 = 0 ∨ n0 = rows then .throws
    else do
      let n1 := rows - n0
      let m ← extConstruct u.form n0 cols u.hasWeight false u.numChoices false n1 none
      pure ⟨n1, c + (if u.doTable then 10 * u.numChoices else 0), c + costStorage c + rows * cols + m.storage + m.work, rows, m⟩

/-- The blocks laid over the work array by `Calculate`, discrete_choice_sim.cpp:179-187, the last one for the model's work array. -/
def simBlocks (rows cols : ℤ) (costs : ℤ) (m : ExtSizes) : List ℤ := [costStorage costs, rows * cols, m.storage, costs, m.work]

/-- What the simulations have added up: `CostRatios` and `overall_count`, `Auc`, `FrequencyTable`, `BrierScore`. -/
structure Tally where
  costs : List (ℝ × ℝ)
  auc : Val ℝ
  table : ℕ → ℕ → ℝ
  brier : Val ℝ

/-- `Set_Plus0(j, yc, wi)` of a table of 10 rows and `c` columns. -/
def plusAt (c : ℤ) (t : ℕ → ℕ → ℝ) (j yc : ℤ) (w : ℝ) : Outcome (ℕ → ℕ → ℝ) :=
  if 0 ≤ j ∧ j < 10 ∧ 0 ≤ yc ∧ yc < c then .ok fun a b => if (a : ℤ) = j ∧ (b : ℤ) = yc then t a b + w else t a b else .ub

/-- The loop for the frequency table, discrete_choice_sim.cpp:289-305. -/
noncomputable def tableLoop (c : ℤ) (y w : ℕ → ℝ) (p : ℕ → ℕ → Val ℝ) : List ℕ → (ℕ → ℕ → ℝ) → Outcome (ℕ → ℕ → ℝ)
  | [], t => .ok t
  | i :: r, t => do
    let yc := trunc (y i)
    if yc < 0 ∨ c ≤ yc then .ub
    else
      match p i yc.toNat with
      | none => .throws
      | some a => do
        let j := ⌊a * 10⌋
        let j := if j = 10 then 9 else j
        let t ← plusAt c t j yc (w i)
        tableLoop c y w p r t

/-- What a simulation adds to the tally after the model was estimated, discrete_choice_sim.cpp:246-306: `T` is the test sample, `p` are
`PredProbs`. -/
noncomputable def score (u : SimSetup) (T : Data) (p : ℕ → ℕ → Val ℝ) (s : Tally) : Outcome Tally := do
  let weighted := u.hasWeight && u.weightedEval
  let w : ℕ → ℝ := fun i => if weighted then T.wt i else 1
  let b := if u.doBrier then brier T.n (fun i => some (T.wt i)) (fun i => some (T.y i)) (fun i => p i 1) else s.brier
  let charged : Outcome (List (ℝ × ℝ)) :=
    if u.costs = [] then .ok s.costs
    else do
      let r ← FCost.calculate u.costs (costObs T.n T.y w) (dense T.n u.numChoices.toNat fun i j => (p i j).getD 0)
      pure (List.zipWith (fun a b => (a.1 + b.1, a.2 + b.2)) s.costs r.1)
  let costs ← charged
  let s : Tally := { s with brier := b, costs := costs }
  let auc : Outcome (Val ℝ) := if u.doAuc then aucOf u.roc u.rocCosts T.n T.y (fun i => (p i 0).getD 0) w else .ok (some 0)
  let a ← auc
  let s : Tally := { s with auc := do let x ← s.auc; let y ← a; pure (x + y) }
  if u.doTable then do
    let t ← tableLoop u.numChoices T.y T.wt p (List.range T.n) s.table
    pure { s with table := t }
  else pure s

/-- The state of the main loop: the tally, `ValidSimulationCount`, `invalidCounts`. -/
structure SimState where
  tally : Tally
  valid : ℕ
  invalid : ℤ

/-- The main loop, discrete_choice_sim.cpp:213-313. `draw i` is the split of simulation `i` (an exception in `Shuffle` is not caught), `fit` what
happens when the model is estimated (an exception is caught): the test sample and `PredProbs`. -/
noncomputable def simLoop (u : SimSetup) {A : Type} (draw : ℕ → Outcome A) (fit : A → Outcome (Data × (ℕ → ℕ → Val ℝ))) :
    List ℕ → SimState → Outcome SimState
  | [], s => .ok s
  | i :: r, s => do
    let a ← draw i
    match fit a with
    | .throws => simLoop u draw fit r { s with invalid := s.invalid + 1 }
    | .ub => .ub
    | .diverges => .diverges
    | .ok q => do
      let t ← score u q.1 q.2 s.tally
      if s.invalid > u.maxInvalid then .throws else simLoop u draw fit r ⟨t, s.valid + 1, s.invalid⟩

/-- The results of the simulation. -/
structure SimResult where
  valid : ℕ
  ratios : List (Val ℝ)
  auc : Val ℝ
  table : ℕ → ℕ → ℝ
  brier : Val ℝ

/-- The end of `Calculate`, discrete_choice_sim.cpp:318-333. -/
noncomputable def simEnd (u : SimSetup) (s : SimState) : Outcome SimResult :=
  if s.invalid > u.maxInvalid then .throws
  else if s.valid = 0 then .throws
  else .ok ⟨s.valid, s.tally.costs.map fun c => Roc.vdiv c.1 c.2, do let a ← s.tally.auc; Roc.vdiv a (s.valid : ℝ), s.tally.table, s.tally.brier⟩

/-- The model that a simulation estimates, discrete_choice_sim.cpp:172-174. -/
def SimSetup.model (u : SimSetup) : ExtSetup :=
  ⟨u.law, u.form, u.numChoices, u.hasWeight, false, false, false, none, u.roc, u.rocCosts⟩

/-- A simulation from the split to the estimated model, discrete_choice_sim.cpp:222-250; `sz` are the sizes of the model. -/
noncomputable def simFit (S : Fns) (u : SimSetup) (sz : ExtSizes) (E : ∀ k, Env k) (other : Outcome (Ext u.form u.model.cuts))
    (junk : ℕ → ℕ → Val ℝ) (s : Split.Samples ℝ) : Outcome (Data × (ℕ → ℕ → Val ℝ)) := do
  let T := dataOf u.hasWeight s.s1
  let e ← extended S u.model sz E other ⟨s.n0, s.cols, some ((s.store.take (s.n0 * s.cols).toNat).map some)⟩
    (List.replicate (s.n0 * s.cols).toNat none) true (fun _ => none) (some (T.n, T.x)) junk
  pure (T, e.pred.getD junk)

/-- What the sums start from, discrete_choice_sim.cpp:121-130,169,186. -/
noncomputable def tally0 (u : SimSetup) : Tally := ⟨u.costs.map fun _ => (0, 0), some 0, fun _ _ => 0, none⟩

/-- `Calculate`, discrete_choice_sim.cpp:88-334, of an object that was made for the sizes of the table (so that the check of the sizes passes).
`orders i` is what `std::shuffle` leaves in simulation `i`; each split is written over the cells of the one before, all of which it replaces, so here
each starts from the same storage. -/
noncomputable def simulate (S : Fns) (u : SimSetup) (E : ∀ k, Env k) (other : Outcome (Ext u.form u.model.cuts))
    (junk : ℕ → ℕ → Val ℝ) (simMax : ℕ) (data : Mat ℝ) (storage : List ℝ) (orders : ℕ → ℕ → List ℤ) : Outcome SimResult := do
  let temp ← simConstruct u data.rows data.cols
  if u.form ≠ .binary then .throws
  else do
    let st ← Split.calculateD u.numChoices.toNat data storage u.ratio u.fix
    let s ← simLoop u (fun i => Split.shuffleD data st (orders i)) (simFit S u temp.model E other junk) (List.range simMax) ⟨tally0 u, 0, 0⟩
    simEnd u s

end Dc
end LDT
