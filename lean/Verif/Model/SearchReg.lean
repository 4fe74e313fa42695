import Verif.Model.Search
import Verif.Model.Average
import Verif.Model.Scoring
/-!
# The searcher of regression models: src/ldt_statistics/modeling/search/searcher_reg.cpp

The virtual `EstimateOneReg` is an oracle (`est`): what it answers, and the tables it fills, may depend on the earlier calls,
on the column indices and on the targets it finds in the object.  A `Reply` of `Search.lean` with the empty string is success.
-/
namespace LDT
namespace Srch
open Arr Di Score

/-- What a searcher of regression models is made with: the fields of `SearchItems`, `SearchMetricOptions` and `SearchData`
that the class reads (include/math/statistics/inference/searchers.h) and the arguments of the constructor, searcher_reg.cpp:11-19. -/
structure RegCfg where
  /-- `SearchItems`, the fields a summary reads -/
  items : Items
  /-- `KeepModelEvaluations` -/
  keepModels : Bool
  /-- `LengthEvals` -/
  lengthEvals : Nat
  /-- `LengthTargets` -/
  lengthTargets : Nat
  /-- `Length1` -/
  length1 : Nat
  /-- `NumEndo` -/
  numEndo : Nat
  /-- `NumExo` -/
  numExo : Nat
  /-- `HasWeight` -/
  hasWeight : Bool
  /-- `MetricsIn` -/
  metricsIn : List Gof
  /-- `MetricsOut` -/
  metricsOut : List Sco
  /-- `MinMetricIn` -/
  minIn : Gof → Option (List ℝ)
  /-- `MinMetricOut` -/
  minOut : Sco → Option (List ℝ)
  /-- `EvalIsPosOrientation` -/
  pos : List Bool
  /-- `IsInnerExogenous` -/
  innerExo : Bool
  /-- `InnerIndices` -/
  inner : List Int
  /-- `numPartitions` -/
  n : Nat

/-- The number of weight columns. -/
def RegCfg.w (c : RegCfg) : Nat := if c.hasWeight then 1 else 0

/-- Writes a list into a vector from a position on (the loops `ColIndices.at(off + i) = …`); positions outside do not occur. -/
def putAt : (off : Nat) → List Int → List Int → List Int
  | _, [], cols => cols
  | off, v :: vs, cols => putAt (off + 1) vs (cols.set off v)

/-- The state of the object: `ColIndices`, `TargetsPositions`, `Summaries0`, `Summaries1`.  The summaries are functions of
their indices; the ranges that `std::vector::at` checks are in `push0` and `push1`. -/
structure RegSt where
  /-- `ColIndices` -/
  cols : List Int
  /-- `TargetsPositions` -/
  targets : List Int
  /-- `Summaries0` -/
  s0 : Nat → Nat → Summ
  /-- `Summaries1` -/
  s1 : Nat → Nat → Nat → Summ

/-- `if (a < LengthTargets) TargetsPositions.push_back(a)`, searcher_reg.cpp:50-53 and 72-75. -/
def targetsOf (c : RegCfg) (l : List Int) : List Int := l.filter fun a => decide (a < (c.lengthTargets : Int))

/-- The constructor, searcher_reg.cpp:11-58, with the summaries made by `Searcher::Searcher`, searcher.cpp:61-86.  The other
checks of `Searcher::Searcher` (searcher.cpp:18-34) are first; `NumFixPartitions` is checked in `start`. -/
noncomputable def regConstruct (c : RegCfg) (big tiny : ℝ) : Outcome RegSt :=
  if c.lengthEvals = 0 ∨ c.lengthTargets = 0 then .throws
  else if c.lengthEvals ≠ c.pos.length then .throws
  else if c.keepModels = false ∧ c.length1 = 0 then .throws
  else
    let zero : List Int := List.replicate (c.n + c.w + c.inner.length) 0
    let s0 : Nat → Nat → Summ := fun i k => newSumm c.items big tiny c.numEndo c.numExo i k 0
    let s1 : Nat → Nat → Nat → Summ := fun i k j => newSumm c.items big tiny c.numEndo c.numExo i k j
    if c.innerExo then
      let cols := putAt (c.n + c.w) (c.inner.map fun a => a + (c.w : Int)) zero
      let cols := if c.hasWeight then cols.set c.n (c.numEndo : Int) else cols
      .ok ⟨cols, [], s0, s1⟩
    else
      let cols := putAt 0 c.inner zero
      let cols := if c.hasWeight then cols.set c.inner.length (c.numEndo : Int) else cols
      let targets := targetsOf c c.inner
      if targets.length = 0 then .throws else .ok ⟨cols, targets, s0, s1⟩

/-- What a call of `EstimateOneReg` does and the values of `RequestCancel` read around it, searcher_reg.cpp:102-110. -/
structure RegOut where
  /-- `RequestCancel` before the call -/
  cancelBefore : Bool
  /-- the answer -/
  reply : Reply
  /-- `RequestCancel` after the call -/
  cancelAfter : Bool
  /-- `metrics` -/
  metric : Nat → Nat → Val ℝ
  /-- `type1_mean` (NaN where it is not set) -/
  mean : Nat → Nat → Val ℝ
  /-- `type1_var` -/
  variance : Nat → Nat → Val ℝ
  /-- `extra` -/
  extra : List Int

/-- The smallest metric of the target (or 0) and the weight, searcher_reg.cpp:125-139; `none`: `at` throws. -/
noncomputable def weightOf (c : RegCfg) (i : Nat) (t : Int) (metric : ℝ) : Option ℝ :=
  match c.metricsIn[i]? with
  | some gf => match c.minIn gf with
    | some l => (atI l t).map fun m => gofToWeight gf metric m
    | none => some (gofToWeight gf metric 0)
  | none => match c.metricsOut[i - c.metricsIn.length]? with
    | some sr => match c.minOut sr with
      | some l => (atI l t).map fun m => scoToWeight sr metric m
      | none => some (scoToWeight sr metric 0)
    | none => none

/-- The estimation that is kept, searcher_reg.cpp:142-152 and 164-172, with the constructor of `EstimationKeep`, summary.cpp:107-113
(exogenous, extra, endogenous in this order). -/
noncomputable def keepOf (c : RegCfg) (cur : List Int) (o : RegOut) (metric weight : ℝ) (m v : Val ℝ) : Est :=
  if c.innerExo then ⟨metric, weight, m, v, cur, c.inner, o.extra⟩ else ⟨metric, weight, m, v, c.inner, cur, o.extra⟩

/-- `Push0`, searcher.cpp:102-105.  The flag is `false` if it throws; the summary is then left as it was (in the code the estimation
may have been put in some of the lists). -/
noncomputable def push0 (S : Fns) (c : RegCfg) (e : Est) (i : Nat) (t : Int) (st : RegSt) : RegSt × Bool :=
  if i < c.lengthEvals ∧ 0 ≤ t ∧ t < (c.lengthTargets : Int) then
    match push S c.items (c.pos.getD i false) true (st.s0 i t.toNat) e with
    | .ok s => ({ st with s0 := fun a b => if a = i ∧ b = t.toNat then s else st.s0 a b }, true)
    | _ => (st, false)
  else (st, false)

/-- `Push1`, searcher.cpp:107-110. -/
noncomputable def push1 (S : Fns) (c : RegCfg) (e : Est) (i : Nat) (t : Int) (k : Nat) (st : RegSt) : RegSt × Bool :=
  if i < c.lengthEvals ∧ 0 ≤ t ∧ t < (c.lengthTargets : Int) ∧ k < c.length1 then
    match push S c.items (c.pos.getD i false) false (st.s1 i t.toNat k) e with
    | .ok s => ({ st with s1 := fun a b d => if a = i ∧ b = t.toNat ∧ d = k then s else st.s1 a b d }, true)
    | _ => (st, false)
  else (st, false)

/-- The loop over the coefficients, searcher_reg.cpp:157-175. -/
noncomputable def pushCoefs (S : Fns) (c : RegCfg) (cur : List Int) (o : RegOut) (metric weight : ℝ) (i : Nat) (t : Int) (j : Nat) :
    List Nat → RegSt → RegSt × Bool
  | [], st => (st, true)
  | k :: ks, st => match o.mean k j with
    | none => pushCoefs S c cur o metric weight i t j ks st
    | some m =>
      let r := push1 S c (keepOf c cur o metric weight (some m) (o.variance k j)) i t k st
      if r.2 then pushCoefs S c cur o metric weight i t j ks r.1 else r

/-- The body of the two loops for a metric that is not NaN, searcher_reg.cpp:124-176. -/
noncomputable def pushCell (S : Fns) (c : RegCfg) (cur : List Int) (o : RegOut) (metric : ℝ) (i : Nat) (t : Int) (j : Nat) (st : RegSt) :
    RegSt × Bool :=
  match weightOf c i t metric with
  | none => (st, false)
  | some weight =>
    let r := if c.keepModels then push0 S c (keepOf c cur o metric weight none none) i t st else (st, true)
    if r.2 then pushCoefs S c cur o metric weight i t j (List.range c.length1) r.1 else r

/-- The two loops, searcher_reg.cpp:113-181, over the pairs of a metric and a target; the result is `none` if it throws,
otherwise `allNan`. -/
noncomputable def pushCells (S : Fns) (c : RegCfg) (cur : List Int) (o : RegOut) (targets : List Int) :
    List (Nat × Nat) → RegSt → Bool → RegSt × Option Bool
  | [], st, allNan => (st, some allNan)
  | p :: ps, st, allNan => match targets[p.2]? with
    | none => (st, none)
    | some t => match o.metric p.1 p.2 with
      | none => pushCells S c cur o targets ps st allNan
      | some metric =>
        let r := pushCell S c cur o metric p.1 t p.2 st
        if r.2 then pushCells S c cur o targets ps r.1 false else (r.1, none)

/-- The pairs in the order of the loops. -/
def cells (m t : Nat) : List (Nat × Nat) := (List.range m).flatMap fun i => (List.range t).map fun j => (i, j)

/-- The update of the indices, searcher_reg.cpp:62-81. -/
def setIndices (c : RegCfg) (cur : List Int) (st : RegSt) : RegSt :=
  if c.innerExo then { st with cols := putAt 0 cur st.cols, targets := targetsOf c cur }
  else { st with cols := putAt (c.inner.length + c.w) (cur.map fun a => a + (c.w : Int)) st.cols }

/-- `EstimateOne`, searcher_reg.cpp:60-190; `atMsg` is the message of `std::out_of_range`. -/
noncomputable def estimateOne (S : Fns) (c : RegCfg) (est : List Int → List Int → RegOut) (atMsg : String) (cur : List Int) (st : RegSt) :
    RegSt × Reply :=
  let st := setIndices c cur st
  let numMeas := c.metricsIn.length + c.metricsOut.length
  if numMeas = 0 then (st, .throwsMsg "No measures!")
  else if st.targets.length = 0 then (st, .throwsMsg "No targets!")
  else
    let o := est st.cols st.targets
    if o.cancelBefore then (st, .returns "cancel")
    else match o.reply with
      | .returns s =>
        if s.length ≠ 0 then (st, .returns s)
        else if o.cancelAfter then (st, .returns "cancel")
        else match pushCells S c cur o st.targets (cells numMeas st.targets.length) st true with
          | (st, none) => (st, .throwsMsg atMsg)
          | (st, some true) => (st, .throwsMsg "all metrics are NaN")
          | (st, some false) => (st, .returns "")
      | r => (st, r)

/-- The state of the object after a sequence of calls of `EstimateOne`; the oracle sees the earlier calls. -/
noncomputable def stateAfter (S : Fns) (c : RegCfg) (est : List Visit → List Int → List Int → RegOut) (atMsg : String) :
    (done calls : List Visit) → RegSt → RegSt
  | _, [], st => st
  | done, v :: vs, st => stateAfter S c est atMsg (done ++ [v]) vs (estimateOne S c (est done) atMsg v.cur st).1

/-- The environment that a searcher of regression models gives to `Start` (searcher.cpp:138-197, `start`): `EstimateOne` runs in the state
after the earlier calls. -/
noncomputable def regEnv (S : Fns) (c : RegCfg) (est : List Visit → List Int → List Int → RegOut) (atMsg : String) (cancel : Nat → Bool)
    (st0 : RegSt) : Env where
  est := fun done v => (estimateOne S c (est done) atMsg v.cur (stateAfter S c est atMsg [] done st0)).2
  cancel := cancel
  atMsg := atMsg

/-- `list0`, `list1` of `CombineInfo` for the searchers in their order, modelset.cpp:136-150. -/
noncomputable def summaries0 (c : RegCfg) (st : RegSt) : List Summ :=
  if c.keepModels then (List.range c.lengthEvals).flatMap fun i => (List.range c.lengthTargets).map fun t => st.s0 i t else []

/-- `list1`, modelset.cpp:142-150. -/
noncomputable def summaries1 (c : RegCfg) (st : RegSt) : List Summ :=
  (List.range c.lengthEvals).flatMap fun i => (List.range c.lengthTargets).flatMap fun t => (List.range c.length1).map fun k => st.s1 i t k

end Srch
end LDT
