import Verif.Model.Basic
/-!
# The model search, src/ldt_statistics/modeling/search/searcher.cpp

`Ti` (a 32-bit `int`) is modelled by `Nat` where the code only stores non-negative numbers and by `Int`
elsewhere; overflow is not modelled.  `while (true)` loops take a step budget (`fuel`); running out of it is
`Outcome.diverges`, and the theorems prove that a budget always suffices.
-/
namespace LDT
namespace Srch

/-- The loop of `next`, searcher.cpp:203-208: `for (free = numPartitions; free > fix; free--)` with
`T = maxCountG - c - 1` and `c++` at the end of the body.  Returns the final `free`. -/
def nextScan (g : List Nat) (maxCountG fix : Nat) : (free c : Nat) → Nat
  | 0, _ => 0
  | free + 1, c =>
    if free + 1 > fix then
      if ((g.getD free 0 : Nat) : Int) < (maxCountG : Int) - c - 1 then free + 1
      else nextScan g maxCountG fix free (c + 1)
    else free + 1

/-- The loop `for (i = free; i < numPartitions; i++) g[i] = g[i-1] + 1`, searcher.cpp:213-214
(`k` iterations remain). -/
def nextFill : (k i : Nat) → List Nat → List Nat
  | 0, _, g => g
  | k + 1, i, g => nextFill k (i + 1) (g.set i (g.getD (i - 1) 0 + 1))

/-- `next`, searcher.cpp:199-217; `none` is the return value `false`.  The array has `numPartitions`
elements, so the accesses `g[free-1]`, `g[i-1]` are in range. -/
def next (g : List Nat) (numPartitions maxCountG fix : Nat) : Option (List Nat) :=
  let free := nextScan g maxCountG fix numPartitions 0
  if free = fix then none
  else some (nextFill (numPartitions - free) free (g.set (free - 1) (g.getD (free - 1) 0 + 1)))

/-- `SearchCombinations` (include/math/statistics/inference/searchers.h:94-115), the fields used by the
searcher.  A negative `NumFixPartitions` is not modelled. -/
structure Combinations where
  /-- `Partitions` -/
  partitions : List (List Int)
  /-- `NumFixPartitions` -/
  numFixPartitions : Nat
  /-- `NumFixItems` -/
  numFixItems : Int

/-- `partitionSizes`, filled by the constructor, searcher.cpp:58-59. -/
def Combinations.sizes (c : Combinations) : List Nat := c.partitions.map List.length

/-- The test "does it contain any fixed items?", searcher.cpp:239-244: with `NumFixItems = 0` always true,
otherwise the selected item of the first selected partition `g` must be smaller than `NumFixItems`. -/
def hasFixed (fixFirstI : Int) (g : List Int) (inner : List Nat) : Bool :=
  if fixFirstI = 0 then true
  else match inner[0]? with
    | some x => match g[x]? with
      | some v => decide (v < fixFirstI)
      | none => false
    | none => false

/-- The loop over `i` in `move_next`, searcher.cpp:230-248 (`r` iterations remain).  The flag tells whether
the function returned `true` from inside the loop. -/
def moveInner (sizes : List Nat) (g : List Int) (fixFirstI : Int) (parts : List Nat) :
    (r i : Nat) → List Nat → Outcome (List Nat × Bool)
  | 0, _, inner => .ok (inner, false)
  | r + 1, i, inner =>
    match parts[i]?, inner[i]? with
    | some p, some x =>
      match sizes[p]? with
      | none => .throws
      | some s =>
        if (x : Int) < (s : Int) - 1 then
          if hasFixed fixFirstI g (inner.set i (x + 1)) then .ok (inner.set i (x + 1), true)
          else moveInner sizes g fixFirstI parts r (i + 1) (inner.set i 0)
        else moveInner sizes g fixFirstI parts r (i + 1) (inner.set i 0)
    | _, _ => .ub

/-- `move_next`, searcher.cpp:219-275: `some (partitionIndices, innerIndices)` when it returns `true`,
`none` when it returns `false`. -/
def moveNext (c : Combinations) (numPartitions : Nat) (parts inner : List Nat) :
    Outcome (Option (List Nat × List Nat)) :=
  match parts[0]? with
  | none => .ub
  | some p0 =>
    match c.partitions[p0]? with
    | none => .throws
    | some g =>
      match moveInner c.sizes g c.numFixItems parts numPartitions 0 inner with
      | .ok (inner', true) => .ok (some (parts, inner'))
      | .ok (_, false) =>
        let zeros := List.replicate inner.length 0
        match next parts numPartitions c.partitions.length c.numFixPartitions with
        | none => .ok none
        | some parts' =>
          if c.numFixItems = 0 then .ok (some (parts', zeros))
          else
            match parts'[0]? with
            | none => .ub
            | some p0' =>
              match c.partitions[p0']? with
              | none => .throws
              | some g' =>
                if g'.length ≤ zeros.getD 0 0 then .throws
                else if hasFixed c.numFixItems g' zeros then .ok (some (parts', zeros)) else .ok none
      | .throws => .throws
      | .ub => .ub
      | .diverges => .diverges

/-- `UpdateCurrent`, searcher.cpp:117-123: look up the selected items (`.at` throws). -/
def currentOf (c : Combinations) : (parts inner : List Nat) → Option (List Int)
  | [], _ => some []
  | _ :: _, [] => none
  | p :: ps, x :: xs =>
    match c.partitions[p]? with
    | none => none
    | some g => match g[x]? with
      | none => none
      | some v => (currentOf c ps xs).map (v :: ·)

/-- What the virtual `EstimateOne` does: it returns a string (empty = success) or throws. -/
inductive Reply where
  /-- returns the string -/
  | returns (s : String)
  /-- throws an exception carrying the message -/
  | throwsMsg (s : String)
  /-- throws anything else -/
  | throwsOther

/-- The message given to `AddState`, searcher.cpp:150-161. -/
def Reply.message : Reply → String
  | .returns s => s
  | .throwsMsg s => s
  | .throwsOther => "unknown error occurred"

/-- One call of `EstimateOne`: the positions and the column indices (`CurrentIndices`). -/
structure Visit where
  /-- `PartitionIndices` -/
  parts : List Nat
  /-- `ItemIndices` -/
  items : List Nat
  /-- `CurrentIndices` -/
  cur : List Int
  deriving DecidableEq, Repr

/-- The environment of a run: what `EstimateOne` answers (it may depend on all earlier calls), the value
of `RequestCancel` at the `k`-th time it is read, and the text of the `std::out_of_range` exception. -/
structure Env where
  /-- answer of `EstimateOne` after the calls of the list -/
  est : List Visit → Visit → Reply
  /-- value read from `RequestCancel` at the k-th poll -/
  cancel : Nat → Bool
  /-- `what()` of `std::out_of_range` -/
  atMsg : String

/-- The state of the searcher: `Counter`, `States` and (ghost, not in the code) the calls of
`EstimateOne` and of `AddState` made so far. -/
structure St where
  /-- `Counter` -/
  counter : Nat
  /-- `States`: message ↦ count -/
  states : List (String × Nat)
  /-- ghost: calls of `EstimateOne`, oldest first -/
  log : List Visit
  /-- ghost: messages given to `AddState`, oldest first -/
  msgs : List String

/-- `States.at(s)++` / insert, searcher.cpp:95-99. -/
def bump (s : String) : List (String × Nat) → List (String × Nat)
  | [] => [(s, 1)]
  | (t, n) :: l => if t = s then (t, n + 1) :: l else (t, n) :: bump s l

/-- `AddState`, searcher.cpp:91-100. -/
def addState (msg : String) (st : St) : St :=
  { st with counter := st.counter + 1,
            states := if msg = "" then st.states else bump msg st.states,
            msgs := st.msgs ++ [msg] }

/-- `UpdateCurrent(); AddState(EstimateOne(...))` with its exception handlers, searcher.cpp:150-161 and
169-186.  With `check` the model is skipped when its first index is not a target (`CheckForEmpty`). -/
def visit (c : Combinations) (env : Env) (check : Bool) (lengthTargets : Int)
    (parts inner : List Nat) (st : St) : St :=
  match currentOf c parts inner with
  | none => addState env.atMsg st
  | some cur =>
    if check && decide (cur.getD 0 0 ≥ lengthTargets) then st
    else
      let v : Visit := ⟨parts, inner, cur⟩
      addState (env.est st.log v).message { st with log := st.log ++ [v] }

/-- The `while (true)` loop of `Start`, searcher.cpp:163-187.  An exception of `MoveNext` is caught by the
outer handler and ends the search (searcher.cpp:191-195). -/
def loop (c : Combinations) (n : Nat) (env : Env) (check : Bool) (lengthTargets : Int) :
    (fuel poll : Nat) → (parts inner : List Nat) → St → Outcome St
  | 0, _, _, _, _ => .diverges
  | fuel + 1, poll, parts, inner, st =>
    match moveNext c n parts inner with
    | .ok none => .ok st
    | .ok (some (parts', inner')) =>
      if env.cancel poll then .ok st
      else loop c n env check lengthTargets fuel (poll + 1) parts' inner'
        (visit c env check lengthTargets parts' inner' st)
    | .throws => .ok st
    | .ub => .ub
    | .diverges => .diverges

/-- The constructor's checks used here, searcher.cpp:18-22, and its initial state (searcher.cpp:45-56), then
`Start`, searcher.cpp:138-197, on a fresh searcher (a second call throws: `mIsFinished`). -/
def start (c : Combinations) (n : Nat) (env : Env) (check : Bool) (lengthTargets : Int) (fuel : Nat) :
    Outcome St :=
  if c.numFixPartitions > n then .throws
  else if c.partitions.length < n then .throws
  else
    let st0 : St := ⟨0, [], [], []⟩
    if n = 0 then .ok st0
    else if env.cancel 0 then .ok st0
    else
      let parts := List.range n
      let inner := List.replicate n 0
      loop c n env check lengthTargets fuel 1 parts inner
        (visit c env false lengthTargets parts inner st0)

/-- `mul` of the selected partitions, searcher.cpp:308-310 and 317-319 (`partitionSizes.at` throws). -/
def mulSizes (sizes : List Nat) : List Nat → Outcome Nat
  | [] => .ok 1
  | p :: ps => match sizes[p]? with
    | none => .throws
    | some s => match mulSizes sizes ps with
      | .ok m => .ok (s * m)
      | e => e

/-- The loop of the first branch of `GetCount`, searcher.cpp:314-321. -/
def countLoop (c : Combinations) (n : Nat) : (fuel : Nat) → List Nat → Nat → Outcome Nat
  | 0, _, _ => .diverges
  | fuel + 1, parts, count =>
    match next parts n c.partitions.length c.numFixPartitions with
    | none => .ok count
    | some parts' => match mulSizes c.sizes parts' with
      | .ok m => countLoop c n fuel parts' (count + m)
      | e => e

/-- The loop of the second branch of `GetCount`, searcher.cpp:331-342. -/
def simLoop (c : Combinations) (n : Nat) (check : Bool) (lengthTargets : Int) :
    (fuel : Nat) → (parts inner : List Nat) → Nat → Outcome Nat
  | 0, _, _, _ => .diverges
  | fuel + 1, parts, inner, count =>
    match moveNext c n parts inner with
    | .ok none => .ok count
    | .ok (some (parts', inner')) =>
      if check then
        match parts'[0]?, inner'[0]? with
        | some p, some x =>
          match c.partitions[p]? with
          | none => .throws
          | some g => match g[x]? with
            | none => .throws
            | some c0 =>
              simLoop c n check lengthTargets fuel parts' inner'
                (if c0 ≥ lengthTargets then count else count + 1)
        | _, _ => .ub
      else simLoop c n check lengthTargets fuel parts' inner' (count + 1)
    | .throws => .throws
    | .ub => .ub
    | .diverges => .diverges

/-- `GetCount(false)`, searcher.cpp:283-350 (with the constructor's check of `NumFixPartitions`). -/
def getCount (c : Combinations) (n : Nat) (check : Bool) (lengthTargets : Int) (fuel : Nat) : Outcome Nat :=
  if c.numFixPartitions > n then .throws
  else if c.partitions.length < n then .throws
  else if c.numFixItems = 0 ∧ check = false then
    match mulSizes c.sizes (List.range n) with
    | .ok m => countLoop c n fuel (List.range n) m
    | e => e
  else simLoop c n check lengthTargets fuel (List.range n) (List.replicate n 0) 1

/-- `GetCount(true)`: the count times the square of the model size, searcher.cpp:346-347. -/
def getCountEffective (c : Combinations) (n : Nat) (check : Bool) (lengthTargets : Int) (fuel : Nat) :
    Outcome Nat :=
  match getCount c n check lengthTargets fuel with
  | .ok k => .ok (k * n ^ 2)
  | e => e

/-- `map` insertion of `CombineInfo`, src/ldt_statistics/modeling/search/modelset.cpp:129-133. -/
def addFail (s : String) (k : Nat) : List (String × Nat) → List (String × Nat)
  | [] => [(s, k)]
  | (t, n) :: l => if t = s then (t, n + k) :: l else (t, n) :: addFail s k l

/-- `CombineInfo`, src/ldt_statistics/modeling/search/modelset.cpp:119-134 with
`GetNumberOfEstimatedModels` (100-106): searched count and failure counts. -/
def combineInfo (searchers : List St) : Nat × List (String × Nat) :=
  ((searchers.map (·.counter)).sum,
    searchers.foldl (fun r st => st.states.foldl (fun r a => addFail a.1 a.2 r) r) [])

end Srch
end LDT
