import Mathlib.Data.Nat.Notation
/-!
# A search that is called from R, Rpackage/src/r_ldt.cpp, r_dc.cpp, r_sur.cpp, r_varma.cpp

Two threads.  The worker is the function given to `std::async`: it calls `Start` and then clears `estimating`.
The main thread runs `ReportProgress`, collects the results, and leaves the function; when it leaves, in whatever
way, the destructor of the future waits for the worker.  A schedule is a sequence of events; an event is a step of
one of the threads, and the main thread's event says whether the user has asked for an interruption.

Simplifications: `estimating` is a plain `bool` that both threads use without synchronisation (a data race in C++);
it is modelled as a variable whose writes are seen by the other thread at once, and so is
`SearchOptions.RequestCancel`.  The estimation of a model is one step.  The time is the number of seconds the main
thread has slept.  The text about the remaining minutes is not represented.
-/
namespace LDT
namespace Rs

/-- How `ModelSet::Start` ends when it is not cancelled, src/ldt_statistics/modeling/search/modelset.cpp:47-98. -/
inductive Ends
  | ok
  | throws
  deriving DecidableEq, Repr

/-- A call of `Start`: the number of models it estimates and how it ends. -/
structure Job where
  models : ℕ
  ends : Ends
  deriving DecidableEq, Repr

/-- A searcher, as far as `ModelSet::Start` and `GetExpectedNumberOfModels` depend on it: the size of its models,
the number of groups of variables, and the number of models it estimates
(src/ldt_statistics/modeling/search/searcher.cpp:125-136, 289-299). -/
structure Srchr where
  size : ℕ
  groups : ℕ
  models : ℕ
  deriving DecidableEq, Repr

/-- `ModelSet::Start`, modelset.cpp:47-98, for searchers that have not been used: in parallel without OpenMP it
throws at once; a searcher whose size is greater than the number of groups throws (searcher.cpp:129-135) when the
searchers before it are through. -/
def start (parallel openmp : Bool) (ss : List Srchr) : Job :=
  if parallel && !openmp then ⟨0, .throws⟩
  else
    match ss.find? (fun s => decide (s.groups < s.size)) with
    | some _ => ⟨((ss.takeWhile (fun s => !decide (s.groups < s.size))).map Srchr.models).sum, .throws⟩
    | none => ⟨(ss.map Srchr.models).sum, .ok⟩

/-- The part of `SearchDc`, `SearchSur` and `SearchVarma` before the worker is started, r_dc.cpp:92, r_sur.cpp:54,
r_varma.cpp:81: `GetExpectedNumberOfModels` (modelset.cpp:108-115) throws if a size is greater than the number of
groups (searcher.cpp:290-299); `none` is that error. -/
def prepare (parallel openmp : Bool) (ss : List Srchr) : Option Job :=
  if ss.any (fun s => decide (s.groups < s.size)) then none else some (start parallel openmp ss)

/-- The worker, r_dc.cpp:96-99, r_sur.cpp:58-61, r_varma.cpp:85-88. -/
inductive Worker
  /-- `Start` is running and has this number of models left -/
  | running (left : ℕ)
  /-- `Start` has returned -/
  | returned
  /-- `estimating = false` has been executed -/
  | finished
  /-- `Start` has thrown; the exception is kept in the future -/
  | failed
  deriving DecidableEq, Repr

/-- What the call gives to R. -/
inductive Ret
  /-- the results of this number of models, r_dc.cpp:110-115 -/
  | results (models : ℕ)
  /-- the error "calculations is canceled", r_ldt.cpp:435-436 -/
  | cancelled
  /-- the interruption that `checkUserInterrupt` throws, r_ldt.cpp:393-398 -/
  | interrupted
  deriving DecidableEq, Repr

/-- The main thread. -/
inductive Main
  /-- before the test of `while (estimating)`, r_ldt.cpp:431 -/
  | test
  /-- asleep in `ReportProgressInner`, r_ldt.cpp:390-391 -/
  | body
  /-- after the loop, about to collect the results, r_dc.cpp:103-113 -/
  | collect
  /-- leaving the function: the destructor of `f` waits for the worker -/
  | leaving (r : Ret)
  | left (r : Ret)
  deriving DecidableEq, Repr

/-- The state of both threads. -/
structure St where
  worker : Worker
  main : Main
  estimating : Bool
  /-- `SearchOptions.RequestCancel` -/
  cancel : Bool
  /-- `GetNumberOfEstimatedModels` -/
  done : ℕ
  /-- the number of seconds slept -/
  secs : ℕ
  /-- the counter `i` of `ReportProgress`, r_ldt.cpp:430 -/
  i : ℕ
  /-- `prePecentage`, in hundredths of a percent; `none`: -1 or not a number (every number differs from it) -/
  pre : Option ℕ
  /-- the lines that have been printed: the second, the number of searched models; the last first -/
  shown : List (ℕ × ℕ)
  deriving DecidableEq, Repr

/-- The state when `ReportProgress` is called. -/
def init (j : Job) : St :=
  ⟨.running j.models, .test, true, false, 0, 0, 0, none, []⟩

/-- A step of the worker.  `Start` looks at `RequestCancel` before each model (searcher.cpp:144, 166,
modelset.cpp:93) and returns if it is set; an exception is thrown when the models before it are through. -/
def workerStep (j : Job) (s : St) : St :=
  match s.worker with
  | .running 0 =>
    match j.ends with
    | .ok => { s with worker := .returned }
    | .throws => { s with worker := .failed }
  | .running (n + 1) =>
    if s.cancel then { s with worker := .returned }
    else { s with worker := .running n, done := s.done + 1 }
  | .returned => { s with worker := .finished, estimating := false }
  | .finished => s
  | .failed => s

/-- `std::round((c / all) * 10000)` in `ReportProgressInner`, r_ldt.cpp:409: the percentage in hundredths, halves
rounded upwards; `none`: not a number.  Exact arithmetic. -/
def percentage (c all : ℕ) : Option ℕ :=
  if all = 0 then none else some ((20000 * c + all) / (2 * all))

/-- `percentage != prePecentage`, r_ldt.cpp:410. -/
def differs : Option ℕ → Option ℕ → Bool
  | some a, some b => decide (a ≠ b)
  | _, _ => true

/-- The rest of `ReportProgressInner` after the check for an interruption, r_ldt.cpp:400-418;
`interval` is `ReportInterval`, `all` is `allCount`. -/
def report (interval : Int) (all : ℕ) (s : St) : St :=
  let s := { s with i := s.i + 1 }
  if interval = 0 ∨ (s.i : Int) ≤ interval then s
  else
    let s := { s with i := 0 }
    let p := percentage s.done all
    if differs p s.pre then
      { s with pre := p, shown := if 0 < interval then (s.secs, s.done) :: s.shown else s.shown }
    else s

/-- A step of the main thread, r_ldt.cpp:385-439 and the ends of `SearchDc`, `SearchSur`, `SearchVarma`. -/
def mainStep (interval : Int) (all : ℕ) (interrupt : Bool) (s : St) : St :=
  match s.main with
  | .test =>
    if s.estimating then { s with main := .body }
    else if s.cancel then { s with main := .leaving .cancelled }
    else { s with main := .collect }
  | .body =>
    let s := { s with secs := s.secs + 1 }
    if interrupt then { s with cancel := true, main := .leaving .interrupted }
    else { report interval all s with main := .test }
  | .collect => { s with main := .leaving (.results s.done) }
  | .leaving r =>
    match s.worker with
    | .finished => { s with main := .left r }
    | .failed => { s with main := .left r }
    | _ => s
  | .left _ => s

/-- An event of a schedule. -/
inductive Ev
  | worker
  | main (interrupt : Bool)
  deriving DecidableEq, Repr

/-- One event. -/
def step (j : Job) (interval : Int) (all : ℕ) (s : St) : Ev → St
  | .worker => workerStep j s
  | .main b => mainStep interval all b s

/-- The state after the first `t` events of a schedule (the function `ReportProgress` and the worker running
concurrently, r_dc.cpp:96-101). -/
def run (j : Job) (interval : Int) (all : ℕ) (σ : ℕ → Ev) : ℕ → St
  | 0 => init j
  | t + 1 => step j interval all (run j interval all σ t) (σ t)

end Rs
end LDT
