import Mathlib.Algebra.Order.Floor.Ring
import Mathlib.Algebra.Order.Field.Basic
import Verif.Model.Matrix
import Verif.Model.Sort
/-!
# Splitting data into a training and a test sample: `src/ldt_statistics/data_split.cpp`

The two samples are laid over one storage: `Sample0` at its start, `Sample1` behind `N0 * cols` cells.
`std::shuffle` is an arbitrary permutation given as an argument (the order it leaves in `workI`).
Numbers are exact; `NaN` labels (whose conversion to `int` is undefined) are not modelled.
-/
namespace LDT
namespace Split
open Mx

section Numbers
variable {K : Type} [Field K] [LinearOrder K] [FloorRing K]

/-- `std::round`: half away from zero. -/
def round (x : K) : Int := if 0 ≤ x then ⌊x + 1 / 2⌋ else -⌊-x + 1 / 2⌋

/-- `static_cast<Ti>` of a double: towards zero. -/
def trunc (x : K) : Int := if 0 ≤ x then ⌊x⌋ else -⌊-x⌋

/-- `N0`, data_split.cpp:34-35 and 141-142. -/
def trainSize (rows : Int) (ratio : K) (fix : Int) : Int :=
  if fix > 0 then fix else round ((rows : K) * ratio)

end Numbers

/-- The storage with `Sample0` and `Sample1` over it, data_split.cpp:37-38 and 150-151. -/
structure Samples (α : Type) where
  store : List α
  n0 : Int
  n1 : Int
  cols : Int
  deriving DecidableEq, Repr

variable {α : Type}

/-- `Sample0`. -/
def Samples.s0 (s : Samples α) : Mat α := ⟨s.n0, s.cols, some s.store⟩

/-- `Sample1`: its memory starts at `&storage[N0 * cols]`. -/
def Samples.s1 (s : Samples α) : Mat α := ⟨s.n1, s.cols, some (s.store.drop (s.n0 * s.cols).toNat)⟩

/-- `Sample0.SetRowFromRow0(i, data, k)`, data_split.cpp:115 and 164. -/
def Samples.put0 (s : Samples α) (i : Int) (data : Mat α) (k : Int) : Outcome (Samples α) := do
  let m ← s.s0.setRowFromRow0 i data k
  pure { s with store := m.mem }

/-- `Sample1.SetRowFromRow0(i, data, k)`, data_split.cpp:121 and 167. -/
def Samples.put1 (s : Samples α) (i : Int) (data : Mat α) (k : Int) : Outcome (Samples α) := do
  let m ← s.s1.setRowFromRow0 i data k
  pure { s with store := s.store.take (s.n0 * s.cols).toNat ++ m.mem }

/-- `DataSplit::Calculate`, data_split.cpp:132-152. -/
def calculate {K : Type} [Field K] [LinearOrder K] [FloorRing K] (data : Mat α) (storage : List α) (ratio : K)
    (fix : Int) : Outcome (Samples α) :=
  let n0 := trainSize data.rows ratio fix
  let n1 := data.rows - n0
  if n0 ≤ 0 ∨ n0 ≥ data.rows then .throws else .ok ⟨storage, n0, n1, data.cols⟩

/-- `DataSplit::Shuffle`, data_split.cpp:154-168; `workI` is the shuffled array of row numbers. -/
def shuffle (s : Samples α) (data : Mat α) (workI : List Int) : Outcome (Samples α) := do
  let s ← (upTo 0 s.n0).foldlM (fun s i => do
    let v ← read workI i
    s.put0 i data v) s
  (upTo 0 s.n1).foldlM (fun s i => do
    let v ← read workI (s.n0 + i)
    s.put1 i data v) s

/-! ## With a discrete dependent variable -/

/-- `Counts.at(j)++`, data_split.cpp:50-53 (`at` throws). -/
def countAt (counts : List Int) (j : Int) : Outcome (List Int) :=
  if 0 ≤ j then
    match counts[j.toNat]? with
    | some c => .ok (counts.set j.toNat (c + 1))
    | none => .throws
  else .throws

/-- `Rows.at(j)->push_back(i)`, data_split.cpp:68-71. -/
def pushAt (rows : List (List Int)) (j i : Int) : Outcome (List (List Int)) :=
  if 0 ≤ j then
    match rows[j.toNat]? with
    | some r => .ok (rows.set j.toNat (r ++ [i]))
    | none => .throws
  else .throws

/-- What `DataSplitDiscrete::Calculate` leaves in the object: samples, `Counts`, `Rows`,
`CountsSortedIndexes`, `mTrainRatio`. -/
structure Strata (α K : Type) where
  samples : Samples α
  counts : List Int
  rows : List (List Int)
  order : List Nat
  ratio : K

section Discrete
variable {K : Type} [Field K] [LinearOrder K] [FloorRing K]

/-- `DataSplitDiscrete::Calculate`, data_split.cpp:24-74 (the first column holds the labels). -/
def calculateD (numChoices : Nat) (data : Mat K) (storage : List K) (ratio : K) (fix : Int) :
    Outcome (Strata K K) := do
  let n0 := trainSize data.rows ratio fix
  let n1 := data.rows - n0
  let counts ← (upTo 0 data.rows).foldlM (fun cs i => do
    let y ← read data.mem i
    countAt cs (trunc y)) (List.replicate numChoices (0 : Int))
  if counts.any (fun c => c == 0) then .throws
  else do
    let rows ← (upTo 0 data.rows).foldlM (fun rs i => do
      let y ← read data.mem i
      pushAt rs (trunc y) i) (List.replicate numChoices ([] : List Int))
    let order ← Arr.sortIndexes (counts.map some) true
    pure ⟨⟨storage, n0, n1, data.cols⟩, counts, rows, order, ratio⟩

/-- The state of the loop of `Shuffle`: samples, `ii`, `jj`. -/
structure Fill (α : Type) where
  s : Samples α
  ii : Int
  jj : Int

/-- One turn of the inner loops, data_split.cpp:113-123: `v = Rowi->at(workI[i])` goes to the next free row of
`Sample0` or `Sample1`. -/
def place (data : Mat α) (rowi : List Int) (f : Fill α) (op : Bool × Int) : Outcome (Fill α) :=
  match rowi[op.2.toNat]? with
  | none => .throws
  | some v =>
    if op.1 then do
      let s ← f.s.put1 f.jj data v
      pure { f with s := s, jj := f.jj + 1 }
    else do
      let s ← f.s.put0 f.ii data v
      pure { f with s := s, ii := f.ii + 1 }

/-- `Mi0` of a class other than the last, data_split.cpp:101-106. -/
def stratumSize (ratio : K) (mi : Int) : Int :=
  let m := round (ratio * (mi : K))
  let m := if m ≥ mi then mi - 1 else m
  if m = 0 then 1 else m

/-- The loop over the classes, data_split.cpp:87-124.  `workI a` is the order in which `std::shuffle` leaves
`0, …, Counts[a] - 1`.  A negative `Mi0` makes the second inner loop read `workI[-1]`. -/
def classLoop (data : Mat K) (st : Strata K K) (n0 : Int) (workI : Nat → List Int) :
    List Nat → Int → Fill K → Outcome (Fill K)
  | [], _, f => .ok f
  | a :: rest, sumM, f => do
    let mi ← Outcome.ofOption st.counts[a]?
    let rowi ← Outcome.ofOption st.rows[a]?
    let (mi0, sumM) ←
      if rest.isEmpty then
        if n0 - sumM ≤ 0 then Outcome.throws
        else if n0 - sumM > mi then Outcome.throws
        else pure (n0 - sumM, sumM)
      else pure (stratumSize st.ratio mi, sumM + stratumSize st.ratio mi)
    if mi0 < 0 then Outcome.ub
    else do
      let f ← ((workI a).take mi0.toNat |>.map (fun w => (false, w))).foldlM (place data rowi) f
      let f ← ((workI a).drop mi0.toNat |>.map (fun w => (true, w))).foldlM (place data rowi) f
      classLoop data st n0 workI rest sumM f

/-- `DataSplitDiscrete::Shuffle`, data_split.cpp:76-125. -/
def shuffleD (data : Mat K) (st : Strata K K) (workI : Nat → List Int) : Outcome (Samples K) := do
  let f ← classLoop data st st.samples.n0 workI st.order 0 ⟨st.samples, 0, 0⟩
  pure f.s

end Discrete
end Split
end LDT
