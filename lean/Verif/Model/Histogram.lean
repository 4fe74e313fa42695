import Verif.Model.Descriptive
import Verif.Model.Rank
/-!
# `src/ldt_statistics/distributions/histogram.cpp`, `RemoveNanVector_in` of `src/matrix/matrix.cpp`

A cell is `Val K` (`none` is NaN). Infinite values are not modelled.
-/
namespace LDT
namespace Hi
open Mx
open Arr (Val)
open De (put)

section
variable {K : Type} [Field K] [LinearOrder K]

/-- `x <= y` on doubles: false as soon as one side is NaN. -/
def vle : Val K → Val K → Bool
  | some a, some b => decide (a ≤ b)
  | _, _ => false

/-- The search for the bin, histogram.cpp:28-37, 41-50; `none`: the loop ended without `break`. -/
def findBin (last : Bool) (d : Val K) (axis : List (Val K)) : List Int → Outcome (Option Int)
  | [] => .ok none
  | p :: ps => do
    let a ← read axis p
    if (if last then vle d a else Arr.vlt d a) then pure (some p) else findBin last d axis ps

/-- `storageCount->Data[p] = storageCount->Data[p] + 1`, histogram.cpp:31, 39, 44, 52. -/
def bump (c : Mat Int) (p : Int) : Outcome (Mat Int) := do
  let v ← read c.mem p
  put c p (v + 1)

/-- One datum, histogram.cpp:24-54: the counts and `j`. -/
def fillStep (data axis : Mat (Val K)) (s : Mat Int × Int) (i : Int) : Outcome (Mat Int × Int) := do
  let d ← read data.mem i
  let r ← findBin (decide (i = data.length - 1)) d axis.mem (upTo s.2 axis.length)
  match r with
  | some p => do
    let c ← bump s.1 p
    pure (c, p)
  | none => do
    let c ← bump s.1 axis.length
    pure (c, s.2)

/-- `fill`, histogram.cpp:13-54. -/
def fill (data axis : Mat (Val K)) (counts : Mat Int) : Outcome (Mat Int) := do
  let c ← (upTo 0 (axis.length + 1)).foldlM (fun c i => put c i 0) counts
  let r ← (upTo 0 data.length).foldlM (fillStep data axis) (c, 0)
  pure r.1

/-- The loop body of `RemoveNanVector_in`, matrix.cpp:632-640, 642-650: the memory and `j`. -/
def removeStep (s : Mat (Val K) × Int) (i : Int) : Outcome (Mat (Val K) × Int) := do
  let d ← read s.1.mem i
  if d.isNone then pure s
  else do
    let m ← put s.1 s.2 d
    pure (m, s.2 + 1)

/-- `Matrix::RemoveNanVector_in`, matrix.cpp:627-660. -/
def removeNanIn (m : Mat (Val K)) : Outcome (Mat (Val K)) := do
  let r ← (upTo 0 m.length).foldlM removeStep (m, 0)
  pure (if m.cols > 1 then { r.1 with rows := 1, cols := r.2 } else { r.1 with rows := r.2, cols := 1 })

/-- `if (checkNAN) data->RemoveNanVector_in(true)`, histogram.cpp:62-63, 164-165. -/
def clean (checkNan : Bool) (data : Mat (Val K)) : Outcome (Mat (Val K)) :=
  if checkNan then removeNanIn data else .ok data

/-- `std::sort(values.Data, values.Data + L)`, histogram.cpp:76, 172; `values` shares its memory with `data`. -/
def sortData (data : Mat (Val K)) : Outcome (Mat (Val K)) := do
  let l ← sortRange true data.mem 0 data.length
  pure { data with data := some l }

/-- `ComputeV`, histogram.cpp:160-175: the number of data, the data and the counts. -/
def computeV (data axis : Mat (Val K)) (counts : Mat Int) (checkNan : Bool) : Outcome (Int × Mat (Val K) × Mat Int) := do
  let data ← clean checkNan data
  if data.length = 0 then .throws
  else do
    let data ← sortData data
    let c ← fill data axis counts
    pure (data.length, data, c)

/-- The axis, histogram.cpp:146-152; `eps` is `DBL_EPSILON`. -/
def setAxis (eps : K) (axis : Mat (Val K)) (bincount : Int) (mn step : Val K) : Outcome (Mat (Val K)) := do
  let a ← (upTo 0 bincount).foldlM (fun a i => put a i (vadd mn (vmul (vint i) step))) axis
  put a bincount (vadd (vadd mn (vmul (vint bincount) step)) (some eps))

/-- The width of the bins and their number, histogram.cpp:130-141. -/
def widths (axisLength bincount : Int) (mn mx step : Val K) : Outcome (Val K × Int) :=
  match step with
  | none => if bincount = 0 then .throws else .ok (vdiv (vsub mx mn) (vint bincount), bincount)
  | some s => if s = 0 then .throws else .ok (some s, axisLength - 1)

/-- `Compute(false, …)`, histogram.cpp:56-69, 121-157: the number of data, the axis, the counts (`data` has been cleaned by
the first call). -/
def compute (eps : K) (data axis : Mat (Val K)) (counts : Mat Int) (bincount : Int) (mn mx step : Val K) (checkNan : Bool) :
    Outcome (Int × Mat (Val K) × Mat Int) := do
  let data ← clean checkNan data
  if data.length = 0 then .throws
  else if bincount = 1 then do
    let a ← put axis 0 mn
    let a ← put a 1 mx
    let c ← put counts 0 0
    let c ← put c 1 data.length
    let c ← put c 2 0
    pure (data.length, a, c)
  else do
    let (step, bincount) ← widths axis.length bincount mn mx step
    if bincount = 0 then .throws
    else do
      let a ← setAxis eps axis bincount mn step
      let c ← fill data a counts
      pure (data.length, a, c)

end

section
variable {K : Type} [Field K] [LinearOrder K] [FloorRing K]

/-- `static_cast<Ti>(x)`: towards zero (no overflow is modelled). -/
def trunc (x : K) : Int := if 0 ≤ x then ⌊x⌋ else ⌈x⌉

/-- `std::max(a, b)`: `(a < b) ? b : a`. -/
def vmax (a b : Val K) : Val K := if Arr.vlt a b then b else a

/-- `std::min(a, b)`: `(b < a) ? b : a`. -/
def vmin (a b : Val K) : Val K := if Arr.vlt b a then b else a

/-- The number of bins, histogram.cpp:103-113; `cbrt` is `std::pow(L, 1.0 / 3.0)`. A division by zero gives an infinity or NaN,
which cannot be converted. -/
def binCount (eps cbrt : K) (bincount : Int) (mn mx : K) (iqr step : Val K) : Outcome Int :=
  match step with
  | none =>
    if bincount = 0 then
      if mx - mn < eps then .ok 1
      else match iqr with
        | none => .ub
        | some r => if r = 0 then .ub else .ok (trunc (cbrt * (mx - mn) / (2 * r)))
    else .ok bincount
  | some s => if s = 0 then .ub else .ok ⌈(mx - mn) / s⌉

/-- What the first call returns: the data (sorted), `bincount`, `min`, `max`, and the size of the axis. -/
structure Sizes (K : Type) where
  data : Mat (Val K)
  bincount : Int
  mn : K
  mx : K
  size : Int
  deriving DecidableEq

/-- `if (min == max)`, histogram.cpp:114-119. -/
def finish (data : Mat (Val K)) (bincount : Int) (mn mx : K) : Sizes K :=
  if mn = mx then ⟨data, bincount, mn - 1 / 100, mx + 1 / 100, bincount + 1⟩ else ⟨data, bincount, mn, mx, bincount + 1⟩

/-- The range and the number of bins that are not given, histogram.cpp:78-113. -/
def ranges (eps : K) (cbrt : Int → K) (data : Mat (Val K)) (bincount : Int) (mn mx : Val K) (mult : K) (step : Val K) :
    Outcome (Sizes K) := do
  let min0 ← De.quantileSorted data 0
  let q1 ← De.quantileSorted data (1 / 4)
  let q3 ← De.quantileSorted data (3 / 4)
  let max0 ← De.quantileSorted data 1
  let iqr := vsub q3 q1
  let mn := if mn.isNone then vmax min0 (vsub q1 (vmul iqr (some mult))) else mn
  let mx := if mx.isNone then vmin max0 (vadd q3 (vmul iqr (some mult))) else mx
  match mn, mx with
  | some a, some b => do
    let n ← binCount eps (cbrt data.length) bincount a b iqr step
    pure (finish data n a b)
  | _, _ => .throws

/-- `Compute(true, …)`, histogram.cpp:56-120. -/
def computeSize (eps : K) (cbrt : Int → K) (data : Mat (Val K)) (bincount : Int) (mn mx : Val K) (mult : K) (checkNan : Bool)
    (step : Val K) : Outcome (Sizes K) := do
  let data ← clean checkNan data
  if data.length = 0 then .throws
  else if vle mx mn then .throws
  else do
    let data ← sortData data
    if bincount ≤ 0 then ranges eps cbrt data bincount mn mx mult step
    else match mn, mx with
      | some a, some b => pure (finish data bincount a b)
      | _, _ => ranges eps cbrt data bincount mn mx mult step

end
end Hi
end LDT
