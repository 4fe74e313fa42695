import Verif.Model.Basic
import Mathlib.Algebra.Field.Basic
import Mathlib.Order.Defs.LinearOrder
/-!
# Arrays: `include/array.h`, `src/array.cpp`

A `double` that may be missing is `Option K`: `none` is NaN, `some x` a finite number of the field `K`
(rounding and infinities as inputs are not modelled; an operation whose result is not finite gives `none`).
-/
namespace LDT
namespace Arr

/-- A `double`: `none` = NaN (see the module comment). -/
abbrev Val (K : Type) := Option K

/-- `IndexRange`, include/array.h:14-39. -/
structure Range where
  start : Int
  stop : Int
  deriving DecidableEq, Repr

/-- `IndexRange(start, end)`, src/array.cpp:13-21. -/
def Range.make (s e : Int) : Range := if s > e ∨ s < 0 ∨ e < 0 then ⟨1, 0⟩ else ⟨s, e⟩

/-- `IndexRange::IsNotValid`, src/array.cpp:23. -/
def Range.isNotValid (r : Range) : Bool := r.start > r.stop

/-- `IndexRange::Count`, src/array.cpp:25. -/
def Range.count (r : Range) : Int := r.stop - r.start + 1

variable {K : Type}

/-- The loop `for (start = 0; …)`, src/array.cpp:34-36 and 59-61: first index that is not NaN, `length`
when there is none.  (Written as recursion on the remaining data.) -/
def scanStart : List (Val K) → Nat
  | [] => 0
  | some _ :: _ => 0
  | none :: r => scanStart r + 1

/-- The loop `for (end = length; …)`, src/array.cpp:38-42 and 63-67, started at `end`. -/
def scanEnd (d : List (Val K)) : Nat → Nat
  | 0 => 0
  | e + 1 =>
    match d[e]? with
    | some (some _) => e
    | _ => scanEnd d e

/-- `Array::GetRange(data, length)`, src/array.cpp:29-50. -/
def getRange (d : List (Val K)) : Range := Range.make (scanStart d) (scanEnd d d.length)

/-- The loop `for (i = start; i <= end; i++)`, src/array.cpp:72-76; `n` iterations are left.
Reading outside the array is undefined behaviour. -/
def scanMissing (d : List (Val K)) : Nat → Nat → Outcome Bool
  | _, 0 => .ok false
  | i, n + 1 =>
    match d[i]? with
    | none => .ub
    | some none => .ok true
    | some (some _) => scanMissing d (i + 1) n

/-- `Array::GetRange(data, length, hasMissing)`, src/array.cpp:52-84; the second component is
`hasMissing`. -/
def getRangeM (d : List (Val K)) : Outcome (Range × Bool) :=
  let s := scanStart d
  let e := scanEnd d d.length
  if s > e then .ok (Range.make s e, false)
  else do
    let m ← scanMissing d s (e - s + 1)
    pure (Range.make s e, m)

section Interpolate
variable [Field K]

/-- Local state of `Interpolate`, src/array.cpp:95-97 and the array being updated. -/
structure IState (K : Type) where
  data : List (Val K)
  count : Nat
  inMissing : Bool
  first : Val K
  length : Nat

/-- The inner loop `for (p = 1; p < length; p++)`, src/array.cpp:107-110: `p` from `p0`, `n` iterations;
the stored value is `data[i] - p * step`. -/
def fillBack (i : Nat) (v step : K) : Nat → Nat → List (Val K) → List (Val K)
  | _, 0, d => d
  | p, n + 1, d => fillBack i v step (p + 1) n (d.set (i - p) (some (v - (p : K) * step)))

/-- One iteration of the loop of `Interpolate`, src/array.cpp:100-117. -/
def interStep (s : IState K) (i : Nat) : IState K :=
  let cur : Val K := (s.data[i]?).getD none
  let s : IState K := if cur.isNone then { s with length := s.length + 1 } else s
  let s : IState K :=
    match cur with
    | some last =>
      if s.inMissing then
        -- `first` is not NaN here; a NaN would make every filled value NaN
        match s.first with
        | some first =>
          let step := (last - first) / (s.length : K)
          { s with
            data := fillBack i last step 1 (s.length - 1) s.data
            count := s.count + (s.length - 1)
            length := 1
            inMissing := false }
        | none =>
          { s with count := s.count + (s.length - 1), length := 1, inMissing := false }
      else s
    | none => s
  if cur.isNone ∧ s.inMissing = false then
    { s with first := (s.data[i - 1]?).getD none, inMissing := true }
  else s

/-- The loop of `Interpolate`, src/array.cpp:99: `n` iterations from index `i`. -/
def interLoop : Nat → Nat → IState K → IState K
  | _, 0, s => s
  | i, n + 1, s => interLoop (i + 1) n (interStep s i)

/-- `Array::Interpolate`, src/array.cpp:86-124: returns the new data, the range and the count. -/
def interpolate (d : List (Val K)) : Outcome (List (Val K) × Range × Nat) := do
  let (r, hasMissing) ← getRangeM d
  if hasMissing then
    let s := interLoop r.start.toNat r.count.toNat
      { data := d, count := 0, inMissing := false, first := none, length := 1 }
    pure (s.data, r, s.count)
  else pure (d, r, 0)

end Interpolate

section Partition
variable {α : Type}

/-- Backward loop of `PartitionEqual`, src/array.cpp:132-136, with fuel; `result` is built from the front
(`insert(result.begin(), …)`). -/
def partBack (d : List α) (size : Nat) : Nat → Int → List (List α) → Outcome (List (List α))
  | 0, _, _ => .diverges
  | fuel + 1, i, acc =>
    if i ≥ 0 then
      let start := max (i - size) 0
      partBack d size fuel (i - size) (((d.take i.toNat).drop start.toNat) :: acc)
    else .ok acc

/-- Forward loop of `PartitionEqual`, src/array.cpp:138-141, with fuel (results in reverse order). -/
def partFwd (d : List α) (size : Nat) : Nat → Nat → List (List α) → Outcome (List (List α))
  | 0, _, _ => .diverges
  | fuel + 1, i, acc =>
    if i < d.length then
      let stop := min (i + size) d.length
      partFwd d size fuel (i + size) (acc ++ [(d.take stop).drop i])
    else .ok acc

/-- `Array::PartitionEqual`, src/array.cpp:126-143, for sizes `≥ 0` (a negative size is undefined
behaviour).  The fuel is one more than any terminating run needs. -/
def partitionEqual (d : List α) (size : Nat) (fromEnd : Bool) : Outcome (List (List α)) :=
  if fromEnd then partBack d size (d.length + 2) d.length []
  else partFwd d size (d.length + 2) 0 []

end Partition

/-! ## Descriptive statistics -/

/-- A possibly infinite result. -/
inductive Ext (K : Type) where
  | nan
  | posInf
  | negInf
  | val (x : K)
  deriving DecidableEq, Repr

section MinMax
variable [LinearOrder K]

/-- `d < min` where `min` may be `INFINITY`; false for a NaN `d` (IEEE comparison). -/
def ltMin (d : Val K) (m : Ext K) : Bool :=
  match d, m with
  | none, _ => false
  | some _, .posInf => true
  | some x, .val y => x < y
  | some _, _ => false

/-- `d > max` where `max` may be `-INFINITY`; false for a NaN `d`. -/
def gtMax (d : Val K) (m : Ext K) : Bool :=
  match d, m with
  | none, _ => false
  | some _, .negInf => true
  | some x, .val y => x > y
  | some _, _ => false

/-- The number assigned to `min`/`max`. -/
def toExt : Val K → Ext K
  | none => .nan
  | some x => .val x

/-- Loop of `MinIndex`/`MaxIndex` (and of `Min`/`Max`, which do not keep the index),
include/array.h:435-445,458-470,482-492,506-518, from index `i`. -/
def extremeLoop (better : Val K → Ext K → Bool) (skipNAN : Bool) : Nat → List (Val K) → Ext K × Int → Ext K × Int
  | _, [], s => s
  | i, x :: r, s =>
    if skipNAN ∧ x.isNone then extremeLoop better skipNAN (i + 1) r s
    else if better x s.1 then extremeLoop better skipNAN (i + 1) r (toExt x, i)
    else extremeLoop better skipNAN (i + 1) r s

/-- `MinIndex<skipNAN>`, include/array.h:449-472; the first component is also what `Min<skipNAN>`
(428-447) returns. -/
def minIndex (skipNAN : Bool) (d : List (Val K)) : Ext K × Int :=
  if d.length = 0 then (.nan, -1) else extremeLoop ltMin skipNAN 0 d (.posInf, -1)

/-- `MaxIndex<skipNAN>`, include/array.h:496-520; the first component is also what `Max<skipNAN>`
(474-494) returns. -/
def maxIndex (skipNAN : Bool) (d : List (Val K)) : Ext K × Int :=
  if d.length = 0 then (.nan, -1) else extremeLoop gtMax skipNAN 0 d (.negInf, -1)

end MinMax

/-- Backward loop of `Last`, include/array.h:746-752. -/
def lastLoop (d : List (Val K)) : Nat → Val K
  | 0 => none
  | i + 1 =>
    match d[i]? with
    | some (some x) => some x
    | _ => lastLoop d i

/-- `Last<skipNAN>`, include/array.h:736-757. -/
def last (skipNAN : Bool) (d : List (Val K)) : Val K :=
  if d.length = 0 then none
  else if skipNAN then lastLoop d d.length
  else (d[d.length - 1]?).getD none

/-- Forward loop of `First`, include/array.h:769-775. -/
def firstLoop : List (Val K) → Val K
  | [] => none
  | some x :: _ => some x
  | none :: r => firstLoop r

/-- `First<skipNAN>`, include/array.h:759-780. -/
def first (skipNAN : Bool) (d : List (Val K)) : Val K :=
  if d.length = 0 then none
  else if skipNAN then firstLoop d
  else (d[0]?).getD none

/-! ## Moments -/

section Moments
variable [Field K] [DecidableEq K]

/-- The accumulated mean and central sums `mean, M2, M3, M4`. -/
structure Mom (K : Type) where
  mean : K
  m2 : K
  m3 : K
  m4 : K
  deriving DecidableEq, Repr

/-- `update_single_pass_combine<4>`, include/array.h:522-560: the new mean, M2, M3, M4 (the new weight is
`w1 + w2`).  A zero total weight gives numbers that are not finite: `none`.  (For fewer moments the
instantiations compute the same mean, M2, M3 and leave the others alone.) -/
def combine (w1 : K) (a : Mom K) (w2 : K) (b : Mom K) : Option (Mom K) :=
  let temp := w1 + w2
  if temp = 0 then none
  else
    let delta := b.mean - a.mean
    let delta2 := delta * delta
    some
      { mean := (w1 * a.mean + w2 * b.mean) / temp
        m4 := a.m4 + b.m4 +
          delta2 * delta2 * w1 * w2 * (w1 * w1 - w1 * w2 + w2 * w2) / (temp * temp * temp) +
          6 * delta2 * (w1 * w1 * b.m2 + w2 * w2 * a.m2) / (temp * temp) +
          4 * delta * (w1 * b.m3 - w2 * a.m3) / temp
        m3 := a.m3 + b.m3 +
          delta * delta2 * w1 * w2 * (w1 - w2) / (temp * temp) +
          3 * delta * (w1 * b.m2 - w2 * a.m2) / temp
        m2 := a.m2 + b.m2 + delta2 * w1 * w2 / temp }

/-- `update_single_pass<isWeighted, 4>`, include/array.h:562-594, with `w` already replaced by 1 when not
weighted: the new mean, M2, M3, M4 (the new weight is `sumW + w`). -/
def update (x w sumW : K) (a : Mom K) : Option (Mom K) :=
  let delta := x - a.mean
  let delta2 := delta * delta
  let temp := sumW + w
  if temp = 0 then none
  else
    some
      { mean := (sumW * a.mean + w * x) / temp
        m4 := a.m4 + (delta2 * delta2 * sumW * w * (sumW * sumW - sumW * w + w * w) / (temp * temp * temp) +
          6 * delta2 * (w * w * a.m2) / (temp * temp) + 4 * delta * (-w * a.m3) / temp)
        m3 := a.m3 + (delta * delta2 * sumW * w * (sumW - w) / (temp * temp) + 3 * delta * (-w * a.m2) / temp)
        m2 := a.m2 + delta2 * sumW * w / temp }

/-- One pass over the data, include/array.h:634-650: `sumW` and the moments (`none`: not finite). -/
def momentsLoop (isWeighted skipNAN : Bool) : List (Val K × K) → K × Option (Mom K) → K × Option (Mom K)
  | [], s => s
  | (x, w) :: r, (sumW, a) =>
    let w := if isWeighted then w else 1
    match x with
    | none =>
      if skipNAN then momentsLoop isWeighted skipNAN r (sumW, a)
      else momentsLoop isWeighted skipNAN r (sumW + w, none)
    | some x => momentsLoop isWeighted skipNAN r (sumW + w, a.bind (update x w sumW))

/-- Sum of weights and moments at the end of `Moments`, include/array.h:634-650. -/
def momentsSum (isWeighted skipNAN : Bool) (d : List (Val K × K)) : K × Option (Mom K) :=
  momentsLoop isWeighted skipNAN d (0, some ⟨0, 0, 0, 0⟩)

/-- `Mean<isWeighted, skipNAN>`, include/array.h:681-686: `Moments<…, 1>` with null pointers for
variance, skewness and kurtosis, which are written when the weights sum to zero (652-656). -/
def mean (isWeighted skipNAN : Bool) (d : List (Val K × K)) : Outcome (Val K) :=
  let s := momentsSum isWeighted skipNAN d
  if s.1 = 0 then .ub else .ok (s.2.map (·.mean))

/-- `Variance<isWeighted, skipNAN>`, include/array.h:696-701: as `Mean`, with a variance pointer; the
skewness and kurtosis pointers are still null. -/
def variance (isWeighted skipNAN : Bool) (d : List (Val K × K)) : Outcome (Val K) :=
  let s := momentsSum isWeighted skipNAN d
  if s.1 = 0 then .ub else .ok (s.2.map (fun a => a.m2 / s.1))

end Moments

end Arr
end LDT
