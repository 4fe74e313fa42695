import Verif.Model.Array
import Verif.Model.Freq
/-!
# Variables: `include/variable.h`, `src/variable/variable.cpp`, `src/variable/variables.cpp`

`Variable<Tv>`.  Frequency objects are values (the `unique_ptr` ownership is not modelled; a null
`StartFrequency` is outside the model).
-/
namespace LDT
namespace Var
open Fq Arr Text Cal

variable {K : Type}

/-- `Variable<Tv>`, include/variable.h:18-33 (without `Fields`, which no function below reads). -/
structure Variable (K : Type) where
  name : Str
  data : List (Val K)
  start : Freq
  deriving DecidableEq, Repr

/-- `Variable::GetEndFrequency`, src/variable/variable.cpp:8-14: one step past the last observation. -/
def Variable.endFreq (v : Variable K) : Outcome Freq := v.start.next v.data.length

/-- `Variable::Trim` (with `Variable::GetRange`), src/variable/variable.cpp:189-208.  The returned pair is
the updated variable and the range. For an empty array `GetRange` reads `Data[0]`: undefined behaviour. -/
def Variable.trim (v : Variable K) : Outcome (Variable K × Range) := do
  let (r, _) ← getRangeM v.data
  if r.isNotValid then pure (v, r)
  else if r.count ≠ v.data.length then do
    let s ← v.start.next r.start
    pure ({ v with data := (v.data.take (r.stop + 1).toNat).drop r.start.toNat, start := s }, r)
  else pure (v, r)

/-! ## Tables -/

/-- `Variables<Tv>`, include/variable.h: the columns one after another in `data`. -/
structure Table (K : Type) where
  names : List Str
  start : Freq
  numObs : Nat
  data : List (Val K)
  deriving DecidableEq, Repr

/-- Body of the first loop of the constructor, src/variable/variables.cpp:17-36 (an exception is rethrown
as another exception). The state is `(StartFrequency, maxEnds)`. -/
def boundStep (st : Freq × Freq) (v : Variable K) : Outcome (Freq × Freq) := do
  let newer ← st.1.isNewerThan v.start
  let e ← v.endFreq
  let older ← st.2.isOlderThan e
  pure (if newer then v.start else st.1, if older then e else st.2)

/-- The first loop of the constructor. -/
def boundLoop : Freq × Freq → List (Variable K) → Outcome (Freq × Freq)
  | st, [] => .ok st
  | st, v :: vs => boundStep st v >>= fun st => boundLoop st vs

/-- The cells written for one variable, src/variable/variables.cpp:46-54 (`for (j = 0; j < start; …)`
writes nothing for a negative `start`). -/
def column (start maxEnd : Freq) (v : Variable K) : Outcome (List (Val K)) := do
  let s ← v.start.minus start
  let e ← v.endFreq
  let t ← maxEnd.minus e
  pure (List.replicate s.toNat none ++ v.data ++ List.replicate t.toNat none)

/-- The second loop: the columns one after another. -/
def columns (start maxEnd : Freq) : List (Variable K) → Outcome (List (Val K))
  | [] => .ok []
  | v :: vs => do
    let c ← column start maxEnd v
    let r ← columns start maxEnd vs
    pure (c ++ r)

/-- Writing the cells with `Data.at(i++) = …` into the zero-initialised array of `total` cells
(`std::vector::resize`): an exception past the end, zeros where nothing is written. -/
def writeAll [Zero K] (total : Nat) (cells : List (Val K)) : Outcome (List (Val K)) :=
  if cells.length ≤ total then .ok (cells ++ List.replicate (total - cells.length) (some 0)) else .throws

/-- `Variables::Variables`, src/variable/variables.cpp:7-56.  A negative `NumObs` makes `resize` throw. -/
def Table.make [Zero K] : List (Variable K) → Outcome (Table K)
  | [] => .throws
  | v0 :: vs => do
    let e0 ← v0.endFreq
    let (start, maxEnd) ← boundLoop (v0.start, e0) (v0 :: vs)
    let n ← maxEnd.minus start
    if n ≤ 0 then .throws
    else do
      let cells ← columns start maxEnd (v0 :: vs)
      let d ← writeAll (n.toNat * (v0 :: vs).length) cells
      pure { names := (v0 :: vs).map (·.name), start, numObs := n.toNat, data := d }

/-- Cell of row `r` and column `i` (`Data[NumObs * i + r]`, src/variable/variables.cpp:66). -/
def Table.cell (t : Table K) (i r : Nat) : Option (Val K) := t.data[t.numObs * i + r]?

/-! ## Conversions -/

/-- Result of a conversion: `result.Data`, `result.StartFrequency`. -/
structure Conv (K : Type) where
  data : List (Val K)
  start : Freq
  deriving DecidableEq, Repr

/-- `FrequencyWeekBased::Daily(day)`, src/frequency/f_week_based.cpp:52-55. -/
def dailyF (day : Int) : Freq := .week ⟨.daily, day, DRange.default, 1⟩

/-- `std::minmax_element` on a non-empty list of dates. -/
def minDate : Int → List Int → Int
  | a, [] => a
  | a, b :: l => minDate (min a b) l
/-- See `minDate`. -/
def maxDate : Int → List Int → Int
  | a, [] => a
  | a, b :: l => maxDate (max a b) l

/-- The loop over the calendar days of a date list, src/variable/variable.cpp:239-248; `n` days are left. -/
def dateLoop (dates : List Int) (data : List (Val K)) : Int → Nat → Outcome (List (Val K))
  | _, 0 => .ok []
  | day, n + 1 => do
    let i := indexOf dates day
    let x ← (if i = -1 then .ok none else at? data i.toNat)
    let r ← dateLoop dates data (day + 1) n
    pure (x :: r)

/-- The week loop, src/variable/variable.cpp:269-280: `k` weeks are left, `pend` data are used up. -/
def weekLoop (data : List (Val K)) (weekSize gap : Int) : Nat → Int → List (Val K)
  | 0, _ => []
  | k + 1, pend =>
    let stop := min (pend + weekSize) data.length
    (data.take stop.toNat).drop pend.toNat ++ (if k ≠ 0 then List.replicate gap.toNat none else []) ++
      weekLoop data weekSize gap k stop

/-- `Variable::ConvertTo_Daily`, src/variable/variable.cpp:223-286. -/
def Variable.toDaily (v : Variable K) : Outcome (Conv K) :=
  match v.start with
  | .listD f =>
    match f.items with
    | none => .ub
    | some [] => .ub
    | some (d0 :: ds) => do
      let lo := minDate d0 ds
      let hi := maxDate d0 ds
      let data ← dateLoop (d0 :: ds) v.data lo (hi - lo + 1).toNat
      pure ⟨data, dailyF lo⟩
  | .week f =>
    if f.cls = .dailyInWeek then
      let weekSize := f.range.getLength
      let numWeeks := (v.data.length + weekSize - 1) / weekSize   -- std::ceil of the quotient
      .ok ⟨weekLoop v.data weekSize (7 - weekSize) numWeeks.toNat 0, dailyF f.day⟩
    else .throws
  | _ => .throws

/-- `Variable::ConvertTo_MultiDaily`, src/variable/variable.cpp:289-322, for `k ≥ 0`; `agg = none` is the
null pointer. The start frequency is `FrequencyWeekBased::MultiDaily(start.mDay, k)`. -/
def Variable.toMultiDaily (v : Variable K) (k : Nat) (agg : Option (List (Val K) → Val K)) (fromEnd : Bool) :
    Outcome (Conv K) :=
  match v.start, agg with
  | .week f, some agg =>
    if f.cls = .daily then do
      let parts ← partitionEqual v.data k fromEnd
      let s ← WB.make f.day false none true k
      pure ⟨parts.map agg, .week s⟩
    else .throws
  | _, _ => .throws

/-- `Variable::ConvertTo_Weekly`, src/variable/variable.cpp:325-374. -/
def Variable.toWeekly (v : Variable K) (first : DOW) (agg : Option (List (Val K) → Val K)) :
    Outcome (Conv K) :=
  match v.start, agg with
  | .week f, some agg =>
    if f.cls = .daily then do
      let diff := DRange.distance first (dow f.day) true
      let parts ← (if diff = 0 then partitionEqual v.data 7 false
                   else partitionEqual (List.replicate diff.toNat none ++ v.data) 7 false)
      let s ← WB.make (f.day - diff) true none true 1
      pure ⟨parts.map agg, .week s⟩
    else .throws
  | _, _ => .throws

/-- `get_part`, src/variable/variable.cpp:376-384: the truncated quotient, in exact arithmetic. -/
def getPart (day x : Int) : Int :=
  ((dayOfYear day - 1) * x).tdiv (if isLeap (fromDayNumber day).y then 366 else 365) + 1

/-- Loop of `ConvertTo_XxYear`, src/variable/variable.cpp:406-418: `(current_part, partdata, result)`. -/
def yearLoop (agg : List (Val K) → Val K) (x : Int) :
    Int → List (Val K) → Int → List (Val K) → List (Val K) → List (Val K)
  | _, [], _, part, res => if part.length > 0 then res ++ [agg part] else res
  | day, a :: as, cur, part, res =>
    let p := getPart day x
    if p ≠ cur then yearLoop agg x (day + 1) as p [a] (res ++ [agg part])
    else yearLoop agg x (day + 1) as p (part ++ [a]) res

/-- `Variable::ConvertTo_XxYear`, src/variable/variable.cpp:386-433. -/
def Variable.toXxYear (v : Variable K) (x : Int) (agg : Option (List (Val K) → Val K)) :
    Outcome (Conv K) :=
  match v.start, agg with
  | .week f, some agg =>
    if f.cls = .daily then do
      let data := yearLoop agg x f.day v.data (getPart f.day x) [] []
      let s ← YB.make (fromDayNumber f.day).y x (getPart f.day x) 1
      pure ⟨data, .year s⟩
    else .throws
  | _, _ => .throws

end Var
end LDT
