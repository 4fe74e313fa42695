import Verif.Model.Calendar
/-!
# Frequencies: `include/frequency.h`, `src/frequency/*.cpp`

All integers (`Ti`) are unbounded; dates are day numbers.
-/
namespace LDT
namespace Fq
open Text Cal

/-- `FrequencyClass`, include/frequency.h:13-69. -/
inductive FClass where
  | crossSection | yearly | quarterly | monthly | xTimesAYear | multiYear | xTimesZYears
  | weekly | multiWeekly | daily | multiDaily | dailyInWeek
  | listString | listDate
  | hourly | minutely | secondly | xTimesADay
  deriving DecidableEq, Repr

/-! ## Days of the week -/

/-- `DayOfWeek`, include/frequency.h:165-173: 0 = Sunday … 6 = Saturday. -/
abbrev DOW := Fin 7

/-- `DayOfWeekRange`, include/frequency.h:222-280. -/
structure DRange where
  start : DOW
  stop : DOW
  deriving DecidableEq, Repr

/-- `DayOfWeekRange::GetLength`, src/frequency/f_base.cpp:230-237. -/
def DRange.getLength (r : DRange) : Int :=
  let start : Int := r.start.val
  let stop : Int := r.stop.val
  if stop > start then stop - start + 1 else 7 - (start - stop) + 1

/-- `DayOfWeekRange::Distance`, src/frequency/f_base.cpp:239-253. -/
def DRange.distance (start stop : DOW) (forward : Bool) : Int :=
  let s : Int := start.val
  let e : Int := stop.val
  if forward then (if s > e then 7 - s + e else e - s)
  else (if s ≥ e then s - e else 7 - s + e)

/-- `DayOfWeekRange::NextDayOfWeek`, src/frequency/f_base.cpp:293-299. -/
def nextDOW (v : DOW) : DOW := if h : v.val = 6 then 0 else ⟨v.val + 1, by omega⟩

/-- `DayOfWeekRange::PreviousDayOfWeek`, src/frequency/f_base.cpp:301-307. -/
def prevDOW (v : DOW) : DOW := if v.val = 0 then 6 else ⟨v.val - 1, by omega⟩

/-- The `while (true)` loop of `IsInRange`, src/frequency/f_base.cpp:258-264, with fuel
(out of fuel = the loop does not end). -/
def DRange.isInLoop (r : DRange) : Nat → DOW → Outcome Bool
  | 0, _ => .diverges
  | fuel + 1, v =>
    let v := nextDOW v
    if v = r.start then .ok false
    else if v = r.stop then .ok true
    else r.isInLoop fuel v

/-- `DayOfWeekRange::IsInRange`, src/frequency/f_base.cpp:255-265. -/
def DRange.isInRange (r : DRange) (v : DOW) : Outcome Bool :=
  if v = r.start ∨ v = r.stop ∨ r.getLength = 7 then .ok true
  else r.isInLoop 7 v

/-- Forward loop of `IsOutsideRange`, src/frequency/f_base.cpp:272-280. -/
def DRange.outLoopF (r : DRange) : Nat → DOW → Int → Outcome (Bool × Int)
  | 0, _, _ => .diverges
  | fuel + 1, v, step =>
    let v := nextDOW v
    let step := step + 1
    if v = r.start then .ok (true, step)
    else if v = r.stop then .ok (false, step)
    else r.outLoopF fuel v step

/-- Backward loop of `IsOutsideRange`, src/frequency/f_base.cpp:281-289. -/
def DRange.outLoopB (r : DRange) : Nat → DOW → Int → Outcome (Bool × Int)
  | 0, _, _ => .diverges
  | fuel + 1, v, step =>
    let v := prevDOW v
    let step := step - 1
    if v = r.stop then .ok (true, step)
    else if v = r.start then .ok (false, step)
    else r.outLoopB fuel v step

/-- `DayOfWeekRange::IsOutsideRange`, src/frequency/f_base.cpp:267-291; returns the result and the
output argument `step`. -/
def DRange.isOutsideRange (r : DRange) (v : DOW) (forward : Bool) : Outcome (Bool × Int) :=
  if v = r.start ∨ v = r.stop ∨ r.getLength = 7 then .ok (false, 0)
  else if forward then r.outLoopF 7 v 0
  else r.outLoopB 7 v 0

/-- `ToString(DayOfWeek, true)`, include/frequency.h:179-198. -/
def dowName (v : DOW) : Str :=
  match v.val with
  | 0 => "sun".toList
  | 1 => "mon".toList
  | 2 => "tue".toList
  | 3 => "wed".toList
  | 4 => "thu".toList
  | 5 => "fri".toList
  | _ => "sat".toList

/-- `FromString_DayOfWeek`, include/frequency.h:203-220. -/
def dowParse (s : Str) : Outcome DOW :=
  if startsWith "sun".toList s then .ok 0
  else if startsWith "mon".toList s then .ok 1
  else if startsWith "tue".toList s then .ok 2
  else if startsWith "wed".toList s then .ok 3
  else if startsWith "thu".toList s then .ok 4
  else if startsWith "fri".toList s then .ok 5
  else if startsWith "sat".toList s then .ok 6
  else .throws

/-- `DayOfWeekRange::ToString`, src/frequency/f_base.cpp:309-313. -/
def DRange.toStr (r : DRange) : Str := dowName r.start ++ "-".toList ++ dowName r.stop

/-- `DayOfWeekRange::Parse`, src/frequency/f_base.cpp:315-326. -/
def DRange.parse (s : Str) : Outcome DRange := do
  let parts := splitMultiple "-:".toList s
  let a ← at? parts 0
  let b ← at? parts 1
  let s ← dowParse a
  let e ← dowParse b
  pure { start := s, stop := e }

/-! ## Year-based -/

/-- `FrequencyYearBased`, include/frequency.h:497-585. -/
structure YB where
  cls : FClass
  year : Int
  partitionCount : Int
  position : Int
  yearMulti : Int
  deriving DecidableEq, Repr

/-- Class chosen by the constructor, src/frequency/f_year_based.cpp:29-43. -/
def YB.classOf (partitionCount yearMulti : Int) : FClass :=
  if yearMulti = 1 then
    if partitionCount = 1 then .yearly
    else if partitionCount = 4 then .quarterly
    else if partitionCount = 12 then .monthly
    else .xTimesAYear
  else
    if partitionCount = 1 then .multiYear else .xTimesZYears

/-- Constructor, src/frequency/f_year_based.cpp:11-44. -/
def YB.make (year partitionCount position yearMulti : Int) : Outcome YB :=
  if partitionCount ≤ 0 then .throws
  else if position ≤ 0 then .throws
  else if position > partitionCount then .throws
  else .ok { cls := YB.classOf partitionCount yearMulti, year, partitionCount, position, yearMulti }

/-- `FrequencyYearBased::Next`, src/frequency/f_year_based.cpp:79-103.  C++ `/` and `%` are `tdiv`,
`tmod`; a zero divisor is undefined behaviour. -/
def YB.next (f : YB) (steps : Int) : Outcome YB :=
  if steps = 0 then .ok f
  else if f.partitionCount = 0 then .ub
  else
    let absCount : Int := steps.natAbs
    let years := absCount.tdiv f.partitionCount
    let rem := absCount.tmod f.partitionCount
    if steps > 0 then
      if f.position + rem > f.partitionCount then
        .ok { f with year := f.year + (years + 1) * f.yearMulti
                     position := f.position + (rem - f.partitionCount) }
      else
        .ok { f with year := f.year + years * f.yearMulti, position := f.position + rem }
    else
      if f.position - rem ≤ 0 then
        .ok { f with year := f.year - (years + 1) * f.yearMulti
                     position := f.position - (rem - f.partitionCount) }
      else
        .ok { f with year := f.year - years * f.yearMulti, position := f.position - rem }

/-- `FrequencyYearBased::ToClassString`, src/frequency/f_year_based.cpp:209-228. -/
def YB.classStr (f : YB) : Outcome Str :=
  match f.cls with
  | .yearly => .ok "y".toList
  | .multiYear => .ok ("z".toList ++ Text.toStr f.yearMulti)
  | .quarterly => .ok "q".toList
  | .monthly => .ok "m".toList
  | .xTimesAYear => .ok ("y".toList ++ Text.toStr f.partitionCount)
  | .xTimesZYears => .ok ("x".toList ++ Text.toStr f.partitionCount ++ "z".toList ++ Text.toStr f.yearMulti)
  | _ => .throws

/-- `FrequencyYearBased::ToString`, src/frequency/f_year_based.cpp:191-207. -/
def YB.toStr (f : YB) : Outcome Str :=
  match f.cls with
  | .yearly | .multiYear => .ok (Text.toStr f.year)
  | .quarterly => .ok (Text.toStr f.year ++ "Q".toList ++ Text.toStr f.position)
  | .monthly => .ok (Text.toStr f.year ++ "M".toList ++ Text.toStr f.position)
  | .xTimesAYear | .xTimesZYears => .ok (Text.toStr f.year ++ ":".toList ++ Text.toStr f.position)
  | _ => .throws

/-- Comparison after the class check, src/frequency/f_year_based.cpp:107-119. -/
def YB.compareRaw (f g : YB) : Int :=
  if f.year < g.year then -1
  else if f.year > g.year then 1
  else if f.position < g.position then -1
  else if f.position > g.position then 1
  else 0

/-- Difference after the class check, src/frequency/f_year_based.cpp:124-137. -/
def YB.minusRaw (f g : YB) : Outcome Int :=
  if f.yearMulti = 0 then .ub
  else if YB.compareRaw f g > 0 then
    let a := f.partitionCount
    .ok (a * ((f.year - g.year).tdiv f.yearMulti - 1) + f.position + (a - g.position))
  else
    let a := g.partitionCount
    .ok (-(a * ((g.year - f.year).tdiv f.yearMulti - 1) + g.position + (a - f.position)))

/-- `FrequencyYearBased::Parse0`, src/frequency/f_year_based.cpp:140-189. -/
def YB.parse0 (str classStr : Str) (fc : FClass) : Outcome YB := do
  let parts := splitMultiple "QqMm:".toList str
  let year ← stoi (← at? parts 0)
  match fc with
  | .yearly => pure { cls := fc, year, partitionCount := 1, position := 1, yearMulti := 1 }
  | .quarterly =>
    let pos ← stoi (← at? parts 1)
    pure { cls := fc, year, partitionCount := 4, position := pos, yearMulti := 1 }
  | .monthly =>
    let pos ← stoi (← at? parts 1)
    pure { cls := fc, year, partitionCount := 12, position := pos, yearMulti := 1 }
  | _ =>
    let tail ← substr classStr 1
    let parts0 := splitMultiple "z".toList tail
    match fc with
    | .xTimesAYear =>
      let pos ← stoi (← at? parts 1)
      let pc ← stoi (← at? parts0 0)
      pure { cls := fc, year, partitionCount := pc, position := pos, yearMulti := 1 }
    | .multiYear =>
      let ym ← stoi (← at? parts0 0)
      pure { cls := fc, year, partitionCount := 1, position := 1, yearMulti := ym }
    | .xTimesZYears =>
      let pos ← stoi (← at? parts 1)
      let pc ← stoi (← at? parts0 0)
      let ym ← stoi (← at? parts0 1)
      pure { cls := fc, year, partitionCount := pc, position := pos, yearMulti := ym }
    | _ => .throws

/-! ## Week-based -/

/-- `FrequencyWeekBased`, include/frequency.h:588-680. `mForwardSteps` is write-only (nothing in the
repo reads it) and is not kept. `day` is the day number of `mDay`. -/
structure WB where
  cls : FClass
  day : Int
  range : DRange
  multi : Int
  deriving DecidableEq, Repr

/-- The default range Monday–Friday, include/frequency.h:234-235. -/
def DRange.default : DRange := { start := 1, stop := 5 }

/-- Constructor, src/frequency/f_week_based.cpp:11-40. -/
def WB.make (day : Int) (isWeek : Bool) (range : Option DRange) (forward : Bool) (multi : Int) :
    Outcome WB :=
  let cls : FClass :=
    if isWeek then (if multi = 1 then .weekly else .multiWeekly)
    else if range.isSome then .dailyInWeek
    else if multi = 1 then .daily else .multiDaily
  let mRange : DRange := if isWeek then DRange.default else range.getD DRange.default
  if (cls = .weekly ∨ cls = .daily) ∧ range.isSome then .throws
  else if range.isSome then do
    let (out, step) ← mRange.isOutsideRange (dow day) forward
    pure { cls, day := if out then day + step else day, range := mRange, multi }
  else .ok { cls, day, range := mRange, multi }

/-- One forward step of the daily-in-week loop, src/frequency/f_week_based.cpp:86-90. -/
def WB.stepF (r : DRange) (day : Int) : Outcome Int := do
  let day := day + 1
  let (out, step) ← r.isOutsideRange (dow day) true
  pure (if out then day + step else day)

/-- One backward step of the daily-in-week loop, src/frequency/f_week_based.cpp:94-98. -/
def WB.stepB (r : DRange) (day : Int) : Outcome Int := do
  let day := day - 1
  let (out, step) ← r.isOutsideRange (dow day) false
  pure (if out then day - (-step) else day)

/-- Repeats a step `n` times (the `for` loops at src/frequency/f_week_based.cpp:85,93). -/
def iter {α : Type} (f : α → Outcome α) : Nat → α → Outcome α
  | 0, a => .ok a
  | n + 1, a => f a >>= iter f n

/-- `FrequencyWeekBased::Next`, src/frequency/f_week_based.cpp:72-107. -/
def WB.next (f : WB) (steps : Int) : Outcome WB :=
  match f.cls with
  | .weekly | .multiWeekly => .ok { f with day := f.day + 7 * steps * f.multi }
  | .daily | .multiDaily => .ok { f with day := f.day + steps * f.multi }
  | .dailyInWeek =>
    if steps > 0 then do
      let d ← iter (WB.stepF f.range) steps.toNat f.day
      pure { f with day := d }
    else do
      let d ← iter (WB.stepB f.range) (-steps).toNat f.day
      pure { f with day := d }
  | _ => .throws

/-- `FrequencyWeekBased::ToClassString`, src/frequency/f_week_based.cpp:205-220. -/
def WB.classStr (f : WB) : Outcome Str :=
  match f.cls with
  | .weekly => .ok "w".toList
  | .multiWeekly => .ok ("w".toList ++ Text.toStr f.multi)
  | .daily => .ok "d".toList
  | .multiDaily => .ok ("d".toList ++ Text.toStr f.multi)
  | .dailyInWeek => .ok ("i:".toList ++ f.range.toStr)
  | _ => .throws

/-- `FrequencyWeekBased::ToString`, src/frequency/f_week_based.cpp:201-203. -/
def WB.toStr (f : WB) : Str := toIso f.day

/-- Comparison after the class check, src/frequency/f_week_based.cpp:111-117. -/
def WB.compareRaw (f g : WB) : Int :=
  if f.day < g.day then -1 else if f.day > g.day then 1 else 0

/-- Difference after the class check, src/frequency/f_week_based.cpp:124-159. -/
def WB.minusRaw (f g : WB) : Outcome Int :=
  match f.cls with
  | .weekly => .ok ((f.day - g.day).tdiv 7)
  | .multiWeekly => if 7 * f.multi = 0 then .ub else .ok ((f.day - g.day).tdiv (7 * f.multi))
  | .daily => .ok (f.day - g.day)
  | .dailyInWeek =>
    let c0 := DRange.distance (dow f.day) f.range.stop true
    let c1 := DRange.distance (dow g.day) f.range.stop true
    let t0 := f.day + c0
    let t1 := g.day + c1
    let span := t0 - t1
    let td := (span * f.range.getLength).tdiv 7
    .ok (td - c0 + c1)
  | .multiDaily =>
    if f.multi ≠ g.multi then .throws
    else if f.multi = 0 then .ub
    else .ok ((f.day - g.day).tdiv f.multi)
  | _ => .throws

/-- `FrequencyWeekBased::Parse0`, src/frequency/f_week_based.cpp:162-199. -/
def WB.parse0 (str classStr : Str) (fc : FClass) : Outcome WB := do
  let day ← fromIso str
  match fc with
  | .weekly | .daily => pure { cls := fc, day, range := DRange.default, multi := 1 }
  | .multiWeekly | .multiDaily =>
    let m ← stoi (← substr classStr 1)
    pure { cls := fc, day, range := DRange.default, multi := m }
  | .dailyInWeek =>
    let parts := splitMultiple ":".toList classStr
    let r ← DRange.parse (← at? parts 1)
    pure { cls := fc, day, range := r, multi := 1 }
  | _ => .throws

/-! ## Day-based -/

/-- `FrequencyDayBased`, include/frequency.h:683-751. -/
structure DB where
  cls : FClass
  day : WB
  partitionCount : Int
  position : Int
  deriving DecidableEq, Repr

/-- Class chosen by the constructor, src/frequency/f_day_based.cpp:28-35. -/
def DB.classOf (partitionCount : Int) : FClass :=
  if partitionCount = 24 then .hourly
  else if partitionCount = 1440 then .minutely
  else if partitionCount = 86400 then .secondly
  else .xTimesADay

/-- Constructor, src/frequency/f_day_based.cpp:11-36. -/
def DB.make (day : WB) (partitionCount position : Int) : Outcome DB :=
  if partitionCount ≤ 0 then .throws
  else if position ≤ 0 then .throws
  else if position > partitionCount then .throws
  else .ok { cls := DB.classOf partitionCount, day, partitionCount, position }

/-- `FrequencyDayBased::Next`, src/frequency/f_day_based.cpp:62-84. -/
def DB.next (f : DB) (steps : Int) : Outcome DB :=
  if f.partitionCount = 0 then .ub
  else
    let absCount : Int := steps.natAbs
    let days := absCount.tdiv f.partitionCount
    let rem := absCount.tmod f.partitionCount
    if steps > 0 then
      if f.position + rem > f.partitionCount then do
        let d ← f.day.next (days + 1)
        pure { f with day := d, position := f.position + (rem - f.partitionCount) }
      else do
        let d ← f.day.next days
        pure { f with day := d, position := f.position + rem }
    else
      if f.position - rem ≤ 0 then do
        let d ← f.day.next (-days - 1)
        pure { f with day := d, position := f.position - (rem - f.partitionCount) }
      else do
        let d ← f.day.next (-days)
        pure { f with day := d, position := f.position - rem }

/-- `FrequencyDayBased::ToClassString`, src/frequency/f_day_based.cpp:176-192. -/
def DB.classStr (f : DB) : Outcome Str :=
  match f.cls with
  | .hourly => do pure ("ho|".toList ++ (← f.day.classStr))
  | .minutely => do pure ("mi|".toList ++ (← f.day.classStr))
  | .secondly => do pure ("se|".toList ++ (← f.day.classStr))
  | .xTimesADay => do pure ("da".toList ++ Text.toStr f.partitionCount ++ "|".toList ++ (← f.day.classStr))
  | _ => .throws

/-- `FrequencyDayBased::ToString`, src/frequency/f_day_based.cpp:162-174. -/
def DB.toStr (f : DB) : Outcome Str :=
  match f.cls with
  | .hourly | .minutely | .secondly | .xTimesADay =>
    .ok (f.day.toStr ++ ":".toList ++ Text.toStr f.position)
  | _ => .throws

/-! ## Lists -/

/-- `FrequencyList<T>`, include/frequency.h:432-491.  `items = none` is the null pointer. -/
structure FL (α : Type) where
  value : α
  items : Option (List α)
  outIndex : Int
  deriving DecidableEq, Repr

/-- Constructor, src/frequency/f_list.cpp:14-25. -/
def FL.make {α : Type} (value : α) (items : Option (List α)) : FL α := { value, items, outIndex := 0 }

/-- `FrequencyList::Next`, src/frequency/f_list.cpp:36-51 (`GetIndex`: 27-29). -/
def FL.next {α : Type} [DecidableEq α] (f : FL α) (steps : Int) : Outcome (FL α) :=
  match f.items with
  | none => .ub
  | some items =>
    let size : Int := items.length
    let i0 : Int := if f.outIndex = 0 then indexOf items f.value else -1
    let i : Int :=
      if i0 = -1 then (if f.outIndex > 0 then f.outIndex + (size - 1) else f.outIndex) else i0
    let j := i + steps
    if j < size ∧ j ≥ 0 then do
      let v ← at? items j.toNat
      pure { f with value := v, outIndex := 0 }
    else .ok { f with outIndex := if j ≥ size then j - size + 1 else j }

/-- Comparison after the class check, src/frequency/f_list.cpp:55-62. -/
def FL.compareRaw {α : Type} [DecidableEq α] (f g : FL α) : Outcome Int :=
  match f.items, g.items with
  | some l1, some l2 =>
    let i1 := indexOf l1 f.value
    let i2 := indexOf l2 g.value
    .ok (if i1 > i2 then 1 else if i1 < i2 then -1 else 0)
  | _, _ => .ub

/-- Place of a list frequency as used in `Minus`, src/frequency/f_list.cpp:70-77. The C++ code
computes in `size_t`; the wrapped difference converted back to `int` is the integer difference. -/
def FL.place {α : Type} [DecidableEq α] (l : List α) (f : FL α) : Int :=
  if f.outIndex = 0 then indexOf l f.value
  else if f.outIndex > 0 then f.outIndex + l.length - 1 else f.outIndex

/-- Difference after the class check, src/frequency/f_list.cpp:67-77. -/
def FL.minusRaw {α : Type} [DecidableEq α] (f g : FL α) : Outcome Int :=
  match f.items, g.items with
  | some l1, some l2 => .ok (FL.place l1 f - FL.place l2 g)
  | _, _ => .ub

/-- `FrequencyList::ToString`, src/frequency/f_list.cpp:122-131. -/
def FL.toStr {α : Type} (pr : α → Str) (f : FL α) : Str :=
  if f.outIndex ≠ 0 then "out_item:".toList ++ Text.toStr f.outIndex else pr f.value

/-- `FrequencyList::ToClassString(true)`, src/frequency/f_list.cpp:134-157. -/
def FL.classStrDetails {α : Type} (tag : Str) (pr : α → Str) (f : FL α) : Outcome Str :=
  match f.items with
  | none => .throws
  | some l => .ok (tag ++ ":".toList ++ join ";".toList (l.map pr))

/-- The `out_item:` part of `ParseList`, src/frequency/f_list.cpp:81-95. -/
def FL.parseOut (str : Str) : Outcome Int :=
  if startsWith "out_item:".toList str then (do stoi (← substr str 9)) else .ok 0

/-- The item texts in the class string, src/frequency/f_list.cpp:160-178. -/
def FL.parseItems (classStr : Str) : Outcome (List Str) :=
  if classStr.length > 2 then (do pure (splitMultiple ";".toList (← substr classStr 3))) else .ok []

/-- `FrequencyList<std::string>::ParseList` with an empty `items` vector, src/frequency/f_list.cpp:81-95,160-170.
`out_item:` texts leave `mValue` empty. -/
def FL.parseListS (str classStr : Str) : Outcome (FL Str) := do
  let out ← FL.parseOut str
  let items ← FL.parseItems classStr
  pure { value := if out = 0 then str else [], items := some items, outIndex := out }

/-- Parses every element, stops at the first failure. -/
def mapO {α β : Type} (f : α → Outcome β) : List α → Outcome (List β)
  | [] => .ok []
  | a :: as => do
    let b ← f a
    let bs ← mapO f as
    pure (b :: bs)

/-- `FrequencyList<date>::ParseList` with an empty `items` vector, src/frequency/f_list.cpp:81-108,171-178.
`not_a_date_time`, the value of a default-constructed date, is represented by `0`. -/
def FL.parseListD (str classStr : Str) : Outcome (FL Int) := do
  let out ← FL.parseOut str
  let v ← (if out = 0 then fromIso str else .ok 0)
  let texts ← FL.parseItems classStr
  let items ← mapO fromIso texts
  pure { value := v, items := some items, outIndex := out }

/-! ## The polymorphic interface -/

/-- A `Frequency` object: the concrete subclasses. -/
inductive Freq where
  /-- `FrequencyCrossSection`, include/frequency.h:401-430; src/frequency/f_cross_section.cpp:11-14. -/
  | cs (position : Int)
  | year (f : YB)
  | week (f : WB)
  | day (f : DB)
  | listS (f : FL Str)
  | listD (f : FL Int)
  deriving DecidableEq, Repr

/-- `mClass`. -/
def Freq.cls : Freq → FClass
  | cs _ => .crossSection
  | year f => f.cls
  | week f => f.cls
  | day f => f.cls
  | listS _ => .listString
  | listD _ => .listDate

/-- `ToClassString(false)` of every subclass (virtual dispatch). -/
def Freq.classStr : Freq → Outcome Str
  | cs _ => .ok "cs".toList
  | year f => f.classStr
  | week f => f.classStr
  | day f => f.classStr
  | listS _ => .ok "Ls".toList
  | listD _ => .ok "Ld".toList

/-- `ToString` of every subclass (virtual dispatch). -/
def Freq.toStr : Freq → Outcome Str
  | cs p => .ok (Text.toStr p)
  | year f => f.toStr
  | week f => .ok f.toStr
  | day f => f.toStr
  | listS f => .ok (FL.toStr id f)
  | listD f => .ok (FL.toStr toIso f)

/-- `Next` of every subclass (virtual dispatch); cross-section: src/frequency/f_cross_section.cpp:20. -/
def Freq.next (f : Freq) (steps : Int) : Outcome Freq :=
  match f with
  | cs p => .ok (cs (p + steps))
  | year f => do pure (year (← f.next steps))
  | week f => do pure (week (← f.next steps))
  | day f => do pure (day (← f.next steps))
  | listS f => do pure (listS (← f.next steps))
  | listD f => do pure (listD (← f.next steps))

/-- `Frequency::CheckClassEquality`, src/frequency/f_base.cpp:11-21. -/
def checkClassEquality (f g : Freq) : Outcome Unit :=
  if f.cls ≠ g.cls then .throws
  else do
    let a ← f.classStr
    let b ← g.classStr
    if areEqualI a b then pure () else .throws

/-- `FrequencyDayBased::CompareTo` after the class check, src/frequency/f_day_based.cpp:88-99;
`mDay.CompareTo` repeats the class check on the inner day. -/
def DB.compareRaw (f g : DB) : Outcome Int := do
  let _ ← checkClassEquality (.week f.day) (.week g.day)
  let com := WB.compareRaw f.day g.day
  if com ≠ 0 then pure com
  else if f.position < g.position then pure (-1)
  else if f.position > g.position then pure 1
  else pure 0

/-- `FrequencyDayBased::Minus` after the class check, src/frequency/f_day_based.cpp:104-120. -/
def DB.minusRaw (f g : DB) : Outcome Int := do
  let c ← DB.compareRaw f g
  if c > 0 then
    let ddiff ← WB.minusRaw f.day g.day
    let a := f.partitionCount
    pure (a * (ddiff - 1) + f.position + (a - g.position))
  else
    let ddiff ← WB.minusRaw g.day f.day
    let a := g.partitionCount
    pure (-(a * (ddiff - 1) + g.position + (a - f.position)))

/-- `CompareTo` of every subclass; cross-section: src/frequency/f_cross_section.cpp:22-30. -/
def Freq.compareTo (f g : Freq) : Outcome Int := do
  let _ ← checkClassEquality f g
  match f, g with
  | cs p, cs q => pure (if p > q then 1 else if p < q then -1 else 0)
  | year f, year g => pure (YB.compareRaw f g)
  | week f, week g => pure (WB.compareRaw f g)
  | day f, day g => DB.compareRaw f g
  | listS f, listS g => FL.compareRaw f g
  | listD f, listD g => FL.compareRaw f g
  | _, _ => .throws

/-- `Minus` of every subclass; cross-section: src/frequency/f_cross_section.cpp:32-36. -/
def Freq.minus (f g : Freq) : Outcome Int := do
  let _ ← checkClassEquality f g
  match f, g with
  | cs p, cs q => pure (p - q)
  | year f, year g => YB.minusRaw f g
  | week f, week g => WB.minusRaw f g
  | day f, day g => DB.minusRaw f g
  | listS f, listS g => FL.minusRaw f g
  | listD f, listD g => FL.minusRaw f g
  | _, _ => .throws

/-- `IsNewerThan`, `IsOlderThan`, …: src/frequency/f_base.cpp:23-46. -/
def Freq.isNewerThan (f g : Freq) : Outcome Bool := do pure ((← f.compareTo g) > 0)
/-- src/frequency/f_base.cpp:38-41. -/
def Freq.isOlderThan (f g : Freq) : Outcome Bool := do pure ((← f.compareTo g) < 0)
/-- src/frequency/f_base.cpp:23-26. -/
def Freq.isEqualTo (f g : Freq) : Outcome Bool := do pure ((← f.compareTo g) = 0)

/-- `Frequency::GetClass`, src/frequency/f_base.cpp:48-98. -/
def getClass (c : Str) : Outcome FClass :=
  if areEqualI c "cs".toList then .ok .crossSection
  else if startsWith "ho".toList c then .ok .hourly
  else if startsWith "mi".toList c then .ok .minutely
  else if startsWith "se".toList c then .ok .secondly
  else if startsWith "da".toList c then .ok .xTimesADay
  else if areEqualI c "y".toList then .ok .yearly
  else if startsWith "z".toList c then .ok .multiYear
  else if areEqualI c "q".toList then .ok .quarterly
  else if areEqualI c "m".toList then .ok .monthly
  else if startsWith "y".toList c then .ok .xTimesAYear
  else if startsWith "x".toList c then .ok .xTimesZYears
  else if areEqualI c "w".toList then .ok .weekly
  else if startsWith "w".toList c then .ok .multiWeekly
  else if areEqualI c "d".toList then .ok .daily
  else if startsWith "d".toList c then .ok .multiDaily
  else if startsWith "i".toList c then .ok .dailyInWeek
  else if startsWith "Ls".toList c then .ok .listString
  else if startsWith "Ld".toList c then .ok .listDate
  else .throws

/-- `FrequencyDayBased::Parse0`, src/frequency/f_day_based.cpp:123-160. -/
def DB.parse0 (str classStr : Str) (fc : FClass) : Outcome DB := do
  let parts1 := splitMultiple ":".toList str
  let pos ← stoi (← at? parts1 1)
  let parts2 := splitMultiple "|".toList classStr
  let c2 ← at? parts2 1
  let fc2 ← getClass c2
  let day ← WB.parse0 (← at? parts1 0) c2 fc2
  match fc with
  | .hourly => pure { cls := fc, day, partitionCount := 24, position := pos }
  | .minutely => pure { cls := fc, day, partitionCount := 1440, position := pos }
  | .secondly => pure { cls := fc, day, partitionCount := 86400, position := pos }
  | .xTimesADay =>
    let pc ← stoi (← substr (← at? parts2 0) 2)
    pure { cls := fc, day, partitionCount := pc, position := pos }
  | _ => .throws

/-- `Frequency::Parse`, src/frequency/f_base.cpp:100-159. List classes get no item list (null pointer). -/
def parse (str classStr : Str) : Outcome Freq := do
  let fc ← getClass classStr
  match fc with
  | .crossSection => do pure (.cs (← stoi str))
  | .yearly | .monthly | .quarterly | .xTimesAYear | .multiYear | .xTimesZYears =>
    do pure (.year (← YB.parse0 str classStr fc))
  | .weekly | .daily | .dailyInWeek | .multiWeekly | .multiDaily =>
    do pure (.week (← WB.parse0 str classStr fc))
  | .listString => do
    let f ← FL.parseListS str classStr
    pure (.listS { f with items := none })
  | .listDate => do
    let f ← FL.parseListD str "Ld".toList
    pure (.listD { f with items := none })
  | .hourly | .minutely | .secondly | .xTimesADay =>
    do pure (.day (← DB.parse0 str classStr fc))

end Fq
end LDT
