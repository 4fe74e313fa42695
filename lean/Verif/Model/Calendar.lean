import Verif.Model.Text
/-!
# `boost::gregorian::date`

LDT keeps dates in `boost::gregorian::date`, an external type whose value is a (Julian) day number.
The repo uses it at src/frequency/f_week_based.cpp:35-39,76-95,126-149,170,202 and
src/variable/variable.cpp:241-436.  The functions below follow Boost.DateTime's
`gregorian_calendar.ipp` (`day_number`, `from_day_number`, `day_of_week`, `is_leap_year`,
`end_of_month_day`), `date_parsing.hpp` (`parse_undelimited_date`) and `date_formatting.hpp`
(`ymd_to_string_8`).  Boost is not in `/repo`; this is the assumed behaviour of the library.
Dates outside the years 1400–9999 are rejected by Boost's constructors; date arithmetic is modelled on
unbounded day numbers.
-/
namespace LDT
namespace Cal

/-- Year, month, day (`boost::gregorian::date::ymd_type`). -/
structure YMD where
  y : Int
  m : Int
  d : Int
  deriving DecidableEq, Repr

/-- `gregorian_calendar_base::day_number`. -/
def dayNumber (v : YMD) : Int :=
  let a := (14 - v.m) / 12
  let y := v.y + 4800 - a
  let m := v.m + 12 * a - 3
  v.d + (153 * m + 2) / 5 + 365 * y + y / 4 - y / 100 + y / 400 - 32045

/-- `gregorian_calendar_base::from_day_number`. -/
def fromDayNumber (n : Int) : YMD :=
  let a := n + 32044
  let b := (4 * a + 3) / 146097
  let c := a - (146097 * b) / 4
  let d := (4 * c + 3) / 1461
  let e := c - (1461 * d) / 4
  let m := (5 * e + 2) / 153
  { d := e - (153 * m + 2) / 5 + 1
    m := m + 3 - 12 * (m / 10)
    y := 100 * b + d - 4800 + m / 10 }

/-- `gregorian_calendar_base::day_of_week(ymd)`: 0 = Sunday. -/
def dayOfWeekYMD (v : YMD) : Int :=
  let a := (14 - v.m) / 12
  let y := v.y - a
  let m := v.m + 12 * a - 2
  (v.d + y + y / 4 - y / 100 + y / 400 + (31 * m) / 12) % 7

/-- `date::day_of_week()` of a day number, as used by `(DayOfWeek)(Ti)day.day_of_week()`
(src/frequency/f_week_based.cpp:33,86,94,137,139). -/
def dow (n : Int) : Fin 7 := ⟨((n + 1) % 7).toNat, by omega⟩

/-- `gregorian_calendar_base::is_leap_year`. -/
def isLeap (y : Int) : Bool := y % 4 = 0 && (y % 100 ≠ 0 || y % 400 = 0)

/-- `gregorian_calendar_base::end_of_month_day`. -/
def endOfMonth (y m : Int) : Int :=
  if m = 2 then (if isLeap y then 29 else 28)
  else if m = 4 ∨ m = 6 ∨ m = 9 ∨ m = 11 then 30
  else 31

/-- The checks of the `date(year, month, day)` constructor. -/
def validYMD (v : YMD) : Bool :=
  1400 ≤ v.y && v.y ≤ 9999 && 1 ≤ v.m && v.m ≤ 12 && 1 ≤ v.d && v.d ≤ endOfMonth v.y v.m

/-- `date::day_of_year()`. -/
def dayOfYear (n : Int) : Int :=
  n - dayNumber { y := (fromDayNumber n).y, m := 1, d := 1 } + 1

open Text in
/-- Two-digit, zero padded (`setw(2) << setfill('0')`). -/
def pad2 (i : Int) : Str := [digit ((i.toNat / 10) % 10), digit (i.toNat % 10)]

open Text in
/-- `boost::gregorian::to_iso_string(date)` = `YYYYMMDD`. -/
def toIso (n : Int) : Str :=
  let v := fromDayNumber n
  toStr v.y ++ pad2 v.m ++ pad2 v.d

open Text in
/-- `boost::gregorian::date_from_iso_string(str)`: cuts the text in pieces of 4, 2 and 2 characters,
converts each to an unsigned number and calls the checked `date` constructor; further characters are
ignored.  Simplification: texts shorter than 8 characters and pieces with signs are treated as errors. -/
def fromIso (s : Str) : Outcome Int :=
  let ys := s.take 4
  let ms := (s.drop 4).take 2
  let ds := (s.drop 6).take 2
  if s.length < 8 ∨ ¬ (ys.all isDig ∧ ms.all isDig ∧ ds.all isDig) then .throws
  else
    let v : YMD := { y := digVal ys, m := digVal ms, d := digVal ds }
    if validYMD v then .ok (dayNumber v) else .throws

end Cal
end LDT
