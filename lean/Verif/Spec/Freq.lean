import Verif.Model.Freq
import Mathlib.Data.Int.Interval
/-!
# Specification vocabulary for frequencies

Nothing here uses the carry arithmetic, loops or closed formulas of the model.
-/
namespace LDT
namespace Fq
open Text Cal

/-- Going forward from the start of the range, weekday `v` is met not later than the end of the range. -/
def InWeek (r : DRange) (v : DOW) : Prop :=
  ((v.val : Int) - r.start.val) % 7 ≤ ((r.stop.val : Int) - r.start.val) % 7

instance (r : DRange) (v : DOW) : Decidable (InWeek r v) := by unfold InWeek; infer_instance

/-- The date with day number `d` is a working day of the week range `r`. -/
def WorkDay (r : DRange) (d : Int) : Prop := InWeek r (dow d)

instance (r : DRange) (d : Int) : Decidable (WorkDay r d) := by unfold WorkDay; infer_instance

/-- Number of working days in the half-open interval of dates `(a, b]`. -/
def workDaysIn (r : DRange) (a b : Int) : Nat := ((Finset.Ioc a b).filter (WorkDay r)).card

/-- Year-based frequencies a user can build (with a positive year multiple). -/
def YB.WF (f : YB) : Prop :=
  f.cls = YB.classOf f.partitionCount f.yearMulti ∧ 0 < f.yearMulti ∧
  1 ≤ f.position ∧ f.position ≤ f.partitionCount

/-- Week-based frequencies a user can build (with a positive multiple). -/
def WB.WF (f : WB) : Prop :=
  (f.cls = .weekly ∧ f.multi = 1) ∨ (f.cls = .multiWeekly ∧ 0 < f.multi) ∨
  (f.cls = .daily ∧ f.multi = 1) ∨ (f.cls = .multiDaily ∧ 0 < f.multi) ∨
  (f.cls = .dailyInWeek ∧ WorkDay f.range f.day)

/-- Day-based frequencies a user can build. -/
def DB.WF (f : DB) : Prop :=
  f.cls = DB.classOf f.partitionCount ∧ f.day.WF ∧ 1 ≤ f.position ∧ f.position ≤ f.partitionCount

/-- List frequencies: the list exists, has no duplicates, and the value is one of its items unless
the frequency has left the list. -/
def FL.WF {α : Type} (f : FL α) : Prop :=
  ∃ l, f.items = some l ∧ l.Nodup ∧ (f.outIndex = 0 → f.value ∈ l)

/-- Well-formed frequencies. -/
def Freq.WF : Freq → Prop
  | .cs _ => True
  | .year f => f.WF
  | .week f => f.WF
  | .day f => f.WF
  | .listS f => f.WF
  | .listD f => f.WF

/-- Two list frequencies denote the same place: same list, same out-of-list index, and the same item
when inside the list (the stored item is meaningless outside the list, include/frequency.h:444-446). -/
def FL.Same {α : Type} (f g : FL α) : Prop :=
  f.items = g.items ∧ f.outIndex = g.outIndex ∧ (f.outIndex = 0 → f.value = g.value)

/-- The same period; for all classes but the lists this is plain equality of the objects. -/
def Freq.Same : Freq → Freq → Prop
  | .listS f, .listS g => FL.Same f g
  | .listD f, .listD g => FL.Same f g
  | f, g => f = g

/-- Not one of the two list classes. -/
def Freq.NotList : Freq → Prop
  | .listS _ | .listD _ => False
  | _ => True

/-- The (possibly inner) daily-in-week range is not a single day. -/
def WB.NotSingle (f : WB) : Prop := f.cls = .dailyInWeek → f.range.start ≠ f.range.stop

/-- The (possibly inner) daily-in-week range is not a single day. -/
def Freq.NotSingle : Freq → Prop
  | .week f => f.NotSingle
  | .day f => f.day.NotSingle
  | _ => True

/-- A history of advances. -/
def advances (f : Freq) : List Int → Outcome Freq
  | [] => .ok f
  | n :: ns => f.next n >>= fun g => advances g ns

end Fq
end LDT
