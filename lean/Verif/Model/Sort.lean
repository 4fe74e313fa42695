import Verif.Model.Array
/-!
# `SortIndexes`, include/helpers.h:121-161

`std::stable_sort` is modelled by insertion sort; by the C++ standard its result is determined by the
comparison (a strict weak ordering), so the algorithm does not matter.  When the comparison is not a strict
weak ordering the C++ call is undefined behaviour.
-/
namespace LDT
namespace Arr

/-- Insert `a`, which came before all of the list, into a sorted list (stable). -/
def insStable {α : Type} (lt : α → α → Bool) (a : α) : List α → List α
  | [] => [a]
  | b :: l => if lt b a then b :: insStable lt a l else a :: b :: l

/-- `std::stable_sort(first, last, lt)`. -/
def stableSort {α : Type} (lt : α → α → Bool) : List α → List α
  | [] => []
  | a :: l => insStable lt a (stableSort lt l)

variable {K : Type} [LinearOrder K]

/-- `x < y` on doubles: false as soon as one side is NaN. -/
def vlt : Val K → Val K → Bool
  | some a, some b => decide (a < b)
  | _, _ => false

/-- The lambdas of `SortIndexes`, include/helpers.h:137-142: indices are compared through the data. -/
def indexLt (v : List (Val K)) (ascending : Bool) (i j : Nat) : Bool :=
  let a := (v[i]?).getD none
  let b := (v[j]?).getD none
  if ascending then vlt a b else vlt b a

/-- `<` on the values is a strict weak ordering: there is no NaN, or no two different numbers. -/
def swo (v : List (Val K)) : Bool :=
  v.all (fun x => x.isSome) || v.all (fun x => v.all (fun y => !vlt x y))

/-- `SortIndexes`, include/helpers.h:131-161 (both overloads). -/
def sortIndexes (v : List (Val K)) (ascending : Bool) : Outcome (List Nat) :=
  if swo v then .ok (stableSort (indexLt v ascending) (List.range v.length)) else .ub

end Arr
end LDT
