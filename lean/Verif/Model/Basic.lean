/-!
# Outcomes

C++ exceptions (`throw`, `std::vector::at`, `std::stoi` …), undefined behaviour (out-of-bounds access,
null dereference, integer division by zero) and non-terminating loops are kept apart as distinct outcomes.
-/
namespace LDT

/-- Result of running a piece of C++ code (modelling convention, no single source line). -/
inductive Outcome (α : Type) where
  /-- normal termination -/
  | ok (a : α)
  /-- an exception leaves the function -/
  | throws
  /-- undefined behaviour is reached -/
  | ub
  /-- the loop never terminates -/
  | diverges
  deriving DecidableEq, Repr

namespace Outcome

/-- Sequencing: anything but `ok` stops the computation. -/
def bind {α β : Type} : Outcome α → (α → Outcome β) → Outcome β
  | ok a, f => f a
  | throws, _ => throws
  | ub, _ => ub
  | diverges, _ => diverges

instance : Monad Outcome where
  pure := Outcome.ok
  bind := Outcome.bind

@[simp] theorem ok_bind {α β : Type} (a : α) (f : α → Outcome β) : (Outcome.ok a >>= f) = f a := rfl
@[simp] theorem throws_bind {α β : Type} (f : α → Outcome β) : (Outcome.throws >>= f) = .throws := rfl
@[simp] theorem ub_bind {α β : Type} (f : α → Outcome β) : (Outcome.ub >>= f) = .ub := rfl
@[simp] theorem diverges_bind {α β : Type} (f : α → Outcome β) : (Outcome.diverges >>= f) = .diverges := rfl
@[simp] theorem pure_eq {α : Type} (a : α) : (pure a : Outcome α) = .ok a := rfl

/-- `std::optional`-like import: `none` becomes an exception. -/
def ofOption {α : Type} : Option α → Outcome α
  | some a => .ok a
  | none => .throws

@[simp] theorem ofOption_some {α : Type} (a : α) : ofOption (some a) = .ok a := rfl
@[simp] theorem ofOption_none {α : Type} : ofOption (none : Option α) = .throws := rfl

end Outcome
end LDT
