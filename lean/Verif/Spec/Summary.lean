import Mathlib.Data.List.Basic
/-! # Specification of "the best K" (no reference to the model of the code) -/
namespace LDT
namespace Srch

/-- `best` is a list of the `k` best elements of `all` (of all of them if there are fewer), best first: what is
left out (`rest`) is never better than what is kept. -/
def IsTopK {α : Type} (better : α → α → Prop) (k : Nat) (all best : List α) : Prop :=
  ∃ rest, (best ++ rest).Perm all ∧ best.length = min k all.length ∧
    best.Pairwise (fun a b => ¬ better b a) ∧ ∀ a ∈ best, ∀ b ∈ rest, ¬ better b a

end Srch
end LDT
