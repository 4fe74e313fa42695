import Verif.Model.Api
/-!
# Specification: combining two series
-/
namespace LDT
namespace Var
open Fq Arr Op

variable {K : Type}

/-- The series has the number `x` at date `g`. -/
def ValueAt (v : Variable K) (g : Freq) (x : K) : Prop := ∃ j : ℕ, v.data[j]? = some (some x) ∧ v.start.next j = .ok g

/-- Row `r` of the result has date `g`. -/
def Dated (start : Freq) (r : ℕ) (g : Freq) : Prop := start.next r = .ok g

/-- `out` and `start`, with `n` periods, combine the series: every date of an observation is a row; the first and the last row have an observation; a row has the number of
the second series, else that of the first, and is missing without both. -/
structure Combines (v1 v2 : Variable K) (start : Freq) (n : ℕ) (out : List (Val K)) : Prop where
  covers : ∀ g x, ValueAt v1 g x ∨ ValueAt v2 g x → ∃ r, r < n ∧ Dated start r g
  first : ∃ x, ValueAt v1 start x ∨ ValueAt v2 start x
  last : ∃ g x, 0 < n ∧ Dated start (n - 1) g ∧ (ValueAt v1 g x ∨ ValueAt v2 g x)
  second : ∀ r g y, r < n → Dated start r g → ValueAt v2 g y → out[r]? = some (some y)
  other : ∀ r g x, r < n → Dated start r g → ValueAt v1 g x → (∀ y, ¬ ValueAt v2 g y) → out[r]? = some (some x)
  neither : ∀ r g, r < n → Dated start r g → (∀ x, ¬ ValueAt v1 g x) → (∀ y, ¬ ValueAt v2 g y) → out[r]? = some none

/-- `m` is the largest change, in percent of the number of the first series, over the dates at which both series have a number (0 without such dates; dates at which both
numbers are 0 do not count). -/
def LargestChange [Field K] [LinearOrder K] (v1 v2 : Variable K) (m : Dbl K) : Prop :=
  (∀ g x y, ValueAt v1 g x → ValueAt v2 g y → x ≠ 0 ∨ y ≠ 0 → (change x y).le m = true) ∧
  (m = .num 0 ∨ ∃ g x y, ValueAt v1 g x ∧ ValueAt v2 g y ∧ (x ≠ 0 ∨ y ≠ 0) ∧ m = change x y)

end Var
end LDT
