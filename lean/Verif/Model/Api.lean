import Verif.Model.Variable
import Verif.Model.NelderMead
import Mathlib.Algebra.Order.Field.Basic
/-!
# The C interface: `src/api.cpp`

Arithmetic is exact. `API_BEGIN` and `API_END`, include/api.h:18-38, turn an exception into the value that is returned after `API_END`; the message is not represented.
-/
namespace LDT
namespace Var
open Fq Arr Op
open Mx (read write upTo)

/-- What the caller sees after `LDT_VariableCombine`: the returned frequency (or null), `resultLength`, `result` and `maxDiff_perc`. -/
structure Combined (K : Type) where
  freq : Option Freq
  length : Int
  result : List (Val K)
  maxDiff : Dbl K
  deriving DecidableEq, Repr

section
variable {K : Type} [Field K] [LinearOrder K]

/-- `std::fabs((d1 - d2) / d1) * 100`, api.cpp:241-242, for two numbers; a division by zero gives an infinity or, if both are zero, NaN. -/
def change (d1 d2 : K) : Dbl K :=
  if d1 = 0 then (if d2 = 0 then .nan else .pinf) else .num (max ((d1 - d2) / d1) (-((d1 - d2) / d1)) * 100)

/-- `if (diff > maxDiff_perc) maxDiff_perc = diff`, api.cpp:240-245. -/
def raise (m : Dbl K) (d1 d2 : Val K) : Dbl K :=
  match d1, d2 with
  | some x, some y => if m.lt (change x y) then change x y else m
  | _, _ => m

/-- `isnan(d2) ? d1 : d2`, api.cpp:246-248. -/
def prefer (d1 d2 : Val K) : Val K := match d2 with | none => d1 | some y => some y

/-- The body of the loop over the rows, api.cpp:235-249; the state are `result` and `maxDiff_perc`. -/
def combineStep (t : Table K) (s : List (Val K) × Dbl K) (i : Int) : Outcome (List (Val K) × Dbl K) := do
  let d1 ← read t.data i
  let d2 ← read t.data (i + t.numObs)
  let r ← write s.1 i (prefer d1 d2)
  pure (r, raise s.2 d1 d2)

/-- `LDT_VariableCombine` without the handling of exceptions, api.cpp:217-255. -/
def combineBody (v1 v2 : Variable K) (buf : List (Val K)) (len : Int) : Outcome (Combined K) := do
  let a ← v1.trim
  let b ← v2.trim
  let t ← Table.make [a.1, b.1]
  if (t.numObs : Int) > len then pure ⟨none, t.numObs, buf, .num 0⟩
  else do
    let s ← (upTo 0 t.numObs).foldlM (combineStep t) (buf, .num 0)
    pure ⟨some t.start, t.numObs, s.1, s.2⟩

/-- `LDT_VariableCombine`, api.cpp:211-260: every exception is thrown before something other than `maxDiff_perc = 0` is written. -/
def combine (v1 v2 : Variable K) (buf : List (Val K)) (len : Int) : Outcome (Combined K) :=
  match combineBody v1 v2 buf len with
  | .throws => .ok ⟨none, len, buf, .num 0⟩
  | o => o

end
end Var
end LDT
