import Verif.Model.Sort
import Verif.Model.Correlation
/-!
# `Matrix::Sort`, `Rank` and Spearman's coefficient

`std::sort` is modelled by a stable sort of the values: for numbers the sorted sequence is unique, so the algorithm does not
matter; where the comparison is no strict weak ordering (a NaN beside two different numbers) the call is undefined behaviour.
-/
namespace LDT
namespace Mx
open Arr (Val)

variable {K : Type} [LinearOrder K]

/-- `std::less` and `std::greater` on doubles, matrix.cpp:849,854. -/
def cellLt (ascending : Bool) (a b : Val K) : Bool := if ascending then Arr.vlt a b else Arr.vlt b a

/-- `std::sort(&l[a], &l[a + n], …)`, matrix.cpp:849,854. -/
def sortRange (ascending : Bool) (l : List (Val K)) (a n : Int) : Outcome (List (Val K)) :=
  if 0 ≤ a ∧ 0 ≤ n ∧ a + n ≤ l.length then
    if Arr.swo ((l.drop a.toNat).take n.toNat) then
      .ok (l.take a.toNat ++ Arr.stableSort (cellLt ascending) ((l.drop a.toNat).take n.toNat) ++ l.drop (a + n).toNat)
    else .ub
  else .ub

/-- One column, matrix.cpp:848-849,853-854. -/
def sortColumn (ascending : Bool) (rows : Int) (d : Mat (Val K)) (j : Int) : Outcome (Mat (Val K)) := do
  let l ← sortRange ascending d.mem (rows * j) rows
  pure { d with data := some l }

/-- `Matrix::Sort`, matrix.cpp:837-857; the result is the storage. -/
def Mat.sort (m storage : Mat (Val K)) (ascending : Bool) : Outcome (Mat (Val K)) :=
  if storage.cols ≠ m.cols ∨ storage.rows ≠ m.rows then .throws
  else do
    let d ← m.copyTo00 storage
    (upTo 0 m.cols).foldlM (sortColumn ascending m.rows) d

end Mx

namespace Rk
open Mx
open Arr (Val)

variable {K : Type} [Field K] [LinearOrder K]

/-- `Rank::StorageSize` and `Rank::WorkSize`, statistics.cpp:21-24. -/
def size (rows cols : Int) : Int := rows * cols

/-- `w == v` on doubles. -/
def veq : Val K → Val K → Bool
  | some a, some b => decide (a = b)
  | _, _ => false

/-- The search for the first equal cell, statistics.cpp:56-62; `none`: the loop ended without `break`. -/
def firstEqual (l : List (Val K)) (r : Int) (v : Val K) : List Int → Outcome (Option Int)
  | [] => .ok none
  | k :: ks => do
    let w ← read l (r + k)
    if veq w v then pure (some k) else firstEqual l r v ks

/-- One cell, statistics.cpp:54-62. -/
def rankCell (m sorted : Mat (Val K)) (j : Int) (d : Mat (Val K)) (i : Int) : Outcome (Mat (Val K)) := do
  let v ← read m.mem (j * m.rows + i)
  let k ← firstEqual sorted.mem (j * m.rows) v (upTo 0 m.rows)
  match k with
  | none => pure d
  | some k => do
    let l ← write d.mem (j * m.rows + i) (vint k)
    pure { d with data := some l }

/-- `Rank::Calculate`, statistics.cpp:28-65, of an object made for `maxRows` and `maxCols`: `Result`. -/
def calculate (maxRows maxCols : Int) (m : Mat (Val K)) (work storage : List (Val K)) (ascending : Bool) : Outcome (Mat (Val K)) :=
  if size m.rows m.cols > size maxRows maxCols then .throws
  else do
    let sorted ← m.sort ⟨m.rows, m.cols, some work⟩ ascending
    (upTo 0 m.cols).foldlM (fun d j => (upTo 0 m.rows).foldlM (rankCell m sorted j) d) ⟨m.rows, m.cols, some storage⟩

end Rk

namespace Co
open Mx
open Arr (Val)

variable {K : Type} [Field K] [LinearOrder K]

/-- `Correlation::WorkSize` for Spearman's method, correlation.cpp:44-66. -/
def spearmanWorkSize (checkNan : Bool) (kind : Kind) (rows cols : Int) : Int :=
  if checkNan then max (Rk.size rows 2) (workSize false rows 2) + (rows * 2 + Rk.size rows 2 + storageSize false kind 2)
  else max (Rk.size rows cols) (workSize false rows cols) + Rk.size rows cols

/-- The size check for Spearman's method, correlation.cpp:201-206. -/
def spearmanTooSmall (checkNan : Bool) (kind : Kind) (maxRows maxCols rows cols : Int) : Prop :=
  spearmanWorkSize checkNan kind rows cols > spearmanWorkSize checkNan kind maxRows maxCols ∨
    storageSize checkNan kind cols > storageSize checkNan kind maxCols

instance (checkNan : Bool) (kind : Kind) (a b c d : Int) : Decidable (spearmanTooSmall checkNan kind a b c d) :=
  inferInstanceAs (Decidable (_ ∨ _))

/-- `Correlation<false, type, kSpearman>::Calculate`, correlation.cpp:194-228 and 181-190: `Result`, `Means`, `Variances` (the
inner object writes to the storage of the outer one). -/
def spearmanFull (vsqrt : Val K → Val K) (kind : Kind) (maxRows maxCols : Int) (m : Mat (Val K)) (work storage : List (Val K))
    (adjust setLower : Bool) : Outcome (Mat (Val K) × Mat (Val K) × Mat (Val K)) :=
  if spearmanTooSmall false kind maxRows maxCols m.rows m.cols then .throws
  else do
    let r ← Rk.calculate m.rows m.cols m (part work (Rk.size m.rows m.cols) (work.length - Rk.size m.rows m.cols))
      (part work 0 (Rk.size m.rows m.cols)) false
    calculateFull vsqrt kind m.rows m.cols r storage adjust setLower

/-- The coefficient of one pair of columns and the number of its complete rows, correlation.cpp:160-166. The parts of the work
array are separate lists. -/
def spearmanPair (vsqrt : Val K → Val K) (kind : Kind) (adjust : Bool) (m : Mat (Val K)) (work : List (Val K)) (i j : Int) :
    Outcome (Val K × Int) := do
  let ds ← Dataset.make m.rows 2 true true
  let two ← ds.calculate (fun v => v.isNone) m (some [i, j]) (part work 0 (m.rows * 2))
  let r ← Rk.calculate m.rows 2 two
    (part work (m.rows * 2 + storageSize false kind 2 + Rk.size m.rows 2) (work.length - (m.rows * 2 + storageSize false kind 2 + Rk.size m.rows 2)))
    (part work (m.rows * 2 + storageSize false kind 2) (Rk.size m.rows 2)) false
  let c ← calculateFull vsqrt kind m.rows 2 r (part work (m.rows * 2) (storageSize false kind 2)) adjust false
  let s ← read c.1.mem 2
  pure (s, two.rows)

/-- One cell, correlation.cpp:158-171. -/
def spearmanCell (vsqrt : Val K → Val K) (kind : Kind) (adjust setLower : Bool) (m : Mat (Val K)) (work : List (Val K)) (i : Int)
    (s : Res K) (j : Int) : Outcome (Res K) :=
  if i ≤ j then do
    let v ← spearmanPair vsqrt kind adjust m work i j
    let r ← s.result.set0 i j v.1
    let c ← symSetD s.counts i j (vint v.2)
    let r ← setLowerCell setLower r i j v.1
    pure ⟨r, c⟩
  else .ok s

/-- `Correlation<true, type, kSpearman>::Calculate`, correlation.cpp:194-228 and 146-179 (the constructor of
the temporary object makes a `Dataset` and so refuses a matrix without rows). -/
def spearmanNan (vsqrt : Val K → Val K) (kind : Kind) (maxRows maxCols : Int) (m : Mat (Val K)) (work storage : List (Val K))
    (adjust setLower : Bool) : Outcome (Res K) :=
  if m.rows ≤ 0 ∨ spearmanTooSmall true kind maxRows maxCols m.rows m.cols then .throws
  else (upTo 0 m.cols).foldlM (fun s i => (upTo 0 m.cols).foldlM (spearmanCell vsqrt kind adjust setLower m work i) s)
    ⟨⟨m.cols, m.cols, some (part storage 0 (m.cols * m.cols))⟩,
      ⟨m.cols, part storage (m.cols * m.cols) (symLength true m.cols)⟩⟩

end Co
end LDT
