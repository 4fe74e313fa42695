import Verif.Model.Matrix
/-!
# Time-series data sets: `DatasetTs`, `src/matrix/dataset.cpp:64-190`

`byRow` (template argument): variables are in the rows and time is in the columns.
-/
namespace LDT
namespace Mx
open Arr

variable {K : Type}

/-- One series of the data: row `k` (`Get0(k, t)`, matrix.cpp:434-465) or column `k` (matrix.cpp:420-431),
read as an array.  Simplification: `GetRangeRow` reads its cells one by one with the same loops as
`Array::GetRange`; here they are read first and `Array::GetRange` is applied. -/
def seriesAt (byRow : Bool) (m : Mat (Val K)) (k : Int) : Outcome (List (Val K)) :=
  (upTo 0 (if byRow then m.cols else m.rows)).mapM (fun t => if byRow then m.get0 k t else m.get0 t k)

/-- Members of `DatasetTs` used below, include/matrix_utils.h:52-98. -/
structure DsTs (K : Type) where
  hasNaN : Bool
  select : Bool
  storageSize : Int
  pData : Mat (Val K)
  ranges : List Range
  hasMissing : Bool

/-- Constructor, dataset.cpp:68-82 (`Tv` has NaN). -/
def DsTs.make (rows cols : Int) (hasNaN select : Bool) : Outcome (DsTs K) :=
  if cols ≤ 0 ∨ rows ≤ 0 then .throws else .ok ⟨hasNaN, select, rows * cols, ⟨0, 0, none⟩, [], false⟩

/-- `DatasetTs::Data`, dataset.cpp:84-117. -/
def DsTs.setData (byRow : Bool) (d : DsTs K) (m : Mat (Val K)) : Outcome (DsTs K) :=
  if d.hasNaN then do
    let rs ← (upTo 0 (if byRow then m.rows else m.cols)).mapM (fun k => do
      let s ← seriesAt byRow m k
      getRangeM s)
    if rs.any (fun r => r.1.isNotValid) then .throws
    else .ok { d with pData := m, ranges := rs.map Prod.fst, hasMissing := d.hasMissing || rs.any (fun r => r.2) }
  else .ok { d with pData := m, ranges := [] }

/-- `std::numeric_limits<Ti>::max()` for a 32-bit `int`. -/
def intMax : Int := 2147483647

/-- One step of `biggestWithoutNaN`, dataset.cpp:126-129 and 134-137; state (start, end). -/
def bigStep (se : Int × Int) (r : Range) : Int × Int :=
  (if r.start > se.1 then r.start else se.1, if r.stop < se.2 then r.stop else se.2)

/-- `ranges.at(i)`, dataset.cpp:125. -/
def rangesAt (ranges : List Range) (i : Int) : Outcome Range :=
  if 0 ≤ i then Outcome.ofOption ranges[i.toNat]? else .throws

/-- `biggestWithoutNaN`, dataset.cpp:119-139. -/
def biggestWithoutNaN (ranges : List Range) (indexes : Option (List Int)) : Outcome (Int × Int) :=
  match indexes with
  | some idx => idx.foldlM (fun se i => do
      let r ← rangesAt ranges i
      pure (bigStep se r)) (0, intMax)
  | none => .ok (ranges.foldl bigStep (0, intMax))

/-- `DatasetTs::Update`, dataset.cpp:141-188, with a storage; returns (`Start`, `End`, `Result`). -/
def DsTs.update (byRow : Bool) (d : DsTs K) (indexes : Option (List Int)) (storage : List (Val K)) :
    Outcome (Int × Int × Mat (Val K)) :=
  if d.select then
    match indexes with
    | none => .ub
    | some idx => do
      let se ← if d.hasNaN then biggestWithoutNaN d.ranges (some idx)
        else pure (0, (if byRow then d.pData.cols else d.pData.rows) - 1)
      let n := se.2 - se.1 + 1
      let res : Mat (Val K) := if byRow then ⟨idx.length, n, some storage⟩ else ⟨n, idx.length, some storage⟩
      let out ← d.pData.getSubIdx se.1 n idx (byRow == false) res 0 0 false
      pure (se.1, se.2, out)
  else if d.hasNaN then do
    let se ← biggestWithoutNaN d.ranges none
    let n := se.2 - se.1 + 1
    if byRow then do
      let out ← d.pData.getSub 0 se.1 d.pData.rows n ⟨d.pData.rows, n, some storage⟩ 0 0
      pure (se.1, se.2, out)
    else do
      let out ← d.pData.getSub se.1 0 n d.pData.cols ⟨n, d.pData.cols, some storage⟩ 0 0
      pure (se.1, se.2, out)
  else do
    let out ← d.pData.copyTo00 ⟨d.pData.rows, d.pData.cols, some storage⟩
    pure (0, 0, out)

end Mx
end LDT
