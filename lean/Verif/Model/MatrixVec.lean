import Verif.Model.MatrixAlg
import Verif.Model.MatrixStat
import Verif.Model.Sort
/-!
# Rows, columns and parts of vectors; matrix-vector products: `src/matrix/matrix.cpp`, `src/matrix/matrix_la.cpp`

Source and destination do not overlap. Numbers are exact.
-/
namespace LDT
namespace Mx

section
variable {α : Type}

/-- `Matrix::SetRow0(i, source)`, matrix.cpp:1420-1425 (`&Data[i]`, then `d[RowsCount * j]`: the cell of `Set0`). -/
def Mat.setRow0 (this : Mat α) (i : Int) (source : Mat α) : Outcome (Mat α) :=
  (upTo 0 this.cols).foldlM (fun d j => do
    let v ← read source.mem j
    d.set0 i j v) this

/-- `Matrix::SetRow(i, source)`, matrix.cpp:1415-1419. -/
def Mat.setRow (this : Mat α) (i : Int) (source : Mat α) : Outcome (Mat α) :=
  if i ≥ this.rows ∨ i < 0 then .throws else this.setRow0 i source

/-- The loop with the running index `b`, matrix.cpp:1454-1458 and 1534-1538: cell `t` gets `source.Data[b]`, and `b` grows by
`source.RowsCount + 1`. -/
def diagLoop (source : Mat α) (cell : Int → Int × Int) (n : Int) (this : Mat α) : Outcome (Mat α) := do
  let s ← (upTo 0 n).foldlM (fun (s : Mat α × Int) t => do
    let v ← read source.mem s.2
    let d ← s.1.set0 (cell t).1 (cell t).2 v
    pure (d, s.2 + (source.rows + 1))) (this, 0)
  pure s.1

/-- `Matrix::SetRowFromDiag0`, matrix.cpp:1451-1459. -/
def Mat.setRowFromDiag0 (this : Mat α) (i : Int) (source : Mat α) : Outcome (Mat α) :=
  diagLoop source (fun j => (i, j)) this.cols this

/-- `Matrix::SetRowFromDiag`, matrix.cpp:1443-1450. -/
def Mat.setRowFromDiag (this : Mat α) (i : Int) (source : Mat α) : Outcome (Mat α) :=
  if i ≥ this.rows ∨ i < 0 then .throws
  else if this.cols ≠ source.cols ∨ this.cols ≠ source.rows then .throws
  else this.setRowFromDiag0 i source

/-- `Matrix::SetSubRow` and `SetSubRow0`, matrix.cpp:1461-1476. -/
def Mat.setSubRow (this : Mat α) (row colstart : Int) (source : Mat α) (length : Int) : Outcome (Mat α) :=
  if row ≥ this.rows ∨ row < 0 then .throws
  else if colstart + length > this.cols then .throws
  else if source.length < length then .throws
  else (upTo colstart (colstart + length)).foldlM (fun d j => do
    let v ← read source.mem (j - colstart)
    d.set0 row j v) this

/-- `Matrix::SetColumn` and `SetColumn0` with a matrix, matrix.cpp:1478-1489. -/
def Mat.setColumn (this : Mat α) (j : Int) (source : Mat α) : Outcome (Mat α) :=
  if j ≥ this.cols ∨ j < 0 then .throws
  else (upTo 0 this.rows).foldlM (fun d i => do
    let v ← read source.mem i
    d.set0 i j v) this

/-- `Matrix::SetColumnFromDiag` and `SetColumnFromDiag0`, matrix.cpp:1522-1539. -/
def Mat.setColumnFromDiag (this : Mat α) (j : Int) (source : Mat α) : Outcome (Mat α) :=
  if j ≥ this.cols ∨ j < 0 then .throws
  else if source.rows ≠ this.rows ∨ source.cols ≠ this.rows then .throws
  else diagLoop source (fun i => (i, j)) this.rows this

/-- `Matrix::GetRow0`, matrix.cpp:1584-1589. -/
def Mat.getRow0 (this : Mat α) (i : Int) (storage : Mat α) : Outcome (Mat α) :=
  (upTo 0 this.cols).foldlM (fun d j => do
    let v ← read this.mem (i + this.rows * j)
    let l ← write d.mem j v
    pure { d with data := some l }) storage

/-- `Matrix::SetSubVector0`, matrix.cpp:1187-1196; `p` runs with `i`, so that it is `sourcestart + (i - start)`. -/
def Mat.setSubVector0 (this : Mat α) (start : Int) (source : Mat α) (sourcestart count : Int) : Outcome (Mat α) :=
  (upTo start (start + count)).foldlM (fun d i => do
    let v ← read source.mem (sourcestart + (i - start))
    let l ← write d.mem i v
    pure { d with data := some l }) this

/-- `Matrix::SetSubVector`, matrix.cpp:1177-1184. -/
def Mat.setSubVector (this : Mat α) (start : Int) (source : Mat α) (sourcestart count : Int) : Outcome (Mat α) :=
  if start + count > this.rows then .throws else this.setSubVector0 start source sourcestart count

/-- `Matrix::GetSubVector` and `GetSubVector0`, matrix.cpp:1361-1379; the storage is returned. -/
def Mat.getSubVector (this : Mat α) (start count : Int) (storage : Mat α) (storagestart : Int) : Outcome (Mat α) :=
  if ¬ this.cols = 1 then .throws
  else if storage.rows ≠ count + storagestart then .throws
  else storage.setSubVector storagestart this start count

/-- The first part of `Matrix::RemoveNanVector(data, storage)`, matrix.cpp:747-753: no storage, count the numbers. -/
def countNumbers (nan : α → Bool) (data : Mat α) : Outcome Int :=
  (upTo 0 data.length).foldlM (fun c i => do
    let v ← read data.mem i
    pure (if nan v then c else c + 1)) 0

/-- One cell of the second loop, matrix.cpp:756-762. -/
def keepNumber (nan : α → Bool) (v : α) (s : Mat α × Int) : Outcome (Mat α × Int) :=
  if nan v then .ok s
  else do
    let l ← write s.1.mem s.2 v
    pure ({ s.1 with data := some l }, s.2 + 1)

/-- `Matrix::RemoveNanVector(data, storage)`, matrix.cpp:744-768: the storage and the number returned. -/
def removeNanVector (nan : α → Bool) (data storage : Mat α) : Outcome (Mat α × Int) :=
  match storage.data with
  | none => do
    let c ← countNumbers nan data
    pure (storage, c)
  | some _ => do
    let s ← (upTo 0 data.length).foldlM (fun (s : Mat α × Int) i => do
      let v ← read data.mem i
      keepNumber nan v s) (storage, 0)
    pure (s.1, s.1.length)

end

section
variable {α : Type} [Zero α] [Add α] [Mul α] [DecidableEq α]

/-- `?gemv` (external library, BLAS contract): `y := alpha*op(A)*x + beta*y` with `A` being `M × N`; nothing happens if `M` or
`N` is zero. -/
def gemv (trans : Bool) (M N : Int) (alpha : α) (a : List α) (lda : Int) (x : List α) (beta : α) (y : List α) :
    Outcome (List α) :=
  if ¬ ldOk lda M ∨ N < 0 then .ub
  else if M = 0 ∨ N = 0 then .ok y
  else (upTo 0 (if trans then N else M)).foldlM (fun y i => do
    let t ← dotSum (if trans then M else N) (fun l => opGet trans a lda i l) (fun l => read x l)
    blasWrite alpha beta y i t) y

/-- `Matrix::DotVector` and `DotVector0`, matrix.cpp:2122-2136, matrix_la.cpp:54-79. -/
def Mat.dotVector (this b storage : Mat α) (alpha beta : α) : Outcome (Mat α) :=
  if ¬ b.cols = 1 then .throws
  else if ¬ storage.cols = 1 then .throws
  else if this.cols ≠ b.rows then .throws
  else if this.rows ≠ storage.rows then .throws
  else storage.withMem (gemv false this.rows this.cols alpha this.mem this.rows b.mem beta storage.mem)

/-- `Matrix::tDotVector` and `tDotVector0`, matrix.cpp:2138-2152, matrix_la.cpp:80-104. -/
def Mat.tDotVector (this b storage : Mat α) (alpha beta : α) : Outcome (Mat α) :=
  if ¬ b.cols = 1 then .throws
  else if ¬ storage.cols = 1 then .throws
  else if this.rows ≠ b.rows then .throws
  else if this.cols ≠ storage.rows then .throws
  else storage.withMem (gemv true this.rows this.cols alpha this.mem this.rows b.mem beta storage.mem)

/-- `Matrix::VectorDotVector` and `VectorDotVector0`, matrix.cpp:2112-2120, matrix_la.cpp:38-52. -/
def Mat.vectorDotVector (this b : Mat α) : Outcome α :=
  if ¬ this.cols = 1 then .throws
  else if b.length ≠ this.length then .throws
  else dotSum this.length (fun l => read this.mem l) (fun l => read b.mem l)

end

section
variable {K : Type} [Field K] [DecidableEq K]
open Arr (Val)

/-- `if (isnan(v)) continue; c++; s += v;`, matrix_la.cpp:325-329. -/
def addProduct (s : K × Int) : Val K → Val K → K × Int
  | some a, some b => (s.1 + a * b, s.2 + 1)
  | _, _ => s

/-- The sum over the rows in which the product is a number, and their number, matrix_la.cpp:322-330. -/
def Mat.nanProduct (this : Mat (Val K)) (i j : Int) : Outcome (K × Int) :=
  (upTo 0 this.rows).foldlM (fun (s : K × Int) k => do
    let a ← read this.mem (i * this.rows + k)
    let b ← read this.mem (j * this.rows + k)
    pure (addProduct s a b)) (0, 0)

/-- The cells set for one pair of columns, matrix_la.cpp:331-336. -/
def nanCell (setLower : Bool) (i j : Int) (p : K × Int) (s : Mat (Val K) × Mat (Val K)) :
    Outcome (Mat (Val K) × Mat (Val K)) := do
  let a ← s.1.set0 j i (some p.1)
  let b ← s.2.set0 j i (some (p.2 : K))
  if setLower then do
    let a ← a.set0 i j (some p.1)
    let b ← b.set0 i j (some (p.2 : K))
    pure (a, b)
  else pure (a, b)

/-- `Matrix::Dot_AtA_nan` and `Dot_AtA_nan0`, matrix.cpp:2232-2241, matrix_la.cpp:307-340. -/
def Mat.dotAtANan (this storage counts : Mat (Val K)) (setLower : Bool) : Outcome (Mat (Val K) × Mat (Val K)) :=
  if storage.rows ≠ this.cols ∨ storage.cols ≠ this.cols then .throws
  else if counts.rows ≠ this.cols ∨ counts.cols ≠ this.cols then .throws
  else (upTo 0 this.cols).foldlM (fun s i => (upTo 0 this.cols).foldlM (fun s j => do
    let p ← this.nanProduct i j
    nanCell setLower i j p s) s) (storage, counts)

end

section
variable {K : Type} [LinearOrder K]
open Arr (Val)

/-- The values of the vector, to be compared. -/
def Mat.cells (this : Mat (Val K)) : Outcome (List (Val K)) :=
  (upTo 0 this.length).foldlM (fun l i => do
    let v ← read this.mem i
    pure (l ++ [v])) []

/-- `Matrix::SortIndicesVector`, matrix.cpp:935-946: the same code as `SortIndexes` (`Model/Sort.lean`). -/
def Mat.sortIndicesVector (this : Mat (Val K)) (ascending : Bool) : Outcome (List Nat) := do
  let l ← this.cells
  Arr.sortIndexes l ascending

end
end Mx
end LDT
