import Verif.Model.Matrix
import Verif.Model.Array
import Mathlib.Algebra.Order.Field.Basic
import Mathlib.Algebra.Order.Group.Abs
/-!
# Element-wise operations, fills, tests and triangular matrices: `src/matrix/matrix.cpp`

Cells are exact numbers; `Val K` (`none` = NaN) where the code looks at NaN.
-/
namespace LDT
namespace Mx

variable {α : Type}

/-! ## Element-wise operations -/

/-- `for (i = 0; i < n; i++) storage.Data[i] = g(i)`, the loop of matrix.cpp:1896-1948, 1030-1035, 1047-1052. -/
def cellLoop (n : Int) (g : Int → Outcome α) (storage : Mat α) : Outcome (Mat α) :=
  (upTo 0 n).foldlM (fun (d : Mat α) i => do
    let v ← g i
    let l ← write d.mem i v
    pure { d with data := some l }) storage

/-- `for (i = 0; i < n; i++) Data[i] = g(i, Data[i])`, the loop of matrix.cpp:2008-2070, 991-1003. -/
def cellLoopIn (n : Int) (g : Int → α → Outcome α) (m : Mat α) : Outcome (Mat α) :=
  (upTo 0 n).foldlM (fun (d : Mat α) i => do
    let x ← read d.mem i
    let v ← g i x
    let l ← write d.mem i v
    pure { d with data := some l }) m

/-- The size check of the element-wise operations, matrix.cpp:1953-1955. -/
def Mat.sameSize (this b : Mat α) : Bool := b.rows == this.rows && b.cols == this.cols

/-- One source operand, e.g. `Data[i] + b`. -/
def Mat.with1 (this : Mat α) (f : α → α) (i : Int) : Outcome α := do
  let x ← read this.mem i
  pure (f x)

/-- Two source operands, e.g. `Data[i] + b.Data[i]`. -/
def Mat.with2 (this b : Mat α) (f : α → α → α) (i : Int) : Outcome α := do
  let x ← read this.mem i
  let y ← read b.mem i
  pure (f x y)

/-- `Matrix::Add(b, storage)` for a number, matrix.cpp:1896-1899, 1952-1957. -/
def Mat.addS [Add α] (this : Mat α) (b : α) (storage : Mat α) : Outcome (Mat α) :=
  if !this.sameSize storage then .throws else cellLoop this.length (this.with1 (· + b)) storage

/-- `Matrix::Subtract(b, storage)` for a number, matrix.cpp:1911-1915, 1967-1973. -/
def Mat.subS [Sub α] (this : Mat α) (b : α) (storage : Mat α) : Outcome (Mat α) :=
  if !this.sameSize storage then .throws else cellLoop this.length (this.with1 (· - b)) storage

/-- `Matrix::Divide(b, storage)` for a number, matrix.cpp:1917-1921, 1975-1981. -/
def Mat.divS [Div α] (this : Mat α) (b : α) (storage : Mat α) : Outcome (Mat α) :=
  if !this.sameSize storage then .throws else cellLoop this.length (this.with1 (· / b)) storage

/-- `Matrix::Multiply0(b, storage, beta)` for a number, matrix.cpp:1901-1909. -/
def Mat.mulS0 [Zero α] [Add α] [Mul α] [DecidableEq α] (this : Mat α) (b : α) (storage : Mat α) (beta : α) :
    Outcome (Mat α) :=
  if beta = 0 then cellLoop this.length (this.with1 (· * b)) storage
  else cellLoopIn this.length (fun i s => this.with1 (fun x => x * b + beta * s) i) storage

/-- `Matrix::Multiply(b, storage, beta)` for a number, matrix.cpp:1959-1965. -/
def Mat.mulS [Zero α] [Add α] [Mul α] [DecidableEq α] (this : Mat α) (b : α) (storage : Mat α) (beta : α) :
    Outcome (Mat α) :=
  if !this.sameSize storage then .throws else this.mulS0 b storage beta

/-- `Matrix::Add(b, storage)`, matrix.cpp:1923-1927, 1983-1991. -/
def Mat.addM [Add α] (this b storage : Mat α) : Outcome (Mat α) :=
  if !this.sameSize storage then .throws
  else if !this.sameSize b then .throws
  else cellLoop this.length (this.with2 b (· + ·)) storage

/-- `Matrix::Subtract(b, storage)`, matrix.cpp:1940-1944, 2004-2012. -/
def Mat.subM [Sub α] (this b storage : Mat α) : Outcome (Mat α) :=
  if !this.sameSize storage then .throws
  else if !this.sameSize b then .throws
  else cellLoop this.length (this.with2 b (· - ·)) storage

/-- `Matrix::Divide(b, storage)`, matrix.cpp:1946-1950, 2014-2022. -/
def Mat.divM [Div α] (this b storage : Mat α) : Outcome (Mat α) :=
  if !this.sameSize storage then .throws
  else if !this.sameSize b then .throws
  else cellLoop this.length (this.with2 b (· / ·)) storage

/-- `Matrix::Multiply0(b, storage, beta)`, matrix.cpp:1929-1938. -/
def Mat.mulM0 [Zero α] [Add α] [Mul α] [DecidableEq α] (this b storage : Mat α) (beta : α) : Outcome (Mat α) :=
  if beta = 0 then cellLoop this.length (this.with2 b (· * ·)) storage
  else cellLoopIn this.length (fun i s => this.with2 b (fun x y => x * y + beta * s) i) storage

/-- `Matrix::Multiply(b, storage, beta)`, matrix.cpp:1993-2002. -/
def Mat.mulM [Zero α] [Add α] [Mul α] [DecidableEq α] (this b storage : Mat α) (beta : α) : Outcome (Mat α) :=
  if !this.sameSize storage then .throws
  else if !this.sameSize b then .throws
  else this.mulM0 b storage beta

/-- `Add_in(b)`, `Subtract_in`, `Multiply_in`, `Divide_in` for a number, matrix.cpp:2026-2057 (`f` the operation). -/
def Mat.scalarIn (m : Mat α) (f : α → α) : Outcome (Mat α) := cellLoopIn m.length (fun _ x => .ok (f x)) m

/-- `Add_in(b)`, matrix.cpp:2026-2029. -/
def Mat.addSIn [Add α] (m : Mat α) (b : α) : Outcome (Mat α) := m.scalarIn (· + b)
/-- `Multiply_in(b)`, matrix.cpp:2031-2034. -/
def Mat.mulSIn [Mul α] (m : Mat α) (b : α) : Outcome (Mat α) := m.scalarIn (· * b)
/-- `Subtract_in(b)`, matrix.cpp:2049-2052. -/
def Mat.subSIn [Sub α] (m : Mat α) (b : α) : Outcome (Mat α) := m.scalarIn (· - b)
/-- `Divide_in(b)`, matrix.cpp:2054-2057. -/
def Mat.divSIn [Div α] (m : Mat α) (b : α) : Outcome (Mat α) := m.scalarIn (· / b)

/-- The in-place loop with a second matrix. -/
def Mat.matrixIn (m b : Mat α) (f : α → α → α) : Outcome (Mat α) :=
  cellLoopIn m.length (fun i x => do
    let y ← read b.mem i
    pure (f x y)) m

/-- `Add_in(b)` for a matrix, matrix.cpp:2059-2062, 2081-2085. -/
def Mat.addMIn [Add α] (m b : Mat α) : Outcome (Mat α) := if !m.sameSize b then .throws else m.matrixIn b (· + ·)
/-- `Multiply_in(b)` for a matrix, matrix.cpp:2064-2067, 2087-2091. -/
def Mat.mulMIn [Mul α] (m b : Mat α) : Outcome (Mat α) := if !m.sameSize b then .throws else m.matrixIn b (· * ·)
/-- `Subtract_in(b)` for a matrix, matrix.cpp:2069-2072, 2093-2097. -/
def Mat.subMIn [Sub α] (m b : Mat α) : Outcome (Mat α) := if !m.sameSize b then .throws else m.matrixIn b (· - ·)
/-- `Divide_in(b)` for a matrix, matrix.cpp:2074-2077, 2099-2103. -/
def Mat.divMIn [Div α] (m b : Mat α) : Outcome (Mat α) := if !m.sameSize b then .throws else m.matrixIn b (· / ·)

/-- `Apply_in(func)`, matrix.cpp:991-994. -/
def Mat.applyIn (m : Mat α) (f : α → α) : Outcome (Mat α) := m.scalarIn f

/-- `Apply_in(B, func)`, matrix.cpp:996-1003: only the lengths are compared. -/
def Mat.applyIn2 (m b : Mat α) (f : α → α → α) : Outcome (Mat α) :=
  if b.length ≠ m.length then .throws else m.matrixIn b f

/-- `Apply(func, storage)`, matrix.cpp:1022-1035. -/
def Mat.apply (this : Mat α) (f : α → α) (storage : Mat α) : Outcome (Mat α) :=
  if storage.length ≠ this.length then .throws else cellLoop this.length (this.with1 f) storage

/-- `Apply(B, func, storage)`, matrix.cpp:1037-1052. -/
def Mat.apply2 (this b : Mat α) (f : α → α → α) (storage : Mat α) : Outcome (Mat α) :=
  if storage.length ≠ this.length then .throws
  else if b.length ≠ this.length then .throws
  else cellLoop this.length (this.with2 b f) storage

/-- `ApplyRow_in(i, func)`, matrix.cpp:1005-1013. -/
def Mat.applyRowIn (m : Mat α) (i : Int) (f : α → α) : Outcome (Mat α) :=
  (upTo 0 m.cols).foldlM (fun (d : Mat α) j => do
    let x ← read d.mem (i + m.rows * j)
    let l ← write d.mem (i + m.rows * j) (f x)
    pure { d with data := some l }) m

/-- `ApplyColumn_in(j, func)`, matrix.cpp:1015-1020. -/
def Mat.applyColumnIn (m : Mat α) (j : Int) (f : α → α) : Outcome (Mat α) :=
  (upTo 0 m.rows).foldlM (fun (d : Mat α) i => do
    let x ← read d.mem (m.rows * j + i)
    let l ← write d.mem (m.rows * j + i) (f x)
    pure { d with data := some l }) m

/-! ## Fills -/

/-- `SetValue(value)`, matrix.cpp:952-955. -/
def Mat.setValue (m : Mat α) (v : α) : Outcome (Mat α) := cellLoop m.length (fun _ => .ok v) m

/-- `SetSequence(start, step)`, matrix.cpp:957-963. -/
def Mat.setSequence [Add α] (m : Mat α) (start step : α) : Outcome (Mat α) := do
  let r ← (upTo 0 m.length).foldlM (fun (d : Mat α × α) i => do
    let l ← write d.1.mem i d.2
    pure ({ d.1 with data := some l }, d.2 + step)) (m, start)
  pure r.1

/-- `SetValueDiag(diag)`, matrix.cpp:965-971. -/
def Mat.setValueDiag (m : Mat α) (v : α) : Outcome (Mat α) :=
  if m.rows ≠ m.cols then .throws
  else (upTo 0 m.rows).foldlM (fun (d : Mat α) i => d.set0 i i v) m

/-- `SetValueDiag(diag, off_diag)`, matrix.cpp:973-979. -/
def Mat.setValueDiag2 (m : Mat α) (v off : α) : Outcome (Mat α) :=
  if m.rows ≠ m.cols then .throws
  else do
    let m ← m.setValue off
    m.setValueDiag v

/-- `SetValueOffDiag(offdiag)`, matrix.cpp:981-989. -/
def Mat.setValueOffDiag (m : Mat α) (off : α) : Outcome (Mat α) :=
  if m.rows ≠ m.cols then .throws
  else (upTo 0 m.rows).foldlM (fun d i => (upTo 0 m.rows).foldlM (fun (d : Mat α) j =>
    if i ≠ j then d.set0 i j off else .ok d) d) m

/-- `Diagonal(storage, diagv, offdiagv)`, matrix.cpp:1625-1634. -/
def Mat.diagonal (storage : Mat α) (v off : α) : Outcome (Mat α) :=
  if storage.rows ≠ storage.cols then .throws
  else do
    let s ← storage.setValue off
    (upTo 0 storage.rows).foldlM (fun (d : Mat α) i => d.set0 i i v) s

/-- `GetDiag(storage)`, matrix.cpp:1606-1619: the source index advances by `RowsCount + 1`. -/
def Mat.getDiag (this storage : Mat α) : Outcome (Mat α) :=
  if this.rows ≠ this.cols then .throws
  else if storage.length < this.rows then .throws
  else do
    let r ← (upTo 0 this.rows).foldlM (fun (d : Mat α × Int) i => do
      let v ← read this.mem d.2
      let l ← write d.1.mem i v
      pure ({ d.1 with data := some l }, d.2 + (this.rows + 1))) (storage, 0)
    pure r.1

/-- `SortByVector(storage, indexes)`, matrix.cpp:859-881. -/
def Mat.sortByVector (this storage : Mat α) (idx : List Int) : Outcome (Mat α) :=
  if storage.length ≠ this.length then .throws
  else if (idx.length : Int) ≠ this.length then .throws
  else match maxElem idx with
    | none => .ub
    | some mx =>
      if mx > storage.length - 1 then .throws
      else (countFrom 0 idx).foldlM (fun (d : Mat α) ji => do
        let v ← read this.mem ji.2
        let l ← write d.mem ji.1 v
        pure { d with data := some l }) storage

/-! ## Tests -/

/-- A loop that returns `false` at the first failure. -/
def allLoop (p : Int → Outcome Bool) : List Int → Outcome Bool
  | [] => .ok true
  | i :: l => do
    let b ← p i
    if b then allLoop p l else .ok false

section
variable {K : Type} [Field K] [LinearOrder K]
open Arr

/-- `std::abs(a - b) > epsilon` for doubles: false when one of them is NaN. -/
def farApart (a b : Val K) (eps : K) : Bool :=
  match a, b with
  | some a, some b => decide (|a - b| > eps)
  | _, _ => false

/-- `IsSymmetric(epsilon)`, matrix.cpp:172-188. -/
def Mat.isSymmetric (m : Mat (Val K)) (eps : K) : Outcome Bool :=
  if m.cols ≠ m.rows then .throws
  else allLoop (fun i => allLoop (fun j =>
    if i ≥ j then .ok true
    else do
      let a ← m.get0 i j
      let b ← m.get0 j i
      pure (!farApart a b eps)) (upTo 0 m.rows)) (upTo 0 m.rows)

/-- `IsDiagonal(mat, diagv, offdiagv, epsilon)`, matrix.cpp:1636-1662. -/
def Mat.isDiagonal (m : Mat (Val K)) (v off : Val K) (eps : K) : Outcome Bool :=
  if m.rows ≠ m.cols then .throws
  else do
    let a ← allLoop (fun i => do
      let x ← m.get0 i i
      pure (!farApart v x eps)) (upTo 0 m.rows)
    if a then allLoop (fun i => allLoop (fun j =>
      if i = j then .ok true
      else do
        let x ← m.get0 i j
        pure (!farApart off x eps)) (upTo 0 m.rows)) (upTo 0 m.rows)
    else .ok false

/-- One cell of `EqualsValueArray`, matrix.cpp:315-329: is the loop continued? -/
def valueCell (b : Val K) (eps : K) (ignoreNaN nansAreEqual : Bool) (a : Val K) : Bool :=
  if a.isNone && ignoreNaN then true
  else if b.isNone || a.isNone then b.isNone && a.isNone && nansAreEqual
  else !farApart b a eps

/-- `EqualsValueArray`, matrix.cpp:307-331, on `length` cells from `start`. -/
def equalsValueArray (l : List (Val K)) (start length : Int) (b : Val K) (eps : K) (ignoreNaN nansAreEqual : Bool) :
    Outcome Bool :=
  if b.isNone && ignoreNaN then .ok true
  else allLoop (fun i => do
    let a ← read l (start + i)
    pure (valueCell b eps ignoreNaN nansAreEqual a)) (upTo 0 length)

/-- `EqualsValue(b, epsilon, nansAreEqual, ignoreNan)`, matrix.cpp:349-353. -/
def Mat.equalsValue (m : Mat (Val K)) (b : Val K) (eps : K) (nansAreEqual ignoreNaN : Bool) : Outcome Bool :=
  equalsValueArray m.mem 0 m.length b eps ignoreNaN nansAreEqual

/-- `EqualsValueColumn(colIndex, b, epsilon, nansAreEqual, ignoreNan)`, matrix.cpp:355-360. -/
def Mat.equalsValueColumn (m : Mat (Val K)) (j : Int) (b : Val K) (eps : K) (nansAreEqual ignoreNaN : Bool) :
    Outcome Bool :=
  equalsValueArray m.mem (j * m.rows) m.rows b eps ignoreNaN nansAreEqual

/-- One cell of `Equals`, matrix.cpp:385-401. -/
def equalCell (eps : K) (nansAreEqual : Bool) (a b : Val K) : Bool :=
  if b.isNone || a.isNone then b.isNone && a.isNone && nansAreEqual
  else !farApart b a eps

/-- `Equals(m, epsilon, throwForSize, nansAreEqual)`, matrix.cpp:362-405, for two different objects. -/
def Mat.equals (this m : Mat (Val K)) (eps : K) (throwForSize nansAreEqual : Bool) : Outcome Bool :=
  if m.rows ≠ this.rows ∨ m.cols ≠ this.cols then (if throwForSize then .throws else .ok false)
  else allLoop (fun i => do
    let a ← read this.mem i
    let b ← read m.mem i
    pure (equalCell eps nansAreEqual a b)) (upTo 0 this.length)

/-- `Data[i] == value`, where a NaN value asks for NaN, matrix.cpp:780-788. -/
def isValue [DecidableEq K] (value d : Val K) : Bool := decide (value = d)

/-- `IndicesOfVector(value, vec)`, matrix.cpp:777-795 (the found indexes are appended). -/
def Mat.indicesOf [DecidableEq K] (m : Mat (Val K)) (value : Val K) (vec : List Int) : Outcome (List Int) :=
  (upTo 0 m.length).foldlM (fun acc i => do
    let d ← read m.mem i
    pure (if isValue value d then acc ++ [i] else acc)) vec

/-- `All(value)`, matrix.cpp:817-838. -/
def Mat.all [DecidableEq K] (m : Mat (Val K)) (value : Val K) : Outcome Bool :=
  allLoop (fun i => do
    let d ← read m.mem i
    pure (isValue value d)) (upTo 0 m.length)

/-- `Any(value)`, matrix.cpp:797-815: the loop returns `true` at the first hit. -/
def Mat.any [DecidableEq K] (m : Mat (Val K)) (value : Val K) : Outcome Bool := do
  let b ← allLoop (fun i => do
    let d ← read m.mem i
    pure (!isValue value d)) (upTo 0 m.length)
  pure (!b)

end

/-! ## Triangular matrices -/

/-- The write of an element at position `(quot, rem)`: `Set0(quot, rem, d)` for upper triangles, matrix.cpp:1697, 1731,
`Set0(rem, quot, d)` for lower ones, matrix.cpp:1714, 1747. -/
def triFirst (up : Bool) (st : Mat α) (q r : Int) (d : α) : Outcome (Mat α) :=
  if up then st.set0 q r d else st.set0 r q d

/-- The mirrored write for `up == 0`, matrix.cpp:1700-1702, 1734-1736. -/
def triMirror (sym : Bool) (st : Mat α) (q r : Int) (d : α) : Outcome (Mat α) :=
  if sym then st.set0 r q d else .ok st

/-- The state of the walk in `MakeTriangular0`: the linear position `i`. One element with diagonal,
matrix.cpp:1694-1703 (upper by rows) and 1711-1717 (lower by columns); `sym` is `up == 0`. -/
def triStepDiag (up sym : Bool) (m : Int) (s : Mat α × Int) (d : α) : Outcome (Mat α × Int) := do
  let st ← triFirst up s.1 (s.2.tdiv m) (s.2.tmod m) d
  let st ← triMirror sym st (s.2.tdiv m) (s.2.tmod m) d
  pure (st, (if s.2.tmod m = m - 1 then s.2 + (s.2.tdiv m + 1) else s.2) + 1)

/-- One element without diagonal, matrix.cpp:1727-1737 (upper by rows) and 1744-1750 (lower by columns). -/
def triStepNo (up sym : Bool) (m : Int) (s : Mat α × Int) (d : α) : Outcome (Mat α × Int) := do
  let st ← triFirst up s.1 ((s.2 + 1).tdiv m) ((s.2 + 1).tmod m) d
  let st ← triMirror sym st ((s.2 + 1).tdiv m) ((s.2 + 1).tmod m) d
  pure (st, if (s.2 + 1).tmod m = m - 1 then s.2 + 1 + ((s.2 + 1).tdiv m + 2) else s.2 + 1)

/-- The loop over the elements. -/
def triLoop (step : Mat α × Int → α → Outcome (Mat α × Int)) (elements storage : Mat α) : Outcome (Mat α) := do
  let r ← (upTo 0 elements.length).foldlM (fun s k => do
    let d ← read elements.mem k
    step s d) (storage, (0 : Int))
  pure r.1

/-- `MakeTriangular0(storage, elements, up, diag, byrow)`, matrix.cpp:1682-1756. -/
def Mat.makeTriangular0 (storage elements : Mat α) (up : Int) (diag byrow : Bool) : Outcome (Mat α) :=
  if up = 0 ∨ up = 1 then
    if byrow then triLoop (if diag then triStepDiag true (up = 0) storage.rows else triStepNo true (up = 0) storage.rows)
      elements storage
    else .throws
  else
    if byrow = false then triLoop (if diag then triStepDiag false false storage.rows else triStepNo false false storage.rows)
      elements storage
    else .throws

/-- `MakeTriangular(storage, elements, up, diag, byrow)`, matrix.cpp:1665-1680. -/
def Mat.makeTriangular (storage elements : Mat α) (up : Int) (diag byrow : Bool) : Outcome (Mat α) :=
  if storage.rows ≠ storage.cols then .throws
  else if diag ∧ elements.length ≠ (storage.rows * (storage.rows + 1)).tdiv 2 then .throws
  else if diag = false ∧ elements.length ≠ (storage.rows * (storage.rows - 1)).tdiv 2 then .throws
  else storage.makeTriangular0 elements up diag byrow

end Mx
end LDT
