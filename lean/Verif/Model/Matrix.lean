import Verif.Model.Array
/-!
# Matrices: `src/matrix/matrix.cpp`, `include/matrix.h`

A matrix is a pointer into a block of memory plus two counts.  The block is a list (`none`: null pointer);
it may be longer than `RowsCount * ColsCount`, as it is when a matrix is laid over a work array.  Reading or
writing outside the block is `ub`.  `Ti` is `Int` (overflow of 32-bit `int` is not modelled).  Source and
destination of a copy are assumed not to overlap.
-/
namespace LDT
namespace Mx

/-- `Matrix<Tw>`: `RowsCount`, `ColsCount`, `Data`, include/matrix.h (members of `Matrix`). -/
structure Mat (α : Type) where
  rows : Int
  cols : Int
  data : Option (List α)
  deriving DecidableEq, Repr

variable {α : Type}

/-- The memory `Data` points to; a null pointer gives no readable cell. -/
def Mat.mem (m : Mat α) : List α := m.data.getD []

/-- `Data[k]` read, e.g. matrix.cpp:227. -/
def read (l : List α) (k : Int) : Outcome α :=
  if 0 ≤ k then
    match l[k.toNat]? with
    | some a => .ok a
    | none => .ub
  else .ub

/-- `Data[k] = v`, e.g. matrix.cpp:262. -/
def write (l : List α) (k : Int) (v : α) : Outcome (List α) :=
  if 0 ≤ k ∧ k < l.length then .ok (l.set k.toNat v) else .ub

/-- `Matrix::length`, matrix.cpp:139-141. -/
def Mat.length (m : Mat α) : Int := m.rows * m.cols

/-- `Matrix::TranslateIndex`, matrix.cpp:210-214: (row, column); `int` division by zero is undefined.
C++ division truncates; only non-negative indexes are used (`Int.tdiv`, `Int.tmod`). -/
def Mat.translateIndex (m : Mat α) (index : Int) : Outcome (Int × Int) :=
  if m.rows = 0 then .ub else .ok (index.tmod m.rows, index.tdiv m.rows)

/-- `Matrix::Get0`, matrix.cpp:226-228. -/
def Mat.get0 (m : Mat α) (i j : Int) : Outcome α := read m.mem (i + m.rows * j)

/-- `Matrix::Get(i, j)`, matrix.cpp:216-224. -/
def Mat.get (m : Mat α) (i j : Int) : Outcome α :=
  if m.data.isNone then .throws
  else if i ≥ m.rows ∨ j ≥ m.cols ∨ i < 0 ∨ j < 0 then .throws
  else m.get0 i j

/-- `Matrix::Get(i)`, matrix.cpp:234-241. -/
def Mat.getLin (m : Mat α) (i : Int) : Outcome α :=
  if m.data.isNone then .throws
  else if i < 0 ∨ i ≥ m.length then .throws
  else read m.mem i

/-- `Matrix::Set0`, matrix.cpp:261-263. -/
def Mat.set0 (m : Mat α) (i j : Int) (v : α) : Outcome (Mat α) := do
  let l ← write m.mem (i + m.rows * j) v
  pure { m with data := some l }

/-- `Matrix::Set(i, j, value)`, matrix.cpp:251-259. -/
def Mat.set (m : Mat α) (i j : Int) (v : α) : Outcome (Mat α) :=
  if m.data.isNone then .throws
  else if i ≥ m.rows ∨ j ≥ m.cols ∨ i < 0 ∨ j < 0 then .throws
  else m.set0 i j v

/-- `Matrix::Set(i, value)`, matrix.cpp:286-293. -/
def Mat.setLin (m : Mat α) (i : Int) (v : α) : Outcome (Mat α) :=
  if m.data.isNone then .throws
  else if i ≥ m.length ∨ i < 0 then .throws
  else do
    let l ← write m.mem i v
    pure { m with data := some l }

/-- `Matrix::Last`, matrix.cpp:774. -/
def Mat.last (m : Mat α) : Outcome α := read m.mem m.length

/-- `Matrix::First`, matrix.cpp:775. -/
def Mat.first (m : Mat α) : Outcome α := read m.mem 0

/-- `Matrix::Restructure`, matrix.cpp:128-137. -/
def Mat.restructure (m : Mat α) (r c : Int) : Outcome (Mat α) :=
  if r * c ≠ m.rows * m.cols then .throws else .ok { m with rows := r, cols := c }

/-- The values `a, a+1, …, b-1` of a loop counter `for (Ti i = a; i < b; i++)`. -/
def upTo (a b : Int) : List Int := (List.range (b - a).toNat).map (fun (k : Nat) => a + (k : Int))

/-- Pairs (storage counter, element) of a loop `Ti p = p0; for (auto &i : l) { …; p++; }`. -/
def countFrom : Int → List Int → List (Int × Int)
  | _, [] => []
  | p, i :: l => (p, i) :: countFrom (p + 1) l

/-- `Matrix::SetSub0`, matrix.cpp:1116-1132: rows `i` from `rowstart` with `p` from `sourcerowstart`. -/
def Mat.setSub0 (this : Mat α) (rowstart colstart : Int) (source : Mat α)
    (sourcerowstart sourcecolstart rowcount colcount : Int) : Outcome (Mat α) :=
  (countFrom sourcerowstart (upTo rowstart (rowstart + rowcount))).foldlM (fun d pi =>
    (countFrom sourcecolstart (upTo colstart (colstart + colcount))).foldlM (fun d qj => do
      let v ← source.get0 pi.1 qj.1
      d.set0 pi.2 qj.2 v) d) this

/-- `Matrix::SetSub`, matrix.cpp:1091-1114. -/
def Mat.setSub (this : Mat α) (rowstart colstart : Int) (source : Mat α)
    (sourcerowstart sourcecolstart rowcount colcount : Int) : Outcome (Mat α) :=
  if rowstart + rowcount > this.rows then .throws
  else if colstart + colcount > this.cols then .throws
  else if sourcerowstart + rowcount > source.rows then .throws
  else if sourcecolstart + colcount > source.cols then .throws
  else this.setSub0 rowstart colstart source sourcerowstart sourcecolstart rowcount colcount

/-- `Matrix::SetSub_t0`, matrix.cpp:1159-1175. -/
def Mat.setSubT0 (this : Mat α) (rowstart colstart : Int) (source : Mat α)
    (sourcerowstart sourcecolstart rowcount colcount : Int) : Outcome (Mat α) :=
  (countFrom sourcecolstart (upTo rowstart (rowstart + rowcount))).foldlM (fun d pi =>
    (countFrom sourcerowstart (upTo colstart (colstart + colcount))).foldlM (fun d qj => do
      let v ← source.get0 qj.1 pi.1
      d.set0 pi.2 qj.2 v) d) this

/-- `Matrix::SetSub_t`, matrix.cpp:1134-1157. -/
def Mat.setSubT (this : Mat α) (rowstart colstart : Int) (source : Mat α)
    (sourcerowstart sourcecolstart rowcount colcount : Int) : Outcome (Mat α) :=
  if rowstart + rowcount > this.rows then .throws
  else if colstart + colcount > this.cols then .throws
  else if sourcecolstart + rowcount > source.cols then .throws
  else if sourcerowstart + colcount > source.rows then .throws
  else this.setSubT0 rowstart colstart source sourcerowstart sourcecolstart rowcount colcount

/-- `Matrix::GetSub` (block), matrix.cpp:1197-1226; returns the storage. -/
def Mat.getSub (this : Mat α) (rowstart colstart rowcount colcount : Int) (storage : Mat α)
    (storagerowstart storagecolstart : Int) : Outcome (Mat α) :=
  if rowstart + rowcount > this.rows then .throws
  else if colstart + colcount > this.cols then .throws
  else if storage.rows > rowcount + storagerowstart ∨ storage.cols > colcount + storagecolstart then .throws
  else storage.setSub0 storagerowstart storagecolstart this rowstart colstart rowcount colcount

/-- The index list of `GetSub0` with `exclude_indexes`, matrix.cpp:1286-1296. -/
def Mat.subIndexes (this : Mat α) (secondindexes : List Int) (firstIsRow exclude : Bool) : List Int :=
  if exclude then
    (upTo 0 (if firstIsRow then this.cols else this.rows)).filter (fun j => ¬ j ∈ secondindexes)
  else secondindexes

/-- `Matrix::GetSub0` (range × indexes), matrix.cpp:1280-1332. -/
def Mat.getSubIdx0 (this : Mat α) (firststart firstcount : Int) (secondindexes : List Int)
    (firstIsRow : Bool) (storage : Mat α) (storagerowstart storagecolstart : Int) (exclude : Bool) :
    Outcome (Mat α) :=
  let indexes := this.subIndexes secondindexes firstIsRow exclude
  if firstIsRow then
    (countFrom storagerowstart (upTo firststart (firststart + firstcount))).foldlM (fun d pi =>
      (countFrom storagecolstart indexes).foldlM (fun d qj => do
        let v ← this.get0 pi.2 qj.2
        d.set0 pi.1 qj.1 v) d) storage
  else
    (countFrom storagecolstart (upTo firststart (firststart + firstcount))).foldlM (fun d qj =>
      (countFrom storagerowstart indexes).foldlM (fun d pi => do
        let v ← this.get0 pi.2 qj.2
        d.set0 pi.1 qj.1 v) d) storage

/-- `Matrix::GetSub` (range × indexes), matrix.cpp:1228-1278. -/
def Mat.getSubIdx (this : Mat α) (firststart firstcount : Int) (secondindexes : List Int)
    (firstIsRow : Bool) (storage : Mat α) (storagerowstart storagecolstart : Int) (exclude : Bool) :
    Outcome (Mat α) :=
  if exclude then
    if firstIsRow then
      if storage.rows ≠ firstcount + storagerowstart then .throws
      else if storage.cols ≠ this.cols - secondindexes.length + storagecolstart then .throws
      else this.getSubIdx0 firststart firstcount secondindexes firstIsRow storage storagerowstart
        storagecolstart exclude
    else
      if storage.cols ≠ firstcount + storagecolstart then .throws
      else if storage.rows ≠ this.rows - secondindexes.length + storagerowstart then .throws
      else this.getSubIdx0 firststart firstcount secondindexes firstIsRow storage storagerowstart
        storagecolstart exclude
  else
    if firstIsRow then
      if storage.rows ≠ firstcount + storagerowstart then .throws
      else if storage.cols ≠ secondindexes.length + storagecolstart then .throws
      else this.getSubIdx0 firststart firstcount secondindexes firstIsRow storage storagerowstart
        storagecolstart exclude
    else
      if storage.cols ≠ firstcount + storagecolstart then .throws
      else if storage.rows ≠ secondindexes.length + storagerowstart then .throws
      else this.getSubIdx0 firststart firstcount secondindexes firstIsRow storage storagerowstart
        storagecolstart exclude

/-- `Matrix::GetSub0` (indexes × indexes), matrix.cpp:1346-1359. -/
def Mat.getSubIdx2_0 (this : Mat α) (rowindexes colindexes : List Int) (storage : Mat α)
    (storagerowstart storagecolstart : Int) : Outcome (Mat α) :=
  (countFrom storagerowstart rowindexes).foldlM (fun d pi =>
    (countFrom storagecolstart colindexes).foldlM (fun d qj => do
      let v ← this.get0 pi.2 qj.2
      d.set0 pi.1 qj.1 v) d) storage

/-- `Matrix::GetSub` (indexes × indexes), matrix.cpp:1334-1344. -/
def Mat.getSubIdx2 (this : Mat α) (rowindexes colindexes : List Int) (storage : Mat α)
    (storagerowstart storagecolstart : Int) : Outcome (Mat α) :=
  if storage.rows ≠ rowindexes.length + storagerowstart then .throws
  else if storage.cols ≠ colindexes.length + storagecolstart then .throws
  else this.getSubIdx2_0 rowindexes colindexes storage storagerowstart storagecolstart

/-- `Matrix::CopyTo00`, matrix.cpp (element-wise copy of `length()` cells; see the lines of `CopyTo00`). -/
def Mat.copyTo00 (this : Mat α) (storage : Mat α) : Outcome (Mat α) :=
  (upTo 0 this.length).foldlM (fun d k => do
    let v ← read this.mem k
    let l ← write d.mem k v
    pure { d with data := some l }) storage

section NaN
variable (bad : α → Bool)

/-- The inner loop of `GetAnyNanRow`, matrix.cpp:561-567 and its three copies: is some cell of the row bad?
`row = &Data[i]; d = row[k * RowsCount]`.  `bad` is `isnan` or `isnan || isinf`. -/
def Mat.rowBroken (m : Mat α) (i : Int) : List Int → Outcome Bool
  | [] => .ok false
  | k :: ks => do
    let d ← read m.mem (i + k * m.rows)
    if bad d then pure true else m.rowBroken i ks

/-- `Matrix::GetAnyNanRow`, matrix.cpp:548-621: indexes of the rows WITHOUT a bad cell; `cols = none` is
the null pointer (all columns). -/
def Mat.getAnyNanRow (m : Mat α) (cols : Option (List Int)) : Outcome (List Int) :=
  let ks := match cols with
    | some c => c
    | none => upTo 0 m.cols
  (upTo 0 m.rows).foldlM (fun acc i => do
    let b ← m.rowBroken bad i ks
    if b then pure acc else pure (acc ++ [i])) []

/-- `Dataset`: `mHasNaN`, `mSelectColumn`, `StorageSize`; constructor dataset.cpp:21-31. -/
structure Dataset where
  hasNaN : Bool
  select : Bool
  storageSize : Int
  deriving DecidableEq, Repr

/-- `Dataset::Dataset`, dataset.cpp:21-31. -/
def Dataset.make (rows cols : Int) (hasNaN select : Bool) : Outcome Dataset :=
  if cols ≤ 0 ∨ rows ≤ 0 then .throws else .ok ⟨hasNaN, select, rows * cols⟩

/-- `Dataset::Calculate`, dataset.cpp:33-60; returns `Result`. -/
def Dataset.calculate (ds : Dataset) (data : Mat α) (colIndexes : Option (List Int)) (storage : List α) :
    Outcome (Mat α) :=
  if ds.select then
    match colIndexes with
    | none => .throws
    | some c =>
      if ds.hasNaN then do
        let v ← data.getAnyNanRow bad (some c)
        data.getSubIdx2 v c ⟨v.length, c.length, some storage⟩ 0 0
      else
        data.getSubIdx 0 data.rows c true ⟨data.rows, c.length, some storage⟩ 0 0 false
  else
    if ds.hasNaN then do
      let v ← data.getAnyNanRow bad none
      data.getSubIdx 0 data.cols v false ⟨v.length, data.cols, some storage⟩ 0 0 false
    else
      data.copyTo00 ⟨data.rows, data.cols, some storage⟩

/-- The writing loop of `RemoveNanVector_in`, matrix.cpp:631-648: `i` reads, `j` writes, in place; `n`
iterations are left. -/
def removeNanLoop : Nat → Int → Int → List α → Outcome (List α × Int)
  | 0, _, j, l => .ok (l, j)
  | n + 1, i, j, l => do
    let d ← read l i
    if bad d then removeNanLoop n (i + 1) j l
    else do
      let l' ← write l j d
      removeNanLoop n (i + 1) (j + 1) l'

/-- `Matrix::RemoveNanVector_in`, matrix.cpp:627-660. -/
def Mat.removeNanVectorIn (m : Mat α) : Outcome (Mat α) := do
  let (l, j) ← removeNanLoop bad m.length.toNat 0 0 m.mem
  if m.cols > 1 then pure ⟨1, j, m.data.map (fun _ => l)⟩ else pure ⟨j, 1, m.data.map (fun _ => l)⟩

/-- The loop over one column of `RemoveColumnsIn`, matrix.cpp:679-680. -/
def copyColumn (rows r w : Int) (l : List α) : Outcome (List α) :=
  (upTo 0 rows).foldlM (fun l i => do
    let d ← read l (r * rows + i)
    write l (w * rows + i) d) l

/-- The loop over columns of `RemoveColumnsIn`, matrix.cpp:671-682; state (memory, `ww`). -/
def removeColsLoop (rows : Int) (cols : List Int) : List Int → List α → Int → Outcome (List α × Int)
  | [], l, ww => .ok (l, ww)
  | j :: js, l, ww =>
    if j ∈ cols then removeColsLoop rows cols js l ww
    else do
      let l' ← copyColumn rows j ww l
      removeColsLoop rows cols js l' (ww + 1)

/-- `Matrix::RemoveColumnsIn`, matrix.cpp:662-686. -/
def Mat.removeColumnsIn (m : Mat α) (cols : List Int) : Outcome (Mat α) :=
  if cols = [] then .ok m
  else do
    let (l, ww) ← removeColsLoop m.rows cols (upTo 0 m.cols) m.mem 0
    pure ⟨m.rows, ww, m.data.map (fun _ => l)⟩

/-- The inner loop of `RemoveColumnsAnyNan_in`, matrix.cpp:704-711: copies the column until a bad value;
returns the memory and `broken`.  `n` iterations left from row `j`. -/
def copyUntilBad (rows rr ww : Int) : Nat → Int → List α → Outcome (List α × Bool)
  | 0, _, l => .ok (l, false)
  | n + 1, j, l => do
    let d ← read l (rr * rows + j)
    if bad d then pure (l, true)
    else do
      let l' ← write l (ww * rows + j) d
      copyUntilBad rows rr ww n (j + 1) l'

/-- The outer loop of `RemoveColumnsAnyNan_in`, matrix.cpp:700-716; `n` iterations left, read column `rr`,
write column `ww`. -/
def removeColsNanLoop (rows : Int) : Nat → Int → Int → List α → Outcome (List α × Int)
  | 0, _, ww, l => .ok (l, ww)
  | n + 1, rr, ww, l => do
    let (l', broken) ← copyUntilBad bad rows rr ww rows.toNat 0 l
    removeColsNanLoop rows n (rr + 1) (if broken then ww else ww + 1) l'

/-- `Matrix::RemoveColumnsAnyNan_in`, matrix.cpp:688-742. -/
def Mat.removeColumnsAnyNanIn (m : Mat α) : Outcome (Mat α) := do
  let (l, ww) ← removeColsNanLoop bad m.rows m.cols.toNat 0 0 m.mem
  pure ⟨m.rows, ww, m.data.map (fun _ => l)⟩

end NaN

/-! ## Rows and columns -/

/-- `Matrix::SetRowFromRow0`, matrix.cpp:1432-1439 (`&Data[i]`, then `d[RowsCount * j]`: the cell of `Set0`). -/
def Mat.setRowFromRow0 (this : Mat α) (i : Int) (source : Mat α) (k : Int) : Outcome (Mat α) :=
  (upTo 0 this.cols).foldlM (fun d j => do
    let v ← read source.mem (k + source.rows * j)
    d.set0 i j v) this

/-- `Matrix::SetRowFromRow`, matrix.cpp:1424-1431. -/
def Mat.setRowFromRow (this : Mat α) (i : Int) (source : Mat α) (k : Int) : Outcome (Mat α) :=
  if i ≥ this.rows ∨ i < 0 then .throws
  else if k ≥ source.rows ∨ k < 0 then .throws
  else this.setRowFromRow0 i source k

/-- `Matrix::SetColumnFromColumn`, matrix.cpp:1505-1520 (`b = &source.Data[RowsCount * k]`: this matrix's
row count; `&Data[RowsCount * j]`, then `d[i]`: the cell of `Set0`). -/
def Mat.setColumnFromColumn (this : Mat α) (j : Int) (source : Mat α) (k : Int) : Outcome (Mat α) :=
  if j ≥ this.cols ∨ j < 0 then .throws
  else if k ≥ source.cols ∨ k < 0 then .throws
  else (upTo 0 this.rows).foldlM (fun d i => do
    let v ← read source.mem (i + this.rows * k)
    d.set0 i j v) this

/-- `Matrix::SetColumnFromRow`, matrix.cpp:1489-1503 (the loop runs to `ColsCount`). -/
def Mat.setColumnFromRow (this : Mat α) (j : Int) (source : Mat α) (k : Int) : Outcome (Mat α) :=
  if j ≥ this.cols ∨ j < 0 then .throws
  else if k ≥ source.rows ∨ k < 0 then .throws
  else (upTo 0 this.cols).foldlM (fun d i => do
    let v ← source.get0 k i
    d.set0 i j v) this

/-- `Matrix::GetRow`, matrix.cpp:1583-1597. -/
def Mat.getRow (this : Mat α) (i : Int) (storage : Mat α) : Outcome (Mat α) :=
  if i ≥ this.rows ∨ i < 0 then .throws
  else if storage.length ≠ this.cols then .throws
  else (upTo 0 this.cols).foldlM (fun d j => do
    let v ← read this.mem (i + this.rows * j)
    let l ← write d.mem j v
    pure { d with data := some l }) storage

/-- `Matrix::GetColumn`, matrix.cpp:1599-1613. -/
def Mat.getColumn (this : Mat α) (j : Int) (storage : Mat α) : Outcome (Mat α) :=
  if j ≥ this.cols ∨ j < 0 then .throws
  else if storage.length ≠ this.rows then .throws
  else (upTo 0 this.rows).foldlM (fun d i => do
    let v ← read this.mem (this.rows * j + i)
    let l ← write d.mem i v
    pure { d with data := some l }) storage

/-- `std::max_element` of a list (`none` for an empty list: dereferencing `end()` is undefined). -/
def maxElem : List Int → Option Int
  | [] => none
  | a :: l => some (l.foldl max a)

/-- `Matrix::SortRowsBy`, matrix.cpp:881-906. -/
def Mat.sortRowsBy (this : Mat α) (storage : Mat α) (idx : List Int) : Outcome (Mat α) :=
  if storage.rows ≠ this.rows ∨ storage.cols ≠ this.cols then .throws
  else if (idx.length : Int) ≠ this.rows then .throws
  else match maxElem idx with
    | none => .ub
    | some mx =>
      if mx > storage.rows - 1 then .throws
      else (countFrom 0 idx).foldlM (fun d ji => d.setRowFromRow ji.1 this ji.2) storage

/-- `Matrix::SortColumnsBy`, matrix.cpp:908-933. -/
def Mat.sortColumnsBy (this : Mat α) (storage : Mat α) (idx : List Int) : Outcome (Mat α) :=
  if storage.rows ≠ this.rows ∨ storage.cols ≠ this.cols then .throws
  else if (idx.length : Int) ≠ this.cols then .throws
  else match maxElem idx with
    | none => .ub
    | some mx =>
      if mx > storage.cols - 1 then .throws
      else (countFrom 0 idx).foldlM (fun d ji => d.setColumnFromColumn ji.1 this ji.2) storage

/-! ## Packed symmetric matrices, `src/matrix/matrix_sym.cpp` -/

/-- `MatrixSym<has_diag>`: row count and packed memory. -/
structure SymMat (α : Type) where
  rows : Int
  data : List α
  deriving DecidableEq, Repr

/-- `MatrixSym::length_array`, matrix_sym.cpp:28-35 (`int` division truncates). -/
def symLength (diag : Bool) (n : Int) : Int :=
  if diag then (n * (n + 1)).tdiv 2 else (n * (n - 1)).tdiv 2

/-- The subscript computed in `Get0`/`Set0`, matrix_sym.cpp:59-104; `none` is the exception for the
diagonal of a matrix that does not store it. -/
def symIndex (diag : Bool) (n i j : Int) : Option Int :=
  if diag then
    if i > j then some (j * n + i - (j * (j + 1)).tdiv 2)
    else some (i * n + j - (i * (i + 1)).tdiv 2)
  else if i = j then none
  else if i > j then some (j * n + i - ((j + 1) * (j + 2)).tdiv 2)
  else some (i * n + j - ((i + 1) * (i + 2)).tdiv 2)

/-- `MatrixSym::Get`, matrix_sym.cpp:52-79. -/
def SymMat.get (diag : Bool) (m : SymMat α) (i j : Int) : Outcome α :=
  if i ≥ m.rows ∨ j ≥ m.rows ∨ i < 0 ∨ j < 0 then .throws
  else match symIndex diag m.rows i j with
    | none => .throws
    | some k => read m.data k

/-- `MatrixSym::Set`, matrix_sym.cpp:81-104. -/
def SymMat.set (diag : Bool) (m : SymMat α) (i j : Int) (v : α) : Outcome (SymMat α) :=
  if i ≥ m.rows ∨ j ≥ m.rows ∨ i < 0 ∨ j < 0 then .throws
  else match symIndex diag m.rows i j with
    | none => .throws
    | some k => do
      let l ← write m.data k v
      pure { m with data := l }

end Mx
end LDT
