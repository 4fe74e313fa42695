import Verif.Model.Matrix
/-!
# Matrix algebra: `src/matrix/matrix_la.cpp` and the checked wrappers in `src/matrix/matrix.cpp`

Cells are exact numbers: rounding is not modelled.  Memory and undefined behaviour are as in `Model/Matrix.lean`.
-/
namespace LDT
namespace Mx

variable {α : Type}

/-! ## Transposition -/

/-- `std::swap(Data[a], Data[b])`, matrix_la.cpp:406, 422. -/
def swapCells (l : List α) (a b : Int) : Outcome (List α) := do
  let x ← read l a
  let y ← read l b
  let l1 ← write l a y
  write l1 b x

/-- `Matrix::Transpose0(storage)`, matrix_la.cpp:391-397. -/
def Mat.transpose0 (this storage : Mat α) : Outcome (Mat α) :=
  (upTo 0 this.rows).foldlM (fun s i => (upTo 0 this.cols).foldlM (fun s j => do
    let v ← this.get0 i j
    s.set0 j i v) s) storage

/-- `Matrix::Transpose(storage)`, matrix.cpp:2275-2279. -/
def Mat.transposeTo (this storage : Mat α) : Outcome (Mat α) :=
  if storage.rows ≠ this.cols ∨ storage.cols ≠ this.rows then .throws else this.transpose0 storage

/-- The square case of `Matrix::Transpose()`, matrix_la.cpp:401-408. -/
def Mat.transposeSquare (m : Mat α) : Outcome (Mat α) := do
  let l ← (upTo 0 m.rows).foldlM (fun l i => (upTo (i + 1) m.cols).foldlM (fun l j =>
    swapCells l (j + m.rows * i) (i + m.rows * j)) l) m.mem
  pure { m with data := some l }

/-- `visited.at(a) = true`, matrix_la.cpp:421. -/
def markVisited (vis : List Bool) (a : Int) : Outcome (List Bool) :=
  if 0 ≤ a ∧ a < vis.length then .ok (vis.set a.toNat true) else .throws

/-- The inner `while (true)`, matrix_la.cpp:419-425; `k` bounds the number of rounds. -/
def followCycle (N cols c : Int) : Nat → Int → List Bool × List α → Outcome (List Bool × List α)
  | 0, _, _ => .diverges
  | k + 1, a, s => do
    let vis ← markVisited s.1 ((cols * a).tmod N)
    let l ← swapCells s.2 ((cols * a).tmod N) c
    if (cols * a).tmod N = c then pure (vis, l) else followCycle N cols c k ((cols * a).tmod N) (vis, l)

/-- One round of the loop over `c`, matrix_la.cpp:415-425. -/
def cycleFrom (N cols : Int) (fuel : Nat) (s : List Bool × List α) (c : Int) : Outcome (List Bool × List α) :=
  match s.1[c.toNat]? with
  | none => .throws
  | some true => .ok s
  | some false => followCycle N cols c fuel c s

/-- The non-square case of `Matrix::Transpose()`, matrix_la.cpp:409-428: cycles of `a ↦ ColsCount * a mod N`.
`std::vector<bool> visited(N)` with `N = -1` (no cells) throws. -/
def Mat.transposeCycles (m : Mat α) (fuel : Nat) : Outcome (Mat α) :=
  if m.length - 1 < 0 then .throws
  else do
    let s ← (upTo 0 (m.length - 1)).foldlM (cycleFrom (m.length - 1) m.cols fuel)
      (List.replicate (m.length - 1).toNat false, m.mem)
    pure { rows := m.cols, cols := m.rows, data := some s.2 }

/-- `Matrix::Transpose()`, matrix_la.cpp:399-429. -/
def Mat.transposeIn (m : Mat α) (fuel : Nat) : Outcome (Mat α) :=
  if m.rows = m.cols then m.transposeSquare else m.transposeCycles fuel

/-! ## Kronecker products -/

/-- The four nested loops with running `row` and `col` shared by the Kronecker functions,
matrix_la.cpp:438-449 (`m`, `p` rows outside; `n`, `q` columns inside; `v` the value written). -/
def kronLoops (m p n q : Int) (v : Int → Int → Int → Int → Outcome α) (storage : Mat α) : Outcome (Mat α × Int) :=
  (upTo 0 m).foldlM (fun s i => (upTo 0 p).foldlM (fun (s : Mat α × Int) ii => do
    let t ← (upTo 0 n).foldlM (fun t j => (upTo 0 q).foldlM (fun (t : Mat α × Int) jj => do
      let x ← v i ii j jj
      let d ← t.1.set0 s.2 t.2 x
      pure (d, t.2 + 1)) t) (s.1, (0 : Int))
    pure (t.1, s.2 + 1)) s) (storage, (0 : Int))

/-- The product of two cells, e.g. matrix_la.cpp:444. -/
def mulO [Mul α] (x y : Outcome α) : Outcome α := do
  let a ← x
  let b ← y
  pure (a * b)

/-- `Matrix::Kron0`, matrix_la.cpp:430-450. -/
def Mat.kron0 [Mul α] (this b storage : Mat α) : Outcome (Mat α) := do
  let r ← kronLoops this.rows b.rows this.cols b.cols (fun i ii j jj => mulO (this.get0 i j) (b.get0 ii jj)) storage
  pure r.1

/-- `(ii == jj ? 1 : 0)`, matrix_la.cpp:466. -/
def iden [Zero α] [One α] (a b : Int) : Outcome α := .ok (if a = b then 1 else 0)

/-- `Matrix::KronIden0`, matrix_la.cpp:452-471. -/
def Mat.kronIden0 [Mul α] [Zero α] [One α] (this : Mat α) (h : Int) (storage : Mat α) : Outcome (Mat α) := do
  let r ← kronLoops this.rows h this.cols h (fun i ii j jj => mulO (this.get0 i j) (iden ii jj)) storage
  pure r.1

/-- `Matrix::IdenKron0`, matrix_la.cpp:473-493. -/
def Mat.idenKron0 [Mul α] [Zero α] [One α] (this : Mat α) (h : Int) (storage : Mat α) : Outcome (Mat α) := do
  let r ← kronLoops h this.rows h this.cols (fun ii i jj j => mulO (this.get0 i j) (iden ii jj)) storage
  pure r.1

/-- `Matrix::TrKronIden0`, matrix_la.cpp:495-515. -/
def Mat.trKronIden0 [Mul α] [Zero α] [One α] (this : Mat α) (h : Int) (storage : Mat α) : Outcome (Mat α) := do
  let r ← kronLoops this.cols h this.rows h (fun i ii j jj => mulO (this.get0 j i) (iden ii jj)) storage
  pure r.1

/-- `Matrix::Kron`, matrix.cpp:2281-2287. -/
def Mat.kron [Mul α] (this b storage : Mat α) : Outcome (Mat α) :=
  if storage.cols ≠ this.cols * b.cols ∨ storage.rows ≠ this.rows * b.rows then .throws else this.kron0 b storage

/-- `Matrix::KronIden`, matrix.cpp:2289-2294. -/
def Mat.kronIden [Mul α] [Zero α] [One α] (this : Mat α) (m : Int) (storage : Mat α) : Outcome (Mat α) :=
  if storage.cols ≠ this.cols * m ∨ storage.rows ≠ this.rows * m then .throws else this.kronIden0 m storage

/-- `Matrix::IdenKron`, matrix.cpp:2296-2301. -/
def Mat.idenKron [Mul α] [Zero α] [One α] (this : Mat α) (m : Int) (storage : Mat α) : Outcome (Mat α) :=
  if storage.cols ≠ this.cols * m ∨ storage.rows ≠ this.rows * m then .throws else this.idenKron0 m storage

/-- `Matrix::TrKronIden`, matrix.cpp:2303-2308. -/
def Mat.trKronIden [Mul α] [Zero α] [One α] (this : Mat α) (m : Int) (storage : Mat α) : Outcome (Mat α) :=
  if storage.cols ≠ this.rows * m ∨ storage.rows ≠ this.cols * m then .throws else this.trKronIden0 m storage

/-! ## Products -/

section Blas
variable [Zero α] [Add α] [Mul α] [DecidableEq α]

/-- Element `(i, l)` of `op(A)` with leading dimension `ld` (BLAS convention). -/
def opGet (trans : Bool) (a : List α) (ld i l : Int) : Outcome α :=
  read a (if trans then l + ld * i else i + ld * l)

/-- `Σ_{l<k} x l * y l`. -/
def dotSum (k : Int) (x y : Int → Outcome α) : Outcome α :=
  (upTo 0 k).foldlM (fun s l => do
    let p ← mulO (x l) (y l)
    pure (s + p)) 0

/-- `alpha * t + beta * C[k]`; with `beta == 0` the old value is not used (BLAS convention). -/
def blasWrite (alpha beta : α) (c : List α) (k : Int) (t : α) : Outcome (List α) :=
  if beta = 0 then write c k (alpha * t)
  else do
    let old ← read c k
    write c k (alpha * t + beta * old)

/-- BLAS rejects a leading dimension below `max(1, rows)`; what happens then (message, abort, exception) depends
on the library, so it counts as `ub`. -/
def ldOk (ld rows : Int) : Bool := 1 ≤ ld && rows ≤ ld

/-- `?gemm` (external library, BLAS contract): `C := alpha*op(A)*op(B) + beta*C`, column-major, `C` being
`M × N` and the inner dimension `K`. -/
def gemm (ta tb : Bool) (M N K : Int) (alpha : α) (a : List α) (lda : Int) (b : List α) (ldb : Int) (beta : α)
    (c : List α) (ldc : Int) : Outcome (List α) :=
  if ¬ (ldOk lda (if ta then K else M) ∧ ldOk ldb (if tb then N else K) ∧ ldOk ldc M) then .ub
  else (upTo 0 N).foldlM (fun c j => (upTo 0 M).foldlM (fun c i => do
    let t ← dotSum K (fun l => opGet ta a lda i l) (fun l => opGet tb b ldb l j)
    blasWrite alpha beta c (i + ldc * j) t) c) c

/-- `?syrk` with `uplo = 'U'` (external library, BLAS contract): the upper triangle of
`C := alpha*op(A)*op(A)' + beta*C`, `C` being `N × N`. -/
def syrkU (ta : Bool) (N K : Int) (alpha : α) (a : List α) (lda : Int) (beta : α) (c : List α) (ldc : Int) :
    Outcome (List α) :=
  if ¬ (ldOk lda (if ta then K else N) ∧ ldOk ldc N) then .ub
  else (upTo 0 N).foldlM (fun c j => (upTo 0 (j + 1)).foldlM (fun c i => do
    let t ← dotSum K (fun l => opGet ta a lda i l) (fun l => opGet ta a lda j l)
    blasWrite alpha beta c (i + ldc * j) t) c) c

/-- Element `(i, l)` of a symmetric matrix of which only one triangle is read (BLAS contract of `?symm`). -/
def symGet (upper : Bool) (a : List α) (ld i l : Int) : Outcome α :=
  if upper then read a (if i ≤ l then i + ld * l else l + ld * i)
  else read a (if l ≤ i then i + ld * l else l + ld * i)

/-- Cell `(i, j)` of the product in `?symm`. -/
def symSum (left upper : Bool) (M N : Int) (a : List α) (lda : Int) (b : List α) (ldb i j : Int) : Outcome α :=
  if left then dotSum M (fun l => symGet upper a lda i l) (fun l => read b (l + ldb * j))
  else dotSum N (fun l => read b (i + ldb * l)) (fun l => symGet upper a lda l j)

/-- `?symm` (external library, BLAS contract): `C := alpha*A*B + beta*C` (`left`) or `alpha*B*A + beta*C`, with
`A` symmetric. -/
def symm (left upper : Bool) (M N : Int) (alpha : α) (a : List α) (lda : Int) (b : List α) (ldb : Int) (beta : α)
    (c : List α) (ldc : Int) : Outcome (List α) :=
  if ¬ (ldOk lda (if left then M else N) ∧ ldOk ldb M ∧ ldOk ldc M) then .ub
  else (upTo 0 N).foldlM (fun c j => (upTo 0 M).foldlM (fun c i => do
    let t ← symSum left upper M N a lda b ldb i j
    blasWrite alpha beta c (i + ldc * j) t) c) c

/-- A call that replaces the memory of the storage. -/
def Mat.withMem (m : Mat α) (o : Outcome (List α)) : Outcome (Mat α) := do
  let l ← o
  pure { m with data := some l }

/-- `Matrix::Dot` and `Dot0`, matrix.cpp:2154-2163, matrix_la.cpp:106-133. -/
def Mat.dot (this b storage : Mat α) (alpha beta : α) : Outcome (Mat α) :=
  if this.cols ≠ b.rows then .throws
  else if this.rows ≠ storage.rows ∨ b.cols ≠ storage.cols then .throws
  else storage.withMem (gemm false false this.rows b.cols this.cols alpha this.mem this.rows b.mem this.cols beta
    storage.mem this.rows)

/-- `Matrix::DotTr` and `DotTr0`, matrix.cpp:2165-2174, matrix_la.cpp:136-163. -/
def Mat.dotTr (this b storage : Mat α) (alpha beta : α) : Outcome (Mat α) :=
  if this.cols ≠ b.cols then .throws
  else if this.rows ≠ storage.rows ∨ b.rows ≠ storage.cols then .throws
  else storage.withMem (gemm false true this.rows b.rows this.cols alpha this.mem this.rows b.mem b.rows beta
    storage.mem this.rows)

/-- `Matrix::TrDot` and `TrDot0`, matrix.cpp:2176-2185, matrix_la.cpp:166-193. -/
def Mat.trDot (this b storage : Mat α) (alpha beta : α) : Outcome (Mat α) :=
  if this.rows ≠ b.rows then .throws
  else if this.cols ≠ storage.rows ∨ b.cols ≠ storage.cols then .throws
  else storage.withMem (gemm true false this.cols b.cols this.rows alpha this.mem this.rows b.mem this.rows beta
    storage.mem this.cols)

/-- `Matrix::TrDotTr` and `TrDotTr0`, matrix.cpp:2187-2196, matrix_la.cpp:196-223. -/
def Mat.trDotTr (this b storage : Mat α) (alpha beta : α) : Outcome (Mat α) :=
  if this.rows ≠ b.cols then .throws
  else if this.cols ≠ storage.rows ∨ b.rows ≠ storage.cols then .throws
  else storage.withMem (gemm true true this.cols b.rows this.rows alpha this.mem this.rows b.mem b.rows beta
    storage.mem this.cols)

/-- Copying the upper triangle into the lower one, matrix_la.cpp:264-272, 297-304. -/
def copyLower (n : Int) (storage : Mat α) : Outcome (Mat α) :=
  (upTo 0 n).foldlM (fun s i => (upTo 0 n).foldlM (fun s j =>
    if i ≤ j then .ok s
    else do
      let v ← s.get0 j i
      s.set0 i j v) s) storage

/-- The end of `Dot_AAt0` and `Dot_AtA0`: the lower part is set on request. -/
def finishLower (setLower : Bool) (n : Int) (o : Outcome (Mat α)) : Outcome (Mat α) := do
  let s ← o
  if setLower then copyLower n s else pure s

/-- `Matrix::Dot_AAt` and `Dot_AAt0`, matrix.cpp:2216-2222, matrix_la.cpp:241-273. -/
def Mat.dotAAt (this storage : Mat α) (setLower : Bool) (alpha beta : α) : Outcome (Mat α) :=
  if storage.rows ≠ this.rows ∨ storage.cols ≠ this.rows then .throws
  else finishLower setLower this.rows
    (storage.withMem (syrkU false this.rows this.cols alpha this.mem this.rows beta storage.mem this.rows))

/-- `Matrix::Dot_AtA` and `Dot_AtA0`, matrix.cpp:2224-2230, matrix_la.cpp:275-305. -/
def Mat.dotAtA (this storage : Mat α) (setLower : Bool) (alpha beta : α) : Outcome (Mat α) :=
  if storage.rows ≠ this.cols ∨ storage.cols ≠ this.cols then .throws
  else finishLower setLower this.cols
    (storage.withMem (syrkU true this.cols this.rows alpha this.mem this.rows beta storage.mem this.cols))

/-- `Matrix::SymDot` and `SymDot0`, matrix.cpp:2243-2255, matrix_la.cpp:342-365. -/
def Mat.symDot (this b storage : Mat α) (uppertrig : Bool) (alpha beta : α) : Outcome (Mat α) :=
  if this.rows ≠ this.cols then .throws
  else if this.cols ≠ b.rows then .throws
  else if this.rows ≠ storage.rows ∨ b.cols ≠ storage.cols then .throws
  else storage.withMem (symm true uppertrig this.rows b.cols alpha this.mem this.rows b.mem this.cols beta
    storage.mem this.rows)

/-- `Matrix::DotSym` and `DotSym0`, matrix.cpp:2257-2269, matrix_la.cpp:367-389 (`uplo = uppertrig ? 'L' : 'U'`). -/
def Mat.dotSym (this b storage : Mat α) (uppertrig : Bool) (alpha beta : α) : Outcome (Mat α) :=
  if b.rows ≠ b.cols then .throws
  else if this.cols ≠ b.rows then .throws
  else if this.rows ≠ storage.rows ∨ b.cols ≠ storage.cols then .throws
  else storage.withMem (symm false (!uppertrig) storage.rows storage.cols alpha b.mem storage.cols this.mem
    storage.rows beta storage.mem storage.rows)

end Blas

/-- `Matrix::DotDiag` and `DotDiag0`, matrix.cpp:2198-2205, matrix_la.cpp:226-232 (both loops run to `RowsCount`). -/
def Mat.dotDiag [Mul α] (this b storage : Mat α) : Outcome (Mat α) :=
  if this.cols ≠ b.length then .throws
  else if this.rows ≠ storage.rows ∨ b.length ≠ storage.cols then .throws
  else (upTo 0 this.rows).foldlM (fun s j => (upTo 0 this.rows).foldlM (fun s i => do
    let v ← mulO (read b.mem j) (this.get0 i j)
    s.set0 i j v) s) storage

/-- `Matrix::DiagDot` and `DiagDot0`, matrix.cpp:2207-2214, matrix_la.cpp:234-239. -/
def Mat.diagDot [Mul α] (this b storage : Mat α) : Outcome (Mat α) :=
  if b.rows ≠ this.length then .throws
  else if b.cols ≠ storage.cols ∨ this.length ≠ storage.rows then .throws
  else (upTo 0 this.length).foldlM (fun s i => (upTo 0 b.cols).foldlM (fun s j => do
    let v ← mulO (read this.mem i) (b.get0 i j)
    s.set0 i j v) s) storage

end Mx
end LDT
