import Verif.Model.MatrixAlg
import Verif.Model.MatrixElem
import Verif.Model.Correlation
import Verif.Spec.Varma
import Mathlib.LinearAlgebra.Matrix.NonsingularInverse
/-!
# Least squares: `src/ldt_statistics/statistics/statistics.cpp`, `Inv00` of `src/matrix/matrix_la.cpp`

Exact numbers of a field. Arrays handed over as pointers are lists; a matrix laid over a part of an array
(`SetData(&storage[p], …)`) is a matrix with that part (`Co.part`) as its memory, which has too few cells - so that a use is
`ub` - if the array ends too early.
-/
namespace LDT
namespace Ls
open Mx
open Co (part)

section
variable {K : Type} [Field K] [DecidableEq K]

/-- `Matrix::Dot0`, matrix_la.cpp:106-133 (`alpha = 1`, `beta = 0`, the defaults): sizes are not checked. -/
def dot0 (this b storage : Mat K) : Outcome (Mat K) :=
  storage.withMem (gemm false false this.rows b.cols this.cols 1 this.mem this.rows b.mem this.cols 0 storage.mem this.rows)

/-- `Matrix::DotTr0`, matrix_la.cpp:136-163. -/
def dotTr0 (this b storage : Mat K) : Outcome (Mat K) :=
  storage.withMem (gemm false true this.rows b.rows this.cols 1 this.mem this.rows b.mem b.rows 0 storage.mem this.rows)

/-- `Matrix::TrDot0`, matrix_la.cpp:166-193. -/
def trDot0 (this b storage : Mat K) : Outcome (Mat K) :=
  storage.withMem (gemm true false this.cols b.cols this.rows 1 this.mem this.rows b.mem this.rows 0 storage.mem this.cols)

/-- The leading `rows x rows` block of the memory as a matrix. -/
def square (a : Mat K) : Matrix (Fin a.rows.toNat) (Fin a.rows.toNat) K := fun i j => a.val i j

/-- The first `n * n` cells, column by column. -/
def squareCells {n : Nat} (m : Matrix (Fin n) (Fin n) K) : List K :=
  List.ofFn fun t : Fin (n * n) => m t.modNat t.divNat

/-- `Matrix::Inv00`, matrix_la.cpp:563-604, by the contract of the LAPACK routines `?getrf` and `?getri` in exact
arithmetic: the matrix is replaced by its inverse (0), or there is none (a positive number; the memory then holds factors,
which no caller reads, and is left as it is here). `work` has to have `rows * rows` cells; its contents afterwards are not
specified and no caller reads them. LAPACK rejects a leading dimension 0. -/
noncomputable def inv00 (a : Mat K) (work : List K) : Outcome (Int × Mat K) :=
  if a.rows < 1 ∨ (work.length : Int) < a.rows * a.rows ∨ (a.mem.length : Int) < a.rows * a.rows then .ub
  else if (square a).det ≠ 0 then
    .ok (0, { a with data := some (squareCells (square a)⁻¹ ++ a.mem.drop (a.rows.toNat * a.rows.toNat)) })
  else .ok (1, a)

/-- `y.Subtract0(Resid, Resid)`, matrix.cpp:1943-1946: `Resid[i] = y[i] - Resid[i]`. -/
def subtractFrom (y r : Mat K) : Outcome (Mat K) :=
  cellLoopIn y.length (fun i v => do
    let a ← read y.mem i
    pure (a - v)) r

/-- The results `Beta`, `Resid`, `Sigma`; `none` if not asked for. -/
structure Fit (K : Type) where
  beta : Mat K
  resid : Option (Mat K)
  sigma : Option (Mat K)

/-- `Ols::StorageSize` and `Gls::StorageSize`, statistics.cpp:72-86, 148-163; `sigma` switches `resid` on. -/
def storageSize (N m k : Int) (resid sigma : Bool) : Int :=
  k * m + (if resid || sigma then N * m else 0) + (if sigma then m * m else 0)

/-- `Ols::WorkSize`, statistics.cpp:88. -/
def olsWork (N k : Int) : Int := 2 * k * k + k * N

/-- `Resid` and `Sigma`, statistics.cpp:129-144, 218-230 (twice the same code). `Resid.TrDot` checks the sizes, which
agree. -/
def residuals (y x beta : Mat K) (storage : List K) (resid sigma : Bool) : Outcome (Fit K) :=
  let N := y.rows
  let m := y.cols
  let k := x.cols
  if resid || sigma then do
    let yhat ← dot0 x beta ⟨N, m, some (part storage (k * m) (N * m))⟩
    let r ← subtractFrom y yhat
    if sigma then do
      let s ← r.trDot r ⟨m, m, some (part storage (k * m + N * m) (m * m))⟩ 1 0
      pure ⟨beta, some r, some s⟩
    else pure ⟨beta, some r, none⟩
  else .ok ⟨beta, none, none⟩

/-- `Ols(N0, m0, k0, resid, sigma).Calculate(y, x, storage, work)`, statistics.cpp:72-145. -/
noncomputable def ols (N0 m0 k0 : Int) (resid sigma : Bool) (y x : Mat K) (storage work : List K) : Outcome (Fit K) :=
  let N := y.rows
  let k := x.cols
  let m := y.cols
  if x.rows ≠ N then .throws
  else if N < k then .throws
  else if olsWork N k < olsWork N0 k0 ∨ storageSize N m k resid sigma < storageSize N0 m0 k0 resid sigma then .throws
  else do
    let xx ← trDot0 x x ⟨k, k, some (part work 0 (k * k))⟩
    let (info, xx) ← inv00 xx (part work (k * k) (k * k))
    if info ≠ 0 then .throws
    else do
      let xxx ← dotTr0 xx x ⟨k, N, some (part work (k * k + k * k) (k * N))⟩
      let beta ← dot0 xxx y ⟨k, m, some (part storage 0 (k * m))⟩
      residuals y x beta storage resid sigma

/-- `Gls::WorkSize`, statistics.cpp:165-166. -/
def glsWork (N k : Int) (isOmegaInv : Bool) : Int :=
  let invs := if isOmegaInv then k else N
  invs * invs + k * k + 2 * k * N

/-- `if (mIsOmegaInv == false) omega.Inv00(…)`, statistics.cpp:202-207: in place. -/
noncomputable def invertOmega (isOmegaInv : Bool) (omega : Mat K) (work : List K) : Outcome (Int × Mat K) :=
  if isOmegaInv = false then inv00 omega work else .ok (0, omega)

/-- `Gls(N0, m0, k0, resid, sigma, isOmegaInv).Calculate(y, x, omega, storage, work)`, statistics.cpp:148-232, with the new
`omega`. The size of `temp` is that for `isOmegaInv = false` (the default of the constructor, statistics.cpp:181). -/
noncomputable def gls (N0 m0 k0 : Int) (resid sigma isOmegaInv : Bool) (y x omega : Mat K) (storage work : List K) :
    Outcome (Fit K × Mat K) :=
  let N := y.rows
  let k := x.cols
  let m := y.cols
  if x.rows ≠ N then .throws
  else if N < k then .throws
  else if glsWork N k false < glsWork N0 k0 isOmegaInv ∨
      storageSize N m k resid sigma < storageSize N0 m0 k0 resid sigma then .throws
  else do
    let invs := if isOmegaInv then k else N
    let p0 := invs * invs
    let (info, omega) ← invertOmega isOmegaInv omega (part work 0 p0)
    if info ≠ 0 then .throws
    else do
      let xo ← trDot0 x omega ⟨k, N, some (part work p0 (k * N))⟩
      let xox ← xo.dot x ⟨k, k, some (part work (p0 + k * N) (k * k))⟩ 1 0
      let (info, xox) ← inv00 xox (part work 0 p0)
      if info ≠ 0 then .throws
      else do
        let xoxxo ← xox.dot xo ⟨k, N, some (part work (p0 + k * N + k * k) (k * N))⟩ 1 0
        let beta ← dot0 xoxxo y ⟨k, m, some (part storage 0 (k * m))⟩
        let fit ← residuals y x beta storage resid sigma
        pure (fit, omega)

end
end Ls
end LDT
