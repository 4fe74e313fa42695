import Verif.Model.Matrix
/-!
# Polynomials: `src/ldt_math/polynomials/polynomial.cpp`, `mpolynomial.cpp`

`Polynomial<Tw>` is a column of coefficients, lowest degree first; here a `List R` (its `length` cells).
Coefficients live in an arbitrary ring `R` (`Tw` is `Ti` or `Tv`; exact arithmetic).
`PolynomialM` is a vector of pointers to `m × m` matrices; here also a `List R` with `R` the (non-commutative)
ring of those matrices.  `Dot0` (BLAS `gemm`), `Add_in0`, `Multiply0` and `SetValue(0)` are the ring operations;
matrices whose sizes differ from that of the first coefficient are not represented.
Storage and work areas given by the caller are lists of cells (of matrices for `PolynomialM`); a write outside
is `ub`.
-/
namespace LDT
namespace Poly
open Mx

variable {R : Type}

/-- The trimming loop of `Polynomial::Data`, polynomial.cpp:26-29: the value of `j` after
`for (j = n; j > 0; j--) if (a.Data[j-1] != 0) break;`. -/
def trimLen [Zero R] [DecidableEq R] (a : List R) : Nat → Nat
  | 0 => 0
  | j + 1 => if (a[j]?).getD 0 = 0 then trimLen a j else j + 1

/-- `Polynomial::Data(Matrix &a, bool trim)`, polynomial.cpp:22-37, and `PolynomialM::Data(vector, trim)`,
mpolynomial.cpp:29-45 (there an empty `a` throws also without trimming). The coefficients are the first `j`
cells of `a`. -/
def data [Zero R] [DecidableEq R] (a : List R) (trim : Bool) : Outcome (List R) :=
  if trim then
    if trimLen a a.length = 0 then .throws else .ok (a.take (trimLen a a.length))
  else .ok a

/-- `GetDegree`, polynomial.cpp:43-45 and mpolynomial.cpp:59. -/
def degree (a : List R) : Int := (a.length : Int) - 1

/-- `Matrix::SetData(value, data, n, 1)`, matrix.cpp:150-158 (`n ≠ -1`): the first `n` cells become `v`. -/
def fill (storage : List R) (n : Int) (v : R) : Outcome (List R) :=
  (upTo 0 n).foldlM (fun s i => write s i v) storage

/-- `PolynomialMultiply(degree_a, degree_b, maxLength).StorageSize`, polynomial.cpp:52-57; for
`PolynomialMMultiply`, mpolynomial.cpp:71-75, in units of `size * size`. -/
def mulSize (degA degB maxLength : Int) : Int := min (degA + degB + 1) maxLength

/-- `PolynomialMultiply::Calculate`, polynomial.cpp:59-80, with `StorageSize = size` of the object;
`PolynomialMMultiply::Calculate`, mpolynomial.cpp:77-103 (and 105-131 with a scalar polynomial `b`, whose
coefficients are seen as multiples of the identity).  Returns the storage; the coefficients of `Result` are its
first `mulSize` cells. -/
def multiply [Zero R] [Add R] [Mul R] (size : Int) (a b storage : List R) (maxLength : Int) : Outcome (List R) :=
  let length := mulSize (degree a) (degree b) maxLength
  if length > size then .throws
  else do
    let s ← fill storage length 0
    (upTo 0 (degree a + 1)).foldlM (fun s i =>
      (upTo 0 (degree b + 1)).foldlM (fun s j =>
        if i + j < length then do
          let old ← Mx.read s (i + j)
          let x ← Mx.read a i
          let y ← Mx.read b j
          write s (i + j) (old + x * y)
        else pure s) s) s

/-- `Result` of `multiply`: the polynomial over the first cells of the storage, polynomial.cpp:70. -/
def mulResult [Zero R] [Add R] [Mul R] (size : Int) (a b storage : List R) (maxLength : Int) :
    Outcome (List R) := do
  let s ← multiply size a b storage maxLength
  pure (s.take (mulSize (degree a) (degree b) maxLength).toNat)

/-- `PolynomialPower(power, degree, maxLength).StorageSize`, polynomial.cpp:87-88. -/
def powSize (power deg maxLength : Int) : Int := min (power * deg + 1) maxLength

/-- `PolynomialPower(power, degree, maxLength).WorkSize`, polynomial.cpp:89-90. -/
def powWork (power deg maxLength : Int) : Int := mulSize deg (powSize power deg maxLength - 1) maxLength

/-- `Matrix::SetSubVector0(0, source, 0, count)` / `CopyTo00`, matrix.cpp:1187-1195 and 1071-1074. -/
def copyCells (dest source : List R) (count : Int) : Outcome (List R) :=
  (upTo 0 count).foldlM (fun d i => do
    let v ← Mx.read source i
    write d i v) dest

/-- `PolynomialPower::Calculate`, polynomial.cpp:94-120, for an object built with `size`, `wsize`; returns the
storage (the coefficients of `Result` are its first `powSize` cells). -/
def power [Zero R] [One R] [Add R] [Mul R] (size wsize : Int) (a : List R) (n : Int) (storage work : List R)
    (maxLength : Int) : Outcome (List R) :=
  let length := powSize n (degree a) maxLength
  if length > size ∨ powWork n (degree a) maxLength > wsize then .throws
  else do
    let s ← fill storage length 0
    if n = 0 then write s 0 1
    else do
      let s ← copyCells s a a.length
      let sw ← (upTo 1 n).foldlM (fun (sw : List R × List R) _ => do
        let w ← multiply (mulSize (degree a) (length - 1) maxLength) a (sw.1.take length.toNat) sw.2 maxLength
        let s ← copyCells sw.1 w length
        pure (s, w)) (s, work)
      pure sw.1

/-- `Result` of `power`. -/
def powResult [Zero R] [One R] [Add R] [Mul R] (size wsize : Int) (a : List R) (n : Int) (storage work : List R)
    (maxLength : Int) : Outcome (List R) := do
  let s ← power size wsize a n storage work maxLength
  pure (s.take (powSize n (degree a) maxLength).toNat)

/-- `PolynomialMInvert::Calculate`, mpolynomial.cpp:141-185, for an object built with storage for `size` and work
for `wsize` matrices.  `inv` is `Matrix::Inv` (LAPACK `getrf`/`getri`): `none` when it throws.  The `degree`
matrices `- inv0 * A_i` are kept in a vector, the last work matrix `x` is a temporary. -/
def invert [Zero R] [Add R] [Neg R] [Mul R] (inv : R → Option R) (size wsize : Int) (a storage : List R)
    (maxLength : Int) : Outcome (List R) :=
  match a with
  | [] => .throws            -- `a.Coefficients.at(0)`
  | a0 :: rest =>
    if maxLength > size ∨ degree a + 1 > wsize then .throws
    else if maxLength < 1 then .throws   -- `Result.Coefficients.at(0)`
    else
      match inv a0 with
      | none => .throws
      | some inv0 => do
        let s ← write storage 0 inv0
        let temps := rest.map (fun ai => -(inv0 * ai))
        (upTo 1 maxLength).foldlM (fun s k => do
          let s ← write s k 0
          (upTo 1 (degree a + 1)).foldlM (fun s j =>
            if k < j then pure s   -- `break`: the later `j` are larger still
            else do
              let t ← Mx.read temps (j - 1)
              let r ← Mx.read s (k - j)
              let old ← Mx.read s k
              write s k (old + t * r)) s) s

/-- `Result` of `invert`: `maxLength` coefficients, mpolynomial.cpp:151. -/
def invResult [Zero R] [Add R] [Neg R] [Mul R] (inv : R → Option R) (size wsize : Int) (a storage : List R)
    (maxLength : Int) : Outcome (List R) := do
  let s ← invert inv size wsize a storage maxLength
  pure (s.take maxLength.toNat)

/-- `INT_MAX`, the default `maxLength`, include/math/polynomial.h:52. -/
def intMax : Int := 2147483647

/-- One power of `ExpandPolyDiff`, varma_sizes.cpp:55-63 and 66-78, on the freshly allocated work array (zeros or
anything: `junk`). -/
def powDefault [Zero R] [One R] [Add R] [Mul R] (junk : R) (a : List R) (n : Int) : Outcome (List R) :=
  powResult (powSize n (degree a) intMax) (powWork n (degree a) intMax) a n
    (List.replicate (powSize n (degree a) intMax).toNat junk)
    (List.replicate (powWork n (degree a) intMax).toNat junk) intMax

/-- The regular part of `ExpandPolyDiff`, varma_sizes.cpp:54-63: `(1 - L)^d`. -/
def diffRegular (junk : Int) (d : Int) : Outcome (List Int) :=
  if d ≠ 0 then powDefault junk [1, -1] d else .ok []

/-- The seasonal part of `ExpandPolyDiff`, varma_sizes.cpp:65-78: `(1 - L^s)^D`. -/
def diffSeasonal (junk : Int) (D s : Int) : Outcome (List Int) :=
  if D ≠ 0 then do
    let j ← fill (List.replicate (s + 1).toNat junk) (s + 1) 0
    let j ← write j 0 1
    let j ← write j s (-1)
    powDefault junk j D
  else .ok []

/-- `ExpandPolyDiff`, varma_sizes.cpp:46-92, with the `else` branch `DiffPoly = {1}` of
`VarmaSizes::Calculate`, varma_sizes.cpp:156-159.  The work array is `new Ti[WorkSizeI]` cut into the areas used
(`ExpandPolyDiff_ws` adds the same sizes). -/
def diffPoly (junk : Int) (d D s : Int) : Outcome (List Int) :=
  if d = 0 ∧ D = 0 then .ok [1]
  else do
    let p1 ← diffRegular junk d
    let p2 ← diffSeasonal junk D s
    if d = 0 then pure p2
    else if D = 0 then pure p1
    else
      let sz := mulSize (powSize d 1 intMax - 1) (powSize D s intMax - 1) intMax
      mulResult sz p1 p2 (List.replicate sz.toNat junk) intMax

end Poly
end LDT
