import Verif.Model.Poly
import Mathlib.Data.Matrix.Basic
/-!
# VARMA algebra: `src/ldt_statistics/modeling/time_series/varma/*.cpp`

Sizes and lag lists, differencing and undifferencing of a panel of series, the AR/MA/MA∞ polynomials of a
coefficient matrix, restriction matrices, the regressor matrix and the mean and variance of forecasts.
Estimation (`Inv0`, optimisation) is not modelled.  Numbers are elements of a ring.
-/
namespace LDT
namespace Varma
open Mx Poly

/-- The seasonal loop `for (i = s; i <= bound; i += s)`, varma_sizes.cpp:18-20 (`fuel` bounds the number of
iterations; `bound` is enough as `s ≥ 1`). -/
def lagLoop (s bound : Int) : Nat → Int → List Int
  | 0, _ => []
  | fuel + 1, i => if i ≤ bound then i :: lagLoop s bound fuel (i + s) else []

/-- `ExpandPoly`, varma_sizes.cpp:13-21. -/
def expandPoly (p P s : Int) : List Int :=
  if p = 0 ∧ P = 0 then []
  else upTo 1 (p + 1) ++ (if s > 0 then lagLoop s (s * P) (s * P).toNat s else [])

/-- `VarmaSizes`, varma.h and varma_sizes.cpp:93-175: the members that `Calculate` and `UpdateChanged` set. -/
structure Sizes where
  obsCount : Int
  eqsCount : Int
  exoCount : Int
  arLags : List Int
  maLags : List Int
  diffPoly : List Int
  deriving DecidableEq, Repr

namespace Sizes

/-- varma_sizes.cpp:153. -/
def arLength (z : Sizes) : Int := z.arLags.length
/-- varma_sizes.cpp:154. -/
def maLength (z : Sizes) : Int := z.maLags.length
/-- varma_sizes.cpp:155: the last lag in the list. -/
def arMax (z : Sizes) : Int := (z.arLags.getLast?).getD 0
/-- varma_sizes.cpp:156. -/
def maMax (z : Sizes) : Int := (z.maLags.getLast?).getD 0
/-- varma_sizes.cpp:157. -/
def diffDegree (z : Sizes) : Int := if z.diffPoly.length = 0 then 0 else (z.diffPoly.length : Int) - 1
/-- varma_sizes.cpp:158. -/
def arMaxD (z : Sizes) : Int := z.arMax + z.diffDegree
/-- varma_sizes.cpp:165. -/
def hasAr (z : Sizes) : Bool := z.arLength ≠ 0
/-- varma_sizes.cpp:166. -/
def hasMa (z : Sizes) : Bool := z.maLength ≠ 0
/-- varma_sizes.cpp:167. -/
def hasDiff (z : Sizes) : Bool := z.diffPoly.length > 1
/-- varma_sizes.cpp:168. -/
def maStart (z : Sizes) : Int := z.arLength * z.eqsCount + z.exoCount
/-- varma_sizes.cpp:169. -/
def numParamsEq (z : Sizes) : Int := z.maStart + z.maLength * z.eqsCount
/-- varma_sizes.cpp:170. -/
def numParams (z : Sizes) : Int := z.numParamsEq * z.eqsCount
/-- varma_sizes.cpp:171. -/
def T (z : Sizes) : Int := z.obsCount - z.arMaxD

end Sizes

/-- `VarmaSizes::VarmaSizes(…, calculate = true)`, varma_sizes.cpp:93-161; arguments `(p, d, q) × (P, D, Q)_m`
(`arP, arD, arQ, maP, maD, maQ, seasonsCount` in the code); `junk` is the content of the work array. -/
def makeSizes (junk : Int) (obs eqs exo p d q P D Q m : Int) : Outcome Sizes :=
  let m := if m < 2 then 0 else m
  if p < 0 ∨ d < 0 ∨ D < 0 ∨ P < 0 ∨ q < 0 ∨ Q < 0 ∨ m < 0 then .throws
  else if m = 0 ∧ (P ≠ 0 ∨ Q ≠ 0 ∨ D ≠ 0) then .throws
  else if p = 0 ∧ q = 0 ∧ P = 0 ∧ Q = 0 then .throws
  else do
    let dp ← Poly.diffPoly junk d D m
    pure { obsCount := obs, eqsCount := eqs, exoCount := exo, arLags := expandPoly p P m,
           maLags := expandPoly q Q m, diffPoly := dp }

variable {K : Type}

/-- `Matrix::SetColumn0(j, value)`, matrix.cpp:1546-1550. -/
def setColumn0 (m : Mat K) (j : Int) (v : K) : Outcome (Mat K) :=
  (upTo 0 m.rows).foldlM (fun m i => m.set0 i j v) m

/-- `Varma::Difference`, varma.cpp:24-41; returns the storage.  `polyDiff.at(f)` is in range. -/
def difference [Ring K] (poly : List Int) (y storage : Mat K) : Outcome (Mat K) :=
  let g : Int := poly.length - 1
  (upTo 0 y.cols).foldlM (fun st i =>
    if i < g then pure st
    else do
      let st ← setColumn0 st (i - g) 0
      (upTo 0 y.rows).foldlM (fun st j =>
        (upTo 0 poly.length).foldlM (fun st f => do
          let old ← st.get0 j (i - g)
          let p ← Mx.read poly f
          let v ← y.get0 j (i - f)
          st.set0 j (i - g) (old + (p : K) * v)) st) st) storage

/-- `Varma::UnDiferences`, varma.cpp:43-58. -/
def undifference [Ring K] (poly : List Int) (storage : Mat K) : Outcome (Mat K) :=
  let h : Int := poly.length - 1
  (upTo 0 storage.cols).foldlM (fun st j =>
    if j < h then pure st
    else
      (upTo 1 (h + 1)).foldlM (fun st k => do
        let d ← Mx.read poly k
        (upTo 0 st.rows).foldlM (fun st i => do
          let x ← st.get0 i j
          let z ← st.get0 i (j - k)
          st.set0 i j (x - (d : K) * z)) st) st) storage

/-- `Pi.GetSub0(0, i, m, m, coefficient, 0, 0)`, varma_arma.cpp:76 and 95: the `m × m` block of columns
`i … i+m-1`.  `GetSub0` has no checks; a block that leaves the matrix is `ub` here even where the memory behind
the matrix would happen to exist. -/
def block [Zero K] (m : Nat) (Pi : Mat K) (i : Int) : Outcome (Matrix (Fin m) (Fin m) K) :=
  if 0 ≤ i ∧ i + m ≤ Pi.cols ∧ (m : Int) ≤ Pi.rows ∧ Pi.rows * Pi.cols ≤ Pi.mem.length then
    .ok (fun r c => (Pi.mem[((r : Int) + Pi.rows * (i + c)).toNat]?).getD 0)
  else .ub

/-- The loops that fill `Ar` and `Ma`, varma_arma.cpp:67-82 and 88-99: for `k = 1 … max` a block is taken if `k`
is a lag (and the column counter advances by `m`), otherwise the coefficient is zero.  Coefficient `0` is the
identity (`Matrix::Diagonal`). -/
def lagPoly {R : Type} [Zero R] [One R] (lags : List Int) (max m start : Int) (blk : Int → Outcome R)
    (f : R → R) : Outcome (List R) := do
  let st ← (upTo 1 (max + 1)).foldlM (fun (st : Int × List R) k =>
    if k ∈ lags then do
      let b ← blk st.1
      pure (st.1 + m, st.2 ++ [f b])
    else pure (st.1, st.2 ++ [0])) (start, [1])
  pure st.2

/-- `VarmaArma::Calculate`, the AR polynomial, varma_arma.cpp:62-82 (after the size check of lines 57-58). -/
def arPoly [Ring K] (z : Sizes) (m : Nat) (Pi : Mat K) : Outcome (List (Matrix (Fin m) (Fin m) K)) :=
  lagPoly z.arLags z.arMax m 0 (block m Pi) (fun b => -b)

/-- `VarmaArma::Calculate`, the MA polynomial, varma_arma.cpp:84-99. -/
def maPoly [Ring K] (z : Sizes) (m : Nat) (Pi : Mat K) : Outcome (List (Matrix (Fin m) (Fin m) K)) :=
  lagPoly z.maLags z.maMax m (z.numParamsEq - m * z.maLength) (block m Pi) (fun b => b)

section
variable {R : Type}

/-- The loop that copies MA into MA∞, varma_arma.cpp:107-113; returns the storage and the counter. -/
def copyMa (count : Int) : List R → Int → List R → Outcome (List R × Int)
  | [], i, st => .ok (st, i)
  | a :: l, i, st => do
    let st ← write st i a
    if i = count then pure (st, i) else copyMa count l (i + 1) st

/-- `mul1.Calculate(Ar, diffPoly)`, varma_arma.cpp:125-143, or `Ar` itself without differencing. -/
def arDiffPoly [Ring R] (junk : R) (hasDiff : Bool) (ar : List R) (diff : List Int) : Outcome (List R) :=
  if hasDiff then
    let sz := mulSize (degree ar) ((diff.length : Int) - 1) intMax
    mulResult sz ar (diff.map (fun z : Int => (z : R))) (List.replicate sz.toNat junk) intMax
  else .ok ar

/-- `VarmaArma::Calculate`, the MA∞ polynomial, varma_arma.cpp:101-153, with `hasAr`, `hasDiff`, `hasMa`, the AR and
MA polynomials, the differencing polynomial, `count > 0` coefficients and the memory from the start of `MaInf` on
(in matrices).  The work area is as large as the constructor says (`junk` in it). -/
def maInf [Ring R] (inv : R → Option R) (junk : R) (hasAr hasDiff hasMa : Bool) (ar ma : List R) (diff : List Int)
    (count : Int) (storage : List R) : Outcome (List R) :=
  if !hasDiff && !hasAr then do
    let (st, i) ← copyMa count ma 0 storage
    (upTo i (count + 1)).foldlM (fun st i => write st i 0) st
  else do
    let arDiff ← arDiffPoly junk hasDiff ar diff
    let wsize := (if hasDiff then degree ar + ((diff.length : Int) - 1) + 1 else degree ar) + 1
    if hasMa then do
      let b ← invResult inv count wsize arDiff (List.replicate count.toNat junk) count
      multiply (mulSize (degree b) (degree ma) intMax) b ma storage count
    else invert inv count wsize arDiff storage count

end

/-- `VarmaRestriction::Calculate` for `kGeneral`, varma_restriction.cpp:48-71: the columns are numbered by the
unrestricted parameters met so far.  `R` is laid over `storage`; the count check comes after the zeros are set. -/
def restrictGeneral [Zero K] [One K] (params minCount : Int) (restricted : List Int) (storage : List K) :
    Outcome (Mat K) := do
  let q := params - restricted.length
  let st ← fill storage (params * q) 0
  if minCount > restricted.length then .throws
  else do
    let r ← (upTo 0 params).foldlM (fun (s : Mat K × Int) i => do
      let j := s.2 + 1
      if i ∈ restricted then pure (s.1, j - 1)
      else do
        let m ← s.1.set0 i j 1
        pure (m, j)) ({ rows := params, cols := q, data := some st }, -1)
    pure r.1

/-- The body of the `while (true)` loop for `kMaFinal`, varma_restriction.cpp:79-86, `fuel` iterations. -/
def finalLoop [One K] (eqs q : Int) : Nat → Int → Int → Mat K → Outcome (Mat K)
  | 0, _, _, _ => .diverges
  | fuel + 1, row, col, m => do
    let m ← (upTo 0 eqs).foldlM (fun m j => m.set0 (row + j * (eqs + 1)) col 1) m
    if col + 1 = q then pure m else finalLoop eqs q fuel (row + eqs * eqs) (col + 1) m

/-- `VarmaRestriction::Calculate` for `kMaFinal`, varma_restriction.cpp:72-87, with the size of `R` fixed by the
constructor, varma_restriction.cpp:27-39. -/
def restrictFinal [Zero K] [One K] (z : Sizes) (storage : List K) : Outcome (Mat K) := do
  let q := z.eqsCount * z.numParamsEq - z.maLength * (z.eqsCount * z.eqsCount - 1)
  let st ← fill storage (z.numParams * q) 0
  let m ← (upTo 0 (z.maStart * z.eqsCount)).foldlM (fun m i => m.set0 i i 1)
    ({ rows := z.numParams, cols := q, data := some st } : Mat K)
  let row := max 0 (z.maStart * z.eqsCount)
  finalLoop z.eqsCount q (q.toNat + 1) row row m

end Varma
end LDT
