import Verif.Model.MatrixStat
import Verif.Model.MatrixElem
import Verif.Model.MatrixAlg
import Verif.Model.Running
import Mathlib.Algebra.Order.Floor.Ring
/-!
# Class `Descriptive`: `src/ldt_statistics/statistics/descriptive.cpp`

The data is a matrix that is used as a vector. A cell is `Val K` (`none` is NaN); a division by zero gives `none`.
-/
namespace LDT
namespace De
open Mx
open Arr (Val Ext ltMin gtMax toExt sqrtV pow15V divV)

section
variable {K : Type} [Field K] [LinearOrder K]

/-- `if (d < min) min = d`, descriptive.cpp:22-25: false for NaN. -/
def minStep (s : Ext K) (_ : Int) (d : Val K) : Ext K := if ltMin d s then toExt d else s

/-- `if (d > max) max = d`, descriptive.cpp:46-49: false for NaN. -/
def maxStep (s : Ext K) (_ : Int) (d : Val K) : Ext K := if gtMax d s then toExt d else s

/-- `Minimum`, descriptive.cpp:14-28. -/
def minimum (m : Mat (Val K)) : Outcome (Ext K) :=
  if m.length = 0 then .ok .nan else scanCells m.mem 0 m.length minStep .posInf

/-- `MinimumSorted`, descriptive.cpp:30-35. -/
def minimumSorted (m : Mat (Val K)) : Outcome (Ext K) :=
  if m.length = 0 then .ok .nan else do
    let d ← read m.mem 0
    pure (toExt d)

/-- `Maximum`, descriptive.cpp:37-51. -/
def maximum (m : Mat (Val K)) : Outcome (Ext K) :=
  if m.length = 0 then .ok .nan else scanCells m.mem 0 m.length maxStep .negInf

/-- `MaximumSorted`, descriptive.cpp:53-59. -/
def maximumSorted (m : Mat (Val K)) : Outcome (Ext K) :=
  if m.length = 0 then .ok .nan else do
    let d ← read m.mem (m.length - 1)
    pure (toExt d)

end

section
variable {K : Type} [Field K] [DecidableEq K]

/-- `Sum`, descriptive.cpp:61. -/
def sum (m : Mat (Val K)) : Outcome (Val K) := m.sum

/-- The loop body of the mean of one cell, descriptive.cpp:71-74. -/
def meanStep (me : Val K) (i : Int) (d : Val K) : Val K := vadd me (vdiv (vsub d me) (vint (i + 1)))

/-- The loop body of `MeanVariance`, descriptive.cpp:82-88: (mean, m2). -/
def mvStep (s : Val K × Val K) (i : Int) (d : Val K) : Val K × Val K :=
  let diff := vsub d s.1
  let t := vdiv diff (vint (i + 1))
  (vadd s.1 t, vadd s.2 (vmul (vmul diff t) (vint i)))

/-- `MeanVariance(sample)`, descriptive.cpp:63-91. -/
def meanVariance (m : Mat (Val K)) (sample : Bool) : Outcome (Val K × Val K) :=
  if m.length = 0 then .ok (none, none)
  else if m.length = 1 then do
    let me ← scanCells m.mem 0 m.length meanStep (some 0)
    pure (me, none)
  else do
    let s ← scanCells m.mem 0 m.length mvStep (some 0, some 0)
    pure (s.1, if sample then vdiv s.2 (vint m.length) else vdiv s.2 (vint (m.length - 1)))

/-- The running sums of `MeanVarianceKurtosisSkewness`, descriptive.cpp:100-114 (without `sum` and `meanSquared`, which
are not used). -/
structure Run4 (K : Type) where
  count : Int
  mean : Val K
  m2 : Val K
  m3 : Val K
  m4 : Val K

/-- The loop body, descriptive.cpp:117-130. -/
def run4Step (r : Run4 K) (_ : Int) (d : Val K) : Run4 K :=
  let count := r.count + 1
  let diff := vsub d r.mean
  let s := vdiv diff (vint count)
  let s2 := vmul s s
  let t := vmul (vmul diff s) (vint (count - 1))
  { count := count
    mean := vadd r.mean s
    m4 := vadd r.m4 (vsub (vadd (vmul (vmul t s2) (vint (count * count - 3 * count + 3)))
      (vmul (vmul (vint 6) s2) r.m2)) (vmul (vmul (vint 4) s) r.m3))
    m3 := vadd r.m3 (vsub (vmul (vmul t s) (vint (count - 2))) (vmul (vmul (vint 3) s) r.m2))
    m2 := vadd r.m2 t }

/-- The loop of `MeanVarianceKurtosisSkewness`, descriptive.cpp:116-131. -/
def run4 (m : Mat (Val K)) : Outcome (Run4 K) := scanCells m.mem 0 m.length run4Step ⟨0, some 0, some 0, some 0, some 0⟩

/-- The loop body of the not centred sum of squares, descriptive.cpp:322-323. -/
def squareStep (s : Val K) (_ : Int) (d : Val K) : Val K := vadd s (vmul d d)

/-- The loop body of the centred sum of squares, descriptive.cpp:336-344: (count, mean, m2). -/
def centralStep (r : Int × Val K × Val K) (_ : Int) (d : Val K) : Int × Val K × Val K :=
  let count := r.1 + 1
  let diff := vsub d r.2.1
  let s := vdiv diff (vint count)
  let t := vmul (vmul diff s) (vint (count - 1))
  (count, vadd r.2.1 s, vadd r.2.2 t)

/-- `SumOfSquares(central)`, descriptive.cpp:319-347. -/
def sumOfSquares (m : Mat (Val K)) (central : Bool) : Outcome (Val K) :=
  if central = false then scanCells m.mem 0 m.length squareStep (some 0)
  else do
    let r ← scanCells m.mem 0 m.length centralStep (0, some 0, some 0)
    pure r.2.2

end

section
open Classical

/-- The skewness of descriptive.cpp:140-143. -/
noncomputable def skewness (sample : Bool) (n : Int) (m2 m3 : Val ℝ) : Val ℝ :=
  if sample then
    vmul (vdiv (vmul (vmul (vint n) m3) ((vdiv m2 (vint (n - 1))).bind sqrtV)) (vmul (vmul m2 m2) (vint (n - 2))))
      (vint (n - 1))
  else vdiv (vmul ((vint n).bind sqrtV) m3) (m2.bind pow15V)

/-- The kurtosis of descriptive.cpp:145-148. -/
noncomputable def kurtosis (sample : Bool) (n : Int) (m2 m4 : Val ℝ) : Val ℝ :=
  if sample then
    vmul (vdiv (vsub (vmul (vint n) (vint n)) (vint 1)) (vint ((n - 2) * (n - 3))))
      (vadd (vsub (vdiv (vmul (vint n) m4) (vmul m2 m2)) (vint 3)) (vdiv (vint 6) (vint (n + 1))))
  else vsub (vdiv (vmul (vint n) m4) (vmul m2 m2)) (vint 3)

/-- `MeanVarianceKurtosisSkewness(sample)`, descriptive.cpp:93-155: mean, variance, skewness and kurtosis. -/
noncomputable def fourMoments (m : Mat (Val ℝ)) (sample : Bool) : Outcome (Val ℝ × Val ℝ × Val ℝ × Val ℝ) :=
  if m.length = 0 then .ok (none, none, none, none)
  else do
    let r ← run4 m
    let variance := if r.count > 1 then
      (if sample then vdiv r.m2 (vint (r.count - 1)) else vdiv r.m2 (vint r.count)) else none
    let skew := if r.count > 2 then skewness sample r.count r.m2 r.m3 else none
    let kurt := if r.count > 3 then kurtosis sample r.count r.m2 r.m4 else none
    pure (r.mean, variance, skew, kurt)

end

section
variable {K : Type} [Field K] [LinearOrder K] [FloorRing K]

/-- `QuantileSorted(tau)`, descriptive.cpp:349-367. -/
def quantileSorted (m : Mat (Val K)) (tau : K) : Outcome (Val K) :=
  let count := m.length
  if count = 1 ∨ tau ≤ 0 then read m.mem 0
  else if tau ≥ 1 then read m.mem (count - 1)
  else
    let e3 : K := 1 / 3
    let h : K := ((count : K) + e3) * tau + e3
    let hf : Int := ⌊h⌋
    if hf < 1 then read m.mem 0
    else if hf ≥ count then m.getLin (count - 1)
    else do
      let a ← read m.mem (hf - 1)
      let b ← read m.mem hf
      pure (vadd a (vmul (some (h - hf)) (vsub b a)))

end

section
variable {K : Type} [Field K] [DecidableEq K]

/-- `Data[k] = v`. -/
def put {α : Type} (m : Mat α) (k : Int) (v : α) : Outcome (Mat α) := do
  let l ← write m.mem k v
  pure { m with data := some l }

/-- The new value of the recursive filter, descriptive.cpp:172-174. -/
def arSum (coefs s : Mat (Val K)) (i : Int) (r0 : Val K) : Outcome (Val K) :=
  (upTo 0 coefs.length).foldlM (fun r j => do
    let c ← read coefs.mem j
    let y ← read s.mem (i - j - 1)
    pure (vadd r (vmul c y))) r0

/-- `FilterAr(coefs, storage)`, descriptive.cpp:157-177. -/
def filterAr (x coefs storage : Mat (Val K)) : Outcome (Mat (Val K)) :=
  if storage.length < x.length then .throws
  else if coefs.length > x.length then .throws
  else do
    let s ← (upTo 0 coefs.length).foldlM (fun s i => do
      let v ← read x.mem i
      put s i v) storage
    (upTo coefs.length x.length).foldlM (fun s i => do
      let r0 ← read x.mem i
      let r ← arSum coefs s i r0
      put s i r) s

/-- The sum of the convolution filter, descriptive.cpp:193-195. -/
def maSum (x coefs : Mat (Val K)) (i o : Int) : Outcome (Val K) :=
  (upTo (max 0 (o + i - x.length)) (min coefs.length (i + o + 1))).foldlM (fun r j => do
    let c ← read coefs.mem j
    let y ← read x.mem (i + o - j)
    pure (vadd r (vmul c y))) (some 0)

/-- `FilterMa(coefs, centered, storage)`, descriptive.cpp:179-198; `floor(k / 2.0)` is `k / 2`. -/
def filterMa (x coefs : Mat (Val K)) (centered : Bool) (storage : Mat (Val K)) : Outcome (Mat (Val K)) :=
  if storage.length < x.length then .throws
  else do
    let s ← storage.setValue none
    let o := if centered then coefs.length / 2 else 0
    (upTo (-o + (coefs.length - 1)) (x.length - o)).foldlM (fun s i => do
      let r ← maSum x coefs i o
      put s i r) s

/-- `pArray->Divide0(b, storage)` and `Subtract0`, descriptive.cpp:234-237, 282, 285 (matrix.cpp:1943-1952): the sizes are
not checked. -/
def pointwise (f : Val K → Val K → Val K) (x b storage : Mat (Val K)) : Outcome (Mat (Val K)) :=
  cellLoop x.length (x.with2 b f) storage

/-- The numbers of the season: the sums `storage_means`, `count` and the season `f`. -/
structure Seasons (K : Type) where
  means : Mat (Val K)
  count : List Int
  f : Int

/-- The loop body of descriptive.cpp:248-259. A `none` is taken for NaN (an infinity, which is not NaN, would be added). -/
def seasonStep (seasonal : Mat (Val K)) (seasonCount : Int) (s : Seasons K) (j : Int) : Outcome (Seasons K) := do
  let f := if s.f ≥ seasonCount then 0 else s.f
  let d ← read seasonal.mem j
  if d.isNone then pure { s with f := f + 1 }
  else do
    let a ← read s.means.mem f
    let means ← put s.means f (vadd a d)
    let c ← read s.count f
    let count ← write s.count f (c + 1)
    pure { means := means, count := count, f := f + 1 }

/-- `for (j = 0; j < seasonCount; j++) storage_means.Data[j] /= count[j]`, descriptive.cpp:261-262. -/
def divideCounts (means : Mat (Val K)) (count : List Int) (seasonCount : Int) : Outcome (Mat (Val K)) :=
  (upTo 0 seasonCount).foldlM (fun s j => do
    let a ← read s.mem j
    let c ← read count j
    put s j (vdiv a (vint c))) means

/-- The repeated season, descriptive.cpp:271-277. -/
def repeatSeasons (T seasonCount : Int) (means seasonal : Mat (Val K)) : Outcome (Mat (Val K)) := do
  let r ← (upTo 0 T).foldlM (fun (s : Mat (Val K) × Int) j => do
    let v ← read means.mem s.2
    let m ← put s.1 j v
    pure (m, if s.2 + 1 ≥ seasonCount then 0 else s.2 + 1)) (seasonal, 0)
  pure r.1

/-- Trend, seasonal part, residuals and means. -/
structure Decomposed (K : Type) where
  trend : Mat (Val K)
  seasonal : Mat (Val K)
  resid : Mat (Val K)
  means : Mat (Val K)
  deriving DecidableEq

/-- The residuals, descriptive.cpp:280-288: the second operation works in place. -/
def seasonResid (f : Val K → Val K → Val K) (doResid : Bool) (x trend seasonal resid : Mat (Val K)) :
    Outcome (Mat (Val K)) :=
  if doResid then do
    let r ← pointwise f x trend resid
    r.matrixIn seasonal f
  else .ok resid

/-- `SeasonalDecompositionMa`, descriptive.cpp:200-296: `new Ti[seasonCount]` throws for a negative number; without
coefficients it throws. -/
def seasonalDecompositionMa (x trend seasonal resid means : Mat (Val K)) (trendcoefs : Option (Mat (Val K)))
    (seasonCount : Int) (multiplicative doResid centred : Bool) : Outcome (Decomposed K) :=
  let f := if multiplicative then vdiv else vsub
  match trendcoefs with
  | none => .throws
  | some coefs => do
    let trend ← filterMa x coefs centred trend
    let seasonal ← pointwise f x trend seasonal
    if seasonCount < 0 then .throws
    else do
      let means ← (upTo 0 seasonCount).foldlM (fun s j => put s j (some 0)) means
      let s ← (upTo 0 x.length).foldlM (seasonStep seasonal seasonCount) ⟨means, List.replicate seasonCount.toNat 0, 0⟩
      let means ← divideCounts s.means s.count seasonCount
      let total ← means.sum
      let m := vdiv total (vint seasonCount)
      let means ← means.scalarIn (fun a => f a m)
      let seasonal ← repeatSeasons x.length seasonCount means seasonal
      let resid ← seasonResid f doResid x trend seasonal resid
      pure ⟨trend, seasonal, resid, means⟩

end

section
variable {K : Type} [Field K] [DecidableEq K]

/-- `Matrix::Inv2x2`, matrix_la.cpp:516-539: the return value and the new cells; `1 / 0` is infinite. Exact numbers. -/
def inv2x2 (m : Mat K) : Outcome (Int × Mat K) := do
  let a ← read m.mem 0
  let b ← read m.mem 1
  let c ← read m.mem 2
  let d ← read m.mem 3
  if a * d - b * c = 0 then pure (-1, m)
  else do
    let idet := 1 / (a * d - b * c)
    let m ← put m 0 (idet * d)
    let m ← put m 1 (idet * (-b))
    let m ← put m 2 (idet * (-c))
    let m ← put m 3 (idet * a)
    pure (0, m)

/-- `pArray->Sum()` of numbers, matrix.cpp:2588-2593. -/
def sumNum (x : Mat K) : Outcome K :=
  (upTo 0 x.length).foldlM (fun s i => do
    let d ← read x.mem i
    pure (s + d)) 0

/-- `b1 += i * pArray->Data[i - 1]`, descriptive.cpp:309-311. -/
def sumTimes (x : Mat K) : Outcome K :=
  (upTo 1 (x.length + 1)).foldlM (fun s i => do
    let d ← read x.mem (i - 1)
    pure (s + (i : K) * d)) 0

/-- `RegressionTrend(storage2)`, descriptive.cpp:298-317: `storage` is the array of two numbers. Exact numbers. -/
def regressionTrend (x : Mat K) (storage : List K) : Outcome (Mat K) := do
  let a00 : K := (x.length : K)
  let a01 : K := a00 * (a00 + 1) / 2
  let a11 : K := a01 * (2 * a00 + 1) / 3
  let (info, mat) ← inv2x2 { rows := 2, cols := 2, data := some [a00, a01, a01, a11] }
  if info ≠ 0 then .throws
  else do
    let b0 ← sumNum x
    let b1 ← sumTimes x
    mat.dot { rows := 2, cols := 1, data := some [b0, b1] } { rows := 2, cols := 1, data := some storage } 1 0

end
end De
end LDT
