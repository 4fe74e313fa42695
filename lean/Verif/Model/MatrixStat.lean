import Verif.Model.Matrix
import Verif.Model.Array
import Mathlib.Algebra.Field.Basic
/-!
# Statistics of the cells: `src/matrix/matrix.cpp:2419-3190`

A cell is `Val K`: `none` is NaN, `some x` a finite number; arithmetic with NaN is NaN, and a division by
zero gives `none` (NaN or an infinity, "not finite").
-/
namespace LDT
namespace Mx
open Arr

section
variable {K : Type} [Field K] [DecidableEq K]

/-- `a + b` on doubles. -/
def vadd (a b : Val K) : Val K := match a, b with | some a, some b => some (a + b) | _, _ => none
/-- `a - b` on doubles. -/
def vsub (a b : Val K) : Val K := match a, b with | some a, some b => some (a - b) | _, _ => none
/-- `a * b` on doubles. -/
def vmul (a b : Val K) : Val K := match a, b with | some a, some b => some (a * b) | _, _ => none
/-- `a / b` on doubles; `none` when `b` is zero. -/
def vdiv (a b : Val K) : Val K :=
  match a, b with | some a, some b => if b = 0 then none else some (a / b) | _, _ => none
/-- An integer as a double. -/
def vint (i : Int) : Val K := some (i : K)

/-- `for (i = 0; i < n; i++) { d = p[i]; … }` with `p = &Data[start]`. -/
def scanCells {σ : Type} (l : List (Val K)) (start n : Int) (step : σ → Int → Val K → σ) (s : σ) : Outcome σ :=
  (upTo 0 n).foldlM (fun s i => do
    let d ← read l (start + i)
    pure (step s i d)) s

/-- The same over two columns, matrix.cpp:2824-2836. -/
def scanPairs {σ : Type} (l : List (Val K)) (start1 start2 n : Int) (step : σ → Int → Val K → Val K → σ) (s : σ) :
    Outcome σ :=
  (upTo 0 n).foldlM (fun s i => do
    let d1 ← read l (start1 + i)
    let d2 ← read l (start2 + i)
    pure (step s i d1 d2)) s

/-- `Matrix::Sum`, matrix.cpp:2588-2593. -/
def Mat.sum (m : Mat (Val K)) : Outcome (Val K) :=
  scanCells m.mem 0 m.length (fun s _ d => vadd s d) (some 0)

/-- `Matrix::Trace`, matrix.cpp:2578-2586. -/
def Mat.trace (m : Mat (Val K)) : Outcome (Val K) :=
  if m.rows ≠ m.cols then .throws
  else (upTo 0 m.rows).foldlM (fun s i => do
    let d ← m.get0 i i
    pure (vadd s d)) (some 0)

/-- The loop body of `Mean`, matrix.cpp:2609-2616 and 2622-2627: the divisor is the position `i + 1`. -/
def meanStep (checkNan : Bool) (me : Val K) (i : Int) (d : Val K) : Val K :=
  if checkNan && d.isNone then me else vadd me (vdiv (vsub d me) (vint (i + 1)))

/-- `Matrix::Mean(check_nan)`, matrix.cpp:2595-2631. -/
def Mat.mean (m : Mat (Val K)) (checkNan : Bool) : Outcome (Val K) :=
  if m.length = 0 then .ok none
  else if m.length = 1 then read m.mem 0
  else scanCells m.mem 0 m.length (meanStep checkNan) (some 0)

/-- Running mean, sum of squares and number of used cells. -/
structure RunVar (K : Type) where
  me : Val K
  m2 : Val K
  j : Int
  deriving DecidableEq

/-- The loop body of `Variance` and `VarianceColumn`, matrix.cpp:2680-2689, 2697-2703, 2762-2771, 2779-2785: without the
check for NaN the counter is the loop index. -/
def varStep (checkNan : Bool) (s : RunVar K) (i : Int) (d : Val K) : RunVar K :=
  let j := if checkNan then s.j else i
  if checkNan && d.isNone then s
  else
    let diff := vsub d s.me
    let t := vdiv diff (vint (j + 1))
    { me := vadd s.me t, m2 := vadd s.m2 (vmul (vmul diff t) (vint j)), j := j + 1 }

/-- `var = sample ? m2 / (n - 1) : m2 / n`, matrix.cpp:2690, 2704, 2772, 2786, 2837, 2852. -/
def divCount (sample : Bool) (m2 : Val K) (n : Int) : Val K :=
  if sample then vdiv m2 (vint (n - 1)) else vdiv m2 (vint n)

/-- `Matrix::Variance(me, sample, check_nan)`, matrix.cpp:2661-2707: returns the variance and `me`. -/
def Mat.variance (m : Mat (Val K)) (sample checkNan : Bool) : Outcome (Val K × Val K) :=
  if m.length = 0 then .ok (none, none)
  else if m.length = 1 then do
    let d ← read m.mem 0
    pure (none, d)
  else do
    let s ← scanCells m.mem 0 m.length (varStep checkNan) { me := some 0, m2 := some 0, j := 0 }
    pure (divCount sample s.m2 (if checkNan then s.j else m.length), s.me)

/-- Result of `VarianceColumn`: the variance, `me` and `count`. -/
structure VarRes (K : Type) where
  var : Val K
  mean : Val K
  count : Int
  deriving DecidableEq

/-- `Matrix::VarianceColumn(j, me, count, sample, check_nan)`, matrix.cpp:2741-2795. The column index is not checked. -/
def Mat.varianceColumn (m : Mat (Val K)) (j : Int) (sample checkNan : Bool) : Outcome (VarRes K) :=
  if m.rows = 0 then .ok ⟨none, none, m.rows⟩
  else if m.rows = 1 then do
    let d ← m.get0 0 j
    pure ⟨none, d, m.rows⟩
  else do
    let s ← scanCells m.mem (m.rows * j) m.rows (varStep checkNan) { me := some 0, m2 := some 0, j := 0 }
    pure ⟨divCount sample s.m2 (if checkNan then s.j else m.rows), s.me, if checkNan then s.j else m.rows⟩

/-- Running means and sum of products. -/
structure RunCov (K : Type) where
  mean1 : Val K
  mean2 : Val K
  m2 : Val K
  count : Int
  deriving DecidableEq

/-- The loop body of `CovarianceColumn`, matrix.cpp:2824-2836 and 2843-2851: `m2` uses the new second mean. -/
def covStep (checkNan : Bool) (s : RunCov K) (_ : Int) (d1 d2 : Val K) : RunCov K :=
  if checkNan && (d1.isNone || d2.isNone) then s
  else
    let count := s.count + 1
    let dx := vsub d1 s.mean1
    let mean2 := vadd s.mean2 (vdiv (vsub d2 s.mean2) (vint count))
    { mean1 := vadd s.mean1 (vdiv dx (vint count)), mean2 := mean2,
      m2 := vadd s.m2 (vmul dx (vsub d2 mean2)), count := count }

/-- Result of `CovarianceColumn`. -/
structure CovRes (K : Type) where
  cov : Val K
  mean1 : Val K
  mean2 : Val K
  count : Int
  deriving DecidableEq

/-- `Matrix::CovarianceColumn`, matrix.cpp:2798-2860. -/
def Mat.covarianceColumn (m : Mat (Val K)) (j1 j2 : Int) (sample checkNan : Bool) : Outcome (CovRes K) :=
  if j1 ≥ m.cols ∨ j2 ≥ m.cols ∨ j1 < 0 ∨ j2 < 0 then .throws
  else if m.rows = 0 then .ok ⟨none, none, none, m.rows⟩
  else if m.rows = 1 then do
    let a ← m.get0 0 j1
    let b ← m.get0 0 j2
    pure ⟨none, a, b, m.rows⟩
  else do
    let s ← scanPairs m.mem (m.rows * j1) (m.rows * j2) m.rows (covStep checkNan) ⟨some 0, some 0, some 0, 0⟩
    pure ⟨divCount sample s.m2 (if checkNan then s.count else m.rows), s.mean1, s.mean2, s.count⟩

/-- Running means, sum of products and both sums of squares. -/
structure RunCor (K : Type) where
  mean1 : Val K
  mean2 : Val K
  m2 : Val K
  w1 : Val K
  w2 : Val K
  count : Int
  deriving DecidableEq

/-- The loop body of `CorrelationColumn`, matrix.cpp:2893-2912 and 2925-2939. -/
def corStep (checkNan : Bool) (s : RunCor K) (i : Int) (d1 d2 : Val K) : RunCor K :=
  if checkNan && (d1.isNone || d2.isNone) then s
  else
    let count := s.count + 1
    let dx1 := vsub d1 s.mean1
    let s1 := vdiv dx1 (vint count)
    let dx2 := vsub d2 s.mean2
    let s2 := vdiv dx2 (vint count)
    let mean2 := vadd s.mean2 s2
    let k := if checkNan then count - 1 else i
    { mean1 := vadd s.mean1 s1, mean2 := mean2, m2 := vadd s.m2 (vmul dx1 (vsub d2 mean2)),
      w1 := vadd s.w1 (vmul (vmul dx1 s1) (vint k)), w2 := vadd s.w2 (vmul (vmul dx2 s2) (vint k)), count := count }

/-- Result of `CorrelationColumn`; `count` is `none` when the code leaves the reference unset. -/
structure CorRes (K : Type) where
  cor : Val K
  mean1 : Val K
  mean2 : Val K
  var1 : Val K
  var2 : Val K
  count : Option Int
  deriving DecidableEq

/-- `m2 == 0 && w1 == 0 && w2 == 0 ? 1 : m2 / (sqrt(w1) * sqrt(w2))`, matrix.cpp:2915-2919, 2942-2946. -/
def corFinish (vsqrt : Val K → Val K) (m2 w1 w2 : Val K) : Val K :=
  if m2 = some 0 ∧ w1 = some 0 ∧ w2 = some 0 then some 1 else vdiv m2 (vmul (vsqrt w1) (vsqrt w2))

/-- `Matrix::CorrelationColumn`, matrix.cpp:2862-2954: the variances are divided by `RowsCount` (or one less) even when
cells were skipped. `vsqrt` is `std::sqrt`. -/
def Mat.correlationColumn (vsqrt : Val K → Val K) (m : Mat (Val K)) (j1 j2 : Int) (sample checkNan : Bool) :
    Outcome (CorRes K) :=
  if j1 ≥ m.cols ∨ j2 ≥ m.cols ∨ j1 < 0 ∨ j2 < 0 then .throws
  else if m.rows = 0 then .ok ⟨none, none, none, none, none, none⟩
  else if m.rows = 1 then do
    let a ← m.get0 0 j1
    let b ← m.get0 0 j2
    pure ⟨none, a, b, none, none, none⟩
  else do
    let s ← scanPairs m.mem (m.rows * j1) (m.rows * j2) m.rows (corStep checkNan)
      ⟨some 0, some 0, some 0, some 0, some 0, 0⟩
    pure ⟨corFinish vsqrt s.m2 s.w1 s.w2, s.mean1, s.mean2, divCount sample s.w1 m.rows, divCount sample s.w2 m.rows,
      some s.count⟩

/-! ## All columns or rows -/

/-- "Uses all … if empty", matrix.cpp:2958-2961, 2979-2982, 3001-3004, 3029-3032. -/
def indsOr (inds : List Int) (n : Int) : List Int := if inds.length = 0 then upTo 0 n else inds

/-- `storage.Data[q] = sum; q++` over the listed rows or columns. -/
def fillFrom (g : Int → Outcome (Val K)) (inds : List Int) (storage : Mat (Val K)) : Outcome (Mat (Val K)) :=
  (countFrom 0 inds).foldlM (fun (d : Mat (Val K)) qi => do
    let v ← g qi.2
    let l ← write d.mem qi.1 v
    pure { d with data := some l }) storage

/-- `for (j…) sum += Get0(i, j)`, matrix.cpp:2968-2970. -/
def Mat.rowSum (m : Mat (Val K)) (i : Int) : Outcome (Val K) :=
  (upTo 0 m.cols).foldlM (fun s j => do
    let d ← m.get0 i j
    pure (vadd s d)) (some 0)

/-- `for (i…) sum += Get0(i, j)`, matrix.cpp:2989-2991. -/
def Mat.colSum (m : Mat (Val K)) (j : Int) : Outcome (Val K) :=
  (upTo 0 m.rows).foldlM (fun s i => do
    let d ← m.get0 i j
    pure (vadd s d)) (some 0)

/-- `Matrix::RowsSum(storage, rowinds)`, matrix.cpp:2956-2974. -/
def Mat.rowsSum (m storage : Mat (Val K)) (inds : List Int) : Outcome (Mat (Val K)) :=
  if storage.length ≠ ((indsOr inds m.rows).length : Int) then .throws
  else fillFrom m.rowSum (indsOr inds m.rows) storage

/-- `Matrix::ColumnsSum(storage, colinds)`, matrix.cpp:2976-2995. -/
def Mat.columnsSum (m storage : Mat (Val K)) (inds : List Int) : Outcome (Mat (Val K)) :=
  if storage.length ≠ ((indsOr inds m.cols).length : Int) then .throws
  else fillFrom m.colSum (indsOr inds m.cols) storage

/-- `sum / n`, matrix.cpp:3012-3015. -/
def Mat.colMean (m : Mat (Val K)) (j : Int) : Outcome (Val K) := do
  let s ← m.colSum j
  pure (vdiv s (vint m.rows))

/-- `Matrix::ColumnsMean(storage, colinds)`, matrix.cpp:2997-3023. -/
def Mat.columnsMean (m storage : Mat (Val K)) (inds : List Int) : Outcome (Mat (Val K)) :=
  if storage.length ≠ ((indsOr inds m.cols).length : Int) then .throws
  else fillFrom m.colMean (indsOr inds m.cols) storage

/-- The sum of products of one pair of columns, matrix.cpp:3053-3055. -/
def Mat.crossSum (m : Mat (Val K)) (j k : Int) (mj mk : Val K) : Outcome (Val K) :=
  (upTo 0 m.rows).foldlM (fun s i => do
    let a ← m.get0 i j
    let b ← m.get0 i k
    pure (vadd s (vmul (vsub a mj) (vsub b mk)))) (some 0)

/-- The second write, matrix.cpp:3058-3059. -/
def setMirror (st : Mat (Val K)) (q0 q1 : Int) (v : Val K) : Outcome (Mat (Val K)) :=
  if q0 ≠ q1 then st.set0 q1 q0 v else .ok st

/-- The body of the double loop of `ColumnsVariance`, matrix.cpp:3047-3060. -/
def Mat.covCell (m means : Mat (Val K)) (nn q0 j : Int) (st : Mat (Val K)) (qk : Int × Int) : Outcome (Mat (Val K)) :=
  if q0 > qk.1 then .ok st
  else do
    let mj ← read means.mem q0
    let mk ← read means.mem qk.1
    let s ← m.crossSum j qk.2 mj mk
    let st ← st.set0 q0 qk.1 (vdiv s (vint nn))
    setMirror st q0 qk.1 (vdiv s (vint nn))

/-- `Matrix::ColumnsVariance(storage, colinds, sample)`, matrix.cpp:3025-3068. -/
def Mat.columnsVariance (m storage : Mat (Val K)) (inds : List Int) (sample : Bool) : Outcome (Mat (Val K)) :=
  let inds := indsOr inds m.cols
  let n : Int := inds.length
  if storage.rows ≠ n ∨ storage.cols ≠ n then .throws
  else do
    -- `make_unique<Tw[]>(m)` holds zeros
    let means ← m.columnsMean { rows := n, cols := 1, data := some (List.replicate n.toNat (some 0)) } inds
    (countFrom 0 inds).foldlM (fun st qj =>
      (countFrom 0 inds).foldlM (m.covCell means (if sample then m.rows - 1 else m.rows) qj.1 qj.2) st) storage

/-- `col[i] = f(col[i])` for a whole column, matrix.cpp:3089-3095. -/
def Mat.mapColumn (m : Mat (Val K)) (j : Int) (f : Val K → Val K) : Outcome (Mat (Val K)) :=
  (upTo 0 m.rows).foldlM (fun (d : Mat (Val K)) i => do
    let x ← read d.mem (j * m.rows + i)
    let l ← write d.mem (j * m.rows + i) (f x)
    pure { d with data := some l }) m

/-- The new value of a cell when a scale is given, matrix.cpp:3088-3096 and 3103-3111. -/
def scaleCell (vsqrt : Val K → Val K) (isVar : Bool) (mean : Option (Val K)) (s x : Val K) : Val K :=
  if s = some 0 then none
  else vdiv (match mean with | some m => vsub x m | none => x) (if isVar then vsqrt s else s)

/-- `Matrix::ColumnsStandard(means, stds, is_var)`, matrix.cpp:3070-3129. -/
def Mat.columnsStandard (vsqrt : Val K → Val K) (m : Mat (Val K)) (means stds : Option (Mat (Val K))) (isVar : Bool) :
    Outcome (Mat (Val K)) :=
  if (means.any (fun x => x.length != m.cols)) || (stds.any (fun x => x.length != m.cols)) then .throws
  else match means, stds with
    | some me, some sd => (upTo 0 m.cols).foldlM (fun (d : Mat (Val K)) j => do
        let a ← read me.mem j
        let s ← read sd.mem j
        d.mapColumn j (scaleCell vsqrt isVar (some a) s)) m
    | none, some sd => (upTo 0 m.cols).foldlM (fun (d : Mat (Val K)) j => do
        let s ← read sd.mem j
        d.mapColumn j (scaleCell vsqrt isVar none s)) m
    | some me, none => (upTo 0 m.cols).foldlM (fun (d : Mat (Val K)) j => do
        let a ← read me.mem j
        d.mapColumn j (fun x => vsub x a)) m
    | none, none => .throws

/-- `Matrix<Tw>(&Data[j * n], n)`, matrix.cpp:3141-3142: a view from the column to the end of the memory. -/
def Mat.colView (m : Mat (Val K)) (j : Int) : Mat (Val K) :=
  { rows := m.rows, cols := 1, data := some (m.mem.drop (j * m.rows).toNat) }

/-- `Matrix::ColumnsMeans(storage_mean, check_nan)`, matrix.cpp:3131-3150. -/
def Mat.columnsMeans (m storage : Mat (Val K)) (checkNan : Bool) : Outcome (Mat (Val K)) :=
  if storage.length ≠ m.cols then .throws
  else fillFrom (fun j => (m.colView j).mean checkNan) (upTo 0 m.cols) storage

/-- The variance of a column view, matrix.cpp:3163-3164. -/
def Mat.viewVariance (m : Mat (Val K)) (sample checkNan : Bool) (j : Int) : Outcome (Val K) := do
  let r ← (m.colView j).variance sample checkNan
  pure r.1

/-- `Matrix::ColumnsVariances(storage_var, sample, check_nan)`, matrix.cpp:3152-3171. -/
def Mat.columnsVariances (m storage : Mat (Val K)) (sample checkNan : Bool) : Outcome (Mat (Val K)) :=
  if storage.length ≠ m.cols then .throws
  else fillFrom (m.viewVariance sample checkNan) (upTo 0 m.cols) storage

/-- `Matrix::ColumnsMeansVariances(…)`, matrix.cpp:3173-3195, for two storages that do not overlap. -/
def Mat.columnsMeansVariances (m sm sv : Mat (Val K)) (sample checkNan : Bool) :
    Outcome (Mat (Val K) × Mat (Val K)) :=
  if sm.length ≠ m.cols ∨ sv.length ≠ m.cols then .throws
  else (upTo 0 m.cols).foldlM (fun (d : Mat (Val K) × Mat (Val K)) j => do
    let r ← (m.colView j).variance sample checkNan
    let l1 ← write d.1.mem j r.2
    let l2 ← write d.2.mem j r.1
    pure ({ d.1 with data := some l1 }, { d.2 with data := some l2 })) (sm, sv)

end
end Mx
end LDT
