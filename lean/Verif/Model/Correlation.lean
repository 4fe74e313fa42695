import Verif.Model.MatrixStat
import Verif.Model.MatrixAlg
import Verif.Model.MatrixElem
import Verif.Model.Distance
/-!
# Covariances and correlations: `src/ldt_statistics/correlation.cpp`

The parts of the storage array are separate matrices: `C74_layout` shows that they fit into it one after the other.
-/
namespace LDT
namespace Co
open Mx
open Arr (Val)

section
variable {K : Type} [Field K] [DecidableEq K]

/-- Doubles as cells of the linear-algebra routines. -/
scoped instance : Zero (Val K) := ⟨some 0⟩
@[inherit_doc instZeroVal] scoped instance : Add (Val K) := ⟨vadd⟩
@[inherit_doc instZeroVal] scoped instance : Mul (Val K) := ⟨vmul⟩

/-- `CorrelationType`, correlation.h:10-17. -/
inductive Kind where
  | correlation | covariance
  deriving DecidableEq, Repr

/-- `Correlation::StorageSize` for Pearson's method, correlation.cpp:24-51. -/
def storageSize (checkNan : Bool) (kind : Kind) (len : Int) : Int :=
  if checkNan then len * len + (len * (len + 1)).tdiv 2 + (len * (len + 1)).tdiv 2
  else len * len + len + len + (if kind = .correlation then len else 0)

/-- `Correlation::WorkSize` for Pearson's method, correlation.cpp:28-35. -/
def workSize (checkNan : Bool) (rows cols : Int) : Int := if checkNan then 0 else cols * rows

/-! ## With the check for NaN -/

/-- `MatrixSym<true>::Set0`, matrix_sym.cpp:88-104. -/
def symSetD {α : Type} (m : SymMat α) (i j : Int) (v : α) : Outcome (SymMat α) :=
  match symIndex true m.rows i j with
  | none => .throws
  | some k => do
    let l ← write m.data k v
    pure { m with data := l }

/-- `Result` and `ResultCounts`. -/
structure Res (K : Type) where
  result : Mat (Val K)
  counts : SymMat (Val K)
  deriving DecidableEq

/-- The value and the number of used rows of one pair, correlation.cpp:92-101 (`count` starts as 0). -/
def pairValue (vsqrt : Val K → Val K) (kind : Kind) (adjust : Bool) (m : Mat (Val K)) (i j : Int) : Outcome (Val K × Int) :=
  match kind with
  | .covariance => do
    let r ← m.covarianceColumn i j adjust true
    pure (r.cov, r.count)
  | .correlation => do
    let r ← m.correlationColumn vsqrt i j adjust true
    pure (r.cor, r.count.getD 0)

/-- `if (setLower) this->Result.Set0(j, i, s)`, correlation.cpp:105-106. -/
def setLowerCell (setLower : Bool) (r : Mat (Val K)) (i j : Int) (v : Val K) : Outcome (Mat (Val K)) :=
  if setLower then r.set0 j i v else .ok r

/-- One off-diagonal cell, correlation.cpp:91-107. -/
def offDiag (vsqrt : Val K → Val K) (kind : Kind) (adjust setLower : Bool) (m : Mat (Val K)) (i : Int) (s : Res K) (j : Int) :
    Outcome (Res K) :=
  if i < j then do
    let v ← pairValue vsqrt kind adjust m i j
    let r ← s.result.set0 i j v.1
    let c ← symSetD s.counts i j (vint v.2)
    let r ← setLowerCell setLower r i j v.1
    pure ⟨r, c⟩
  else .ok s

/-- The diagonal cell, correlation.cpp:78-87. -/
def diag (kind : Kind) (adjust : Bool) (m : Mat (Val K)) (s : Res K) (i : Int) : Outcome (Res K) :=
  match kind with
  | .covariance => do
    let v ← m.varianceColumn i adjust true
    let r ← s.result.set0 i i v.var
    let c ← symSetD s.counts i i (vint v.count)
    pure ⟨r, c⟩
  | .correlation => do
    let r ← s.result.set0 i i (some 1)
    pure ⟨r, s.counts⟩

/-- `Correlation<true, type, kPearson>::pearson`, correlation.cpp:74-109. -/
def pearsonNan (vsqrt : Val K → Val K) (kind : Kind) (adjust setLower : Bool) (m : Mat (Val K)) (s : Res K) : Outcome (Res K) :=
  (upTo 0 m.cols).foldlM (fun s i => do
    let s ← diag kind adjust m s i
    (upTo 0 m.cols).foldlM (offDiag vsqrt kind adjust setLower m i) s) s

/-! ## Without it -/

/-- The centred or standardized copy, correlation.cpp:113-123. -/
def standardized (vsqrt : Val K → Val K) (kind : Kind) (m means vars : Mat (Val K)) :
    Outcome (Mat (Val K) × Mat (Val K) × Mat (Val K)) :=
  match kind with
  | .covariance => do
    let me ← m.columnsMeans means false
    let c ← m.columnsStandard vsqrt (some me) none true
    pure (c, me, vars)
  | .correlation => do
    let r ← m.columnsMeansVariances means vars false false
    let c ← m.columnsStandard vsqrt (some r.1) (some r.2) true
    pure (c, r.1, r.2)

/-- The divisor, correlation.cpp:126-134. -/
def divisor (kind : Kind) (adjust : Bool) (rows : Int) : Int :=
  if kind = .covariance ∧ adjust then rows - 1 else rows

/-- `Correlation<false, type, kPearson>::pearson`, correlation.cpp:111-135: `Result`, `Means` and `Variances` (the last one
unused for covariances). -/
def pearsonFull (vsqrt : Val K → Val K) (kind : Kind) (adjust setLower : Bool) (m result means vars : Mat (Val K)) :
    Outcome (Mat (Val K) × Mat (Val K) × Mat (Val K)) := do
  let c ← standardized vsqrt kind m means vars
  let r ← c.1.dotAtA result setLower (some 1) (0 : Val K)
  let r ← r.scalarIn (fun x => vdiv x (vint (divisor kind adjust m.rows)))
  pure (r, c.2.1, c.2.2)

/-! ## `Calculate` -/

/-- The part of an array from `q` on with `n` cells, as `SetData(&storage[q], …)` uses it. -/
def part {α : Type} (l : List α) (q n : Int) : List α := (l.drop q.toNat).take n.toNat

/-- The size check, correlation.cpp:201-206, of an object made for `maxRows` and `maxCols`. -/
def tooSmall (checkNan : Bool) (kind : Kind) (maxRows maxCols rows cols : Int) : Prop :=
  workSize checkNan rows cols > workSize checkNan maxRows maxCols ∨
    storageSize checkNan kind cols > storageSize checkNan kind maxCols

instance (checkNan : Bool) (kind : Kind) (a b c d : Int) : Decidable (tooSmall checkNan kind a b c d) :=
  inferInstanceAs (Decidable (_ ∨ _))

/-- `Correlation<true, type, kPearson>::Calculate`, correlation.cpp:194-228. -/
def calculateNan (vsqrt : Val K → Val K) (kind : Kind) (maxRows maxCols : Int) (m : Mat (Val K)) (storage : List (Val K))
    (adjust setLower : Bool) : Outcome (Res K) :=
  if tooSmall true kind maxRows maxCols m.rows m.cols then .throws
  else pearsonNan vsqrt kind adjust setLower m
    ⟨⟨m.cols, m.cols, some (part storage 0 (m.cols * m.cols))⟩,
      ⟨m.cols, part storage (m.cols * m.cols) (symLength true m.cols)⟩⟩

/-- `Correlation<false, type, kPearson>::Calculate`, correlation.cpp:194-228: `Result`, `Means`, `Variances`. -/
def calculateFull (vsqrt : Val K → Val K) (kind : Kind) (maxRows maxCols : Int) (m : Mat (Val K)) (storage : List (Val K))
    (adjust setLower : Bool) : Outcome (Mat (Val K) × Mat (Val K) × Mat (Val K)) :=
  if tooSmall false kind maxRows maxCols m.rows m.cols then .throws
  else pearsonFull vsqrt kind adjust setLower m
    ⟨m.cols, m.cols, some (part storage 0 (m.cols * m.cols))⟩
    ⟨m.cols, 1, some (part storage (m.cols * m.cols) m.cols)⟩
    ⟨m.cols, 1, some (part storage (m.cols * m.cols + m.cols) (if kind = .correlation then m.cols else 0))⟩

/-! ## Distances based on correlations -/

/-- `DistanceMethod::kCorrelation` and `kAbsCorrelation`, clustering.h:24-30. -/
inductive CorMetric where
  | correlation | absCorrelation
  deriving DecidableEq, Repr

/-- The distance of a coefficient, distance.cpp:163-170. -/
def corDist (vsqrt : Val K → Val K) (metric : CorMetric) (r : Val K) : Val K :=
  match metric with
  | .correlation => vsqrt (vdiv (vsub (some 1) r) (some 2))
  | .absCorrelation => vsqrt (vsub (some 1) (vmul r r))

/-- `cor.Calculate(data, work, &work[cor.WorkSize])`, distance.cpp:158-160: the result. -/
def corMatrix (vsqrt : Val K → Val K) (checkNan : Bool) (m : Mat (Val K)) (storage : List (Val K)) : Outcome (Mat (Val K)) :=
  if checkNan then (calculateNan vsqrt .correlation m.rows m.cols m storage false true).bind (fun r => .ok r.result)
  else (calculateFull vsqrt .correlation m.rows m.cols m storage false true).bind (fun r => .ok r.1)

/-- `Distance::WorkSize`, distance.cpp:134-140. -/
def distWorkSize (checkNan : Bool) (rows cols : Int) : Int :=
  storageSize checkNan .correlation cols + workSize checkNan rows cols

/-- `sqrt((1 - cor.Result.Get0(i, j)) / 2)` and `sqrt(1 - pow(cor.Result.Get0(i, j), 2))`, distance.cpp:163-169. -/
def corCell (vsqrt : Val K → Val K) (metric : CorMetric) (r : Mat (Val K)) (i j : Nat) : Outcome (Val K) := do
  let v ← r.get0 i j
  pure (corDist vsqrt metric v)

/-- `Distance::Calculate(data, storage, work)` for the two methods based on correlations, distance.cpp:143-172, of an object
made for `maxRows` and `maxCols`. -/
def corDistances (vsqrt : Val K → Val K) (checkNan : Bool) (metric : CorMetric) (maxRows maxCols : Nat) (m : Mat (Val K))
    (storage work : List (Val K)) : Outcome (SymMat (Val K)) :=
  if Ds.storageSize m.cols > Ds.storageSize maxCols ∨ distWorkSize checkNan m.rows m.cols > distWorkSize checkNan maxRows maxCols then
    .throws
  else do
    let r ← corMatrix vsqrt checkNan m (work.drop (workSize checkNan m.rows m.cols).toNat)
    Ds.setPairs (corCell vsqrt metric r) m.cols.toNat { rows := maxCols, data := storage }

end
end Co
end LDT
