import Verif.Model.MatrixStat
import Verif.Model.MatrixElem
import Verif.Model.Correlation
/-!
# Standardization of the columns: `src/matrix/dataset.cpp:192-294` (`MatrixStandardized`)

A cell is `Val K` (`none` is NaN). The storage array is a list; a matrix laid over a part of it (`SetData(&storage[q], …)`) has
that part as its memory, so that a use is `ub` if the array ends too early.
-/
namespace LDT
namespace Sd
open Mx
open Arr (Val)
open Co (part)

/-- `MatrixStandardized`: the flags, `StorageSize` and the two public fields `Sample` and `CheckNan`, matrix_utils.h:103-157. -/
structure Std where
  removeZeroVar : Bool
  center : Bool
  scale : Bool
  storageSize : Int
  sample : Bool := true
  checkNan : Bool := false
  deriving DecidableEq

/-- `MatrixStandardized::MatrixStandardized`, dataset.cpp:194-220. -/
def Std.make (rows cols : Int) (removeZeroVar center scale : Bool) : Outcome Std :=
  if cols ≤ 0 ∨ rows ≤ 0 then .throws
  else .ok
    { removeZeroVar := if scale then removeZeroVar else false
      center := center
      scale := scale
      storageSize := rows * cols + (if center then cols else 0) + (if scale then cols else 0) }

section
variable {K : Type} [Field K] [DecidableEq K]

/-- `Result`, `ColumnMeans`, `ColumnVars` (`none`: no data) and `RemovedZeroVar`. -/
structure StdRes (K : Type) where
  result : Mat (Val K)
  means : Option (Mat (Val K))
  vars : Option (Mat (Val K))
  removed : List Int

/-- What the branches on the flags and on the given means and variances leave behind: `Result`, the computed means and variances,
`useVar`. -/
structure StdStep (K : Type) where
  result : Mat (Val K)
  means : Option (Mat (Val K))
  vars : Option (Mat (Val K))
  useVar : Option (Mat (Val K))

/-- `SetData(&storage[q], cols, 1)`, dataset.cpp:244-246, 252, 258, 271, 280. -/
def slot (storage : List (Val K)) (q cols : Int) : Mat (Val K) := ⟨cols, 1, some (part storage q cols)⟩

/-- Center and scale, dataset.cpp:241-268. -/
def both (vsqrt : Val K → Val K) (s : Std) (r : Mat (Val K)) (storage : List (Val K)) (q cols : Int)
    (om ov : Option (Mat (Val K))) : Outcome (StdStep K) :=
  match om, ov with
  | none, none => do
    let (me, va) ← r.columnsMeansVariances (slot storage q cols) (slot storage (q + cols) cols) s.sample s.checkNan
    let r ← r.columnsStandard vsqrt (some me) (some va) true
    pure ⟨r, some me, some va, some va⟩
  | none, some v => do
    let me ← r.columnsMeans (slot storage q cols) s.checkNan
    let r ← r.columnsStandard vsqrt (some me) (some v) true
    pure ⟨r, some me, none, some v⟩
  | some m, none => do
    let va ← r.columnsVariances (slot storage q cols) s.sample s.checkNan
    let r ← r.columnsStandard vsqrt (some m) (some va) true
    pure ⟨r, none, some va, some va⟩
  | some m, some v => do
    let r ← r.columnsStandard vsqrt (some m) (some v) true
    pure ⟨r, none, none, some v⟩

/-- Scale only, dataset.cpp:269-277. -/
def onlyScale (vsqrt : Val K → Val K) (s : Std) (r : Mat (Val K)) (storage : List (Val K)) (q cols : Int)
    (ov : Option (Mat (Val K))) : Outcome (StdStep K) :=
  match ov with
  | none => do
    let va ← r.columnsVariances (slot storage q cols) s.sample s.checkNan
    let r ← r.columnsStandard vsqrt none (some va) true
    pure ⟨r, none, some va, some va⟩
  | some v => do
    let r ← r.columnsStandard vsqrt none (some v) true
    pure ⟨r, none, none, some v⟩

/-- Center only, dataset.cpp:278-287. -/
def onlyCenter (vsqrt : Val K → Val K) (s : Std) (r : Mat (Val K)) (storage : List (Val K)) (q cols : Int)
    (om : Option (Mat (Val K))) : Outcome (StdStep K) :=
  match om with
  | none => do
    let me ← r.columnsMeans (slot storage q cols) s.checkNan
    let r ← r.columnsStandard vsqrt (some me) none false
    pure ⟨r, some me, none, none⟩
  | some m => do
    let r ← r.columnsStandard vsqrt (some m) none false
    pure ⟨r, none, none, none⟩

/-- The branches, dataset.cpp:238-287. -/
def branch (vsqrt : Val K → Val K) (s : Std) (r : Mat (Val K)) (storage : List (Val K)) (q cols : Int)
    (om ov : Option (Mat (Val K))) : Outcome (StdStep K) :=
  if s.center then
    if s.scale then both vsqrt s r storage q cols om ov else onlyCenter vsqrt s r storage q cols om
  else
    if s.scale then onlyScale vsqrt s r storage q cols ov else .ok ⟨r, none, none, none⟩

/-- Removing the columns without variance, dataset.cpp:289-293. -/
def drop0 (s : Std) (t : StdStep K) : Outcome (StdRes K) :=
  match t.useVar with
  | some v =>
    if s.scale && s.removeZeroVar then do
      let ix ← v.indicesOf (some 0) []
      let r ← t.result.removeColumnsIn ix
      pure ⟨r, t.means, t.vars, ix⟩
    else pure ⟨t.result, t.means, t.vars, []⟩
  | none => pure ⟨t.result, t.means, t.vars, []⟩

/-- `MatrixStandardized::Calculate(mat, storage, overrideMean, overrideVariance)`, dataset.cpp:222-294, on a new object. -/
def Std.calculate (vsqrt : Val K → Val K) (s : Std) (mat : Mat (Val K)) (storage : List (Val K))
    (om ov : Option (Mat (Val K))) : Outcome (StdRes K) := do
  let temp ← Std.make mat.rows mat.cols s.removeZeroVar s.center s.scale
  if temp.storageSize > s.storageSize then .throws
  else do
    let r ← mat.copyTo00 ⟨mat.rows, mat.cols, some (part storage 0 (mat.rows * mat.cols))⟩
    let t ← branch vsqrt s r storage (mat.rows * mat.cols) mat.cols om ov
    drop0 s t

end
end Sd
end LDT
