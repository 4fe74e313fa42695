import Verif.Model.SurSearcher
import Verif.Spec.SurExt
import Verif.Spec.ChoiceSearch
/-! # Specification: a system of regressions of some columns of the data -/
namespace LDT
namespace Su
open Mx
open Arr (Val)

/-- The sample of the system whose dependent variables are the columns `inner` and whose regressors are the columns `cur` of the data: the
complete rows `kept`. -/
structure SystemSample (source : Mat (Val ℝ)) (inner cur kept : List ℤ) (Y : Matrix (Fin kept.length) (Fin inner.length) ℝ)
    (X : Matrix (Fin kept.length) (Fin cur.length) ℝ) : Prop where
  rows : CompleteRows Option.isNone source (inner ++ cur) kept
  dependent : ∀ (i : Fin kept.length) (j : Fin inner.length), source.get (kept.get i) (inner.get j) = .ok (some (Y i j))
  regressors : ∀ (i : Fin kept.length) (l : Fin cur.length), source.get (kept.get i) (cur.get l) = .ok (some (X i l))

/-- The table of the columns `cols` in the complete rows `kept` of the data. -/
structure TableOf (source : Mat (Val ℝ)) (cols kept : List ℤ) (t : Mat ℝ) : Prop where
  rows : CompleteRows Option.isNone source cols kept
  wf : t.Wf
  count : t.rows = kept.length
  width : t.cols = cols.length
  cells : ∀ (a b : ℕ) (r c : ℤ), kept[a]? = some r → cols[b]? = some c → ∃ x, source.get r c = .ok (some x) ∧ t.get a b = .ok x

/-- The square root of the library. -/
def SquareRoot (f : Fns ℝ) : Prop := ∀ v, 0 ≤ v → ∃ s, f.sqrt v = some s ∧ s ^ 2 = v

end Su
end LDT
