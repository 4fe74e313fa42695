import Verif.Spec.Rank
import Verif.Spec.Correlation
/-!
# Correlation of ranks
-/
namespace LDT
namespace Co
open Stat Arr

/-- The descending ranks of some numbers, as cells. -/
def ranks {K : Type} [Field K] [LinearOrder K] (l : List K) : List (Val K) := l.map (fun x => some (Rk.rankIn false l x : K))

/-- The covariance of the ranks. -/
def rankCov {K : Type} [Field K] [LinearOrder K] (adjust : Bool) (xs ys : List K) : Val K := covOf adjust (ranks xs) (ranks ys)

/-- The coefficient of correlation of the ranks. -/
noncomputable def rankCor (xs ys : List ℝ) : Val ℝ := corOf (ranks xs) (ranks ys)

end Co
end LDT
