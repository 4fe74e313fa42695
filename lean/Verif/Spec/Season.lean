import Verif.Spec.Stat
/-!
# Seasons of a series
-/
namespace LDT
namespace De
open Stat
open Arr (Val)

/-- The numbers of the season `f` among the first `T` values of a series: those at the positions `f, f + p, f + 2 p, …`,
without NaN. -/
def seasonNums {K : Type} (d : Nat → Val K) (p f T : Nat) : List K := ((List.range T).filter (· % p == f)).filterMap d

end De
end LDT
