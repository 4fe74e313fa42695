import Verif.Model.Matrix
import Verif.Model.Array
import Mathlib.Data.Real.Basic
/-!
# Specification: what a VARMA model takes from a table
-/
namespace LDT
namespace Vx
open Mx
open Arr (Val)

/-- The periods from `S` to `E` are the sample: no cell is missing, and one variable is missing in all periods before, and one in all periods after. -/
structure IsSample (D : Mat (Val ℝ)) (S E : Int) : Prop where
  nonneg : 0 ≤ S
  le : S ≤ E
  lt : E < D.rows
  complete : ∀ t j, S ≤ t → t ≤ E → 0 ≤ j → j < D.cols → ∃ v, D.get t j = .ok (some v)
  first : ∃ j, 0 ≤ j ∧ j < D.cols ∧ ∀ t, 0 ≤ t → t < S → D.get t j = .ok none
  last : ∃ j, 0 ≤ j ∧ j < D.cols ∧ ∀ t, E < t → t < D.rows → D.get t j = .ok none

/-- No variable is missing between two of its observations. -/
def NoGaps (D : Mat (Val ℝ)) : Prop :=
  ∀ j a t b, 0 ≤ j → j < D.cols → 0 ≤ a → a < t → t < b → b < D.rows → (∃ v, D.get a j = .ok (some v)) → (∃ v, D.get b j = .ok (some v)) → D.get t j ≠ .ok none

/-- `A` is the block of `D` that starts at period `t` and column `j`, with `n` periods and `m` columns. -/
structure IsBlock (A D : Mat (Val ℝ)) (t j n m : Int) : Prop where
  rows : A.rows = n
  cols : A.cols = m
  cell : ∀ i c, 0 ≤ i → i < n → 0 ≤ c → c < m → A.get i c = D.get (t + i) (j + c)

/-- The exogenous data that are passed on: `x` are the `exo` columns of the sample from column `eqs` on, and `future` are the `h` rows of the same columns that follow the
sample without its last `se` periods; there are none without exogenous variables. -/
def Exogenous (D : Mat (Val ℝ)) (x future : Option (Mat (Val ℝ))) (eqs exo S E h se : Int) : Prop :=
  (exo = 0 → x = none ∧ future = none) ∧ (0 < exo → ∃ X, x = some X ∧ IsBlock X D S eqs (E - S + 1) exo) ∧
    (0 < exo → 0 < h → ∃ F, future = some F ∧ IsBlock F D (E + 1 - se) eqs h exo)

end Vx
end LDT
