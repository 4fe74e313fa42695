import Verif.Spec.Sur
import Verif.Model.SearchOptions
import Verif.Props.Dataset
import Mathlib.Analysis.SpecialFunctions.Log.Basic
import Mathlib.Analysis.Real.Pi.Bounds
/-!
# Specification: a table as a sample for a system of regressions, its criteria and its condition
-/
namespace LDT
namespace Su
open Mx Ls
open Arr (Val)

/-- The rows that are used: the complete ones in their order, or all of them. -/
def UsedRows (checkNan : Bool) (data : Mat (Val ℝ)) (kept : List ℤ) : Prop :=
  if checkNan then CompleteRows Option.isNone data (upTo 0 data.cols) kept else kept = upTo 0 data.rows

/-- The sample in the rows `kept` of the table: the first `m` columns are the dependent variables, the other `k` the regressors. -/
structure Sample (checkNan : Bool) (data : Mat (Val ℝ)) (kept : List ℤ) {m k : ℕ} (Y : Matrix (Fin kept.length) (Fin m) ℝ)
    (X : Matrix (Fin kept.length) (Fin k) ℝ) : Prop where
  cols : data.cols = m + k
  used : UsedRows checkNan data kept
  dependent : ∀ (i : Fin kept.length) (j : Fin m), data.get (kept.get i) ((j : ℕ) : ℤ) = .ok (some (Y i j))
  regressors : ∀ (i : Fin kept.length) (l : Fin k), data.get (kept.get i) ((m + (l : ℕ) : ℕ) : ℤ) = .ok (some (X i l))

/-- The logarithm of the greatest likelihood of a normal system whose residuals have the covariances `S`. -/
noncomputable def likelihood (N : ℕ) {m : ℕ} (S : Matrix (Fin m) (Fin m) ℝ) : ℝ :=
  -(N / 2) * (m * Real.log (2 * Real.pi) + Real.log S.det + m)

/-- The same, infinite if nothing is left (which can be only with one equation). -/
noncomputable def Likelihood (N : ℕ) {m : ℕ} (S : Matrix (Fin m) (Fin m) ℝ) : Op.Dbl ℝ := if S.det = 0 then .pinf else .num (likelihood N S)

/-- Akaike's criterion for `p` coefficients. -/
noncomputable def Akaike (N p : ℕ) {m : ℕ} (S : Matrix (Fin m) (Fin m) ℝ) : Op.Dbl ℝ :=
  if S.det = 0 then .ninf else .num (2 * p - 2 * likelihood N S)

/-- Schwarz's criterion for `p` coefficients. -/
noncomputable def Schwarz (N p : ℕ) {m : ℕ} (S : Matrix (Fin m) (Fin m) ℝ) : Op.Dbl ℝ :=
  if S.det = 0 then .ninf else .num (p * Real.log N - 2 * likelihood N S)

/-- There are enough observations for the checks. -/
def EnoughObs (checks : Option (SOpt.Checks ℝ)) (N k : ℕ) : Prop :=
  ∀ c, checks = some c → (0 < c.minObs → c.minObs ≤ N) ∧ (0 < c.minDof → c.minDof ≤ (N : ℤ) - k)

/-- The checks find nothing wrong; a value that is NaN is never found wrong. -/
def Accepted (checks : Option (SOpt.Checks ℝ)) (cn aic sic r2 : Op.Dbl ℝ) : Prop :=
  ∀ c, checks = some c → (c.checkCNAll = true → c.maxCondition.lt cn = false) ∧ c.maxAic.lt aic = false ∧ c.maxSic.lt sic = false ∧
    r2.lt c.minR2 = false

/-- What a system without restrictions needs: regressors none of which is a combination of the others, residuals none of which is, and
with details more observations than regressors. -/
def Estimable (details : Bool) {N m k : ℕ} (Y : Matrix (Fin N) (Fin m) ℝ) (X : Matrix (Fin N) (Fin k) ℝ) : Prop :=
  0 < N ∧ FullRank X ∧ (m = 1 ∨ ∀ B, LeastSquares Y X B → FullRank (left Y X B)) ∧ (details = true → k < N)

/-- The greatest sum of absolute values in a column. -/
def GreatestColumn {a b : ℕ} (A : Matrix (Fin a) (Fin b) ℝ) (c : ℝ) : Prop :=
  (∀ j, ∑ i, |A i j| ≤ c) ∧ ∃ j, ∑ i, |A i j| = c

/-- The information of a restricted system before the last multiplication: `R'(W ⊗ X'X)`; `information` is this times `R`. -/
noncomputable def halfway {N m k q : ℕ} (W : Matrix (Fin m) (Fin m) ℝ) (X : Matrix (Fin N) (Fin k) ℝ) (R : Matrix (Fin (m * k)) (Fin q) ℝ) :
    Matrix (Fin q) (Fin (m * k)) ℝ := fun a p =>
  ∑ j, ∑ l, R (number j l) a * (W j p.divNat * ∑ i, X i l * X i p.modNat)

end Su
end LDT
