import Verif.Spec.Ols
import Mathlib.Data.Matrix.Basic
import Mathlib.Analysis.Real.Sqrt
/-!
# Specification: least squares of a VARMA model

`y j i` is observation `i` of equation `j`, `X i c` that of regressor `c` (the same in all equations), `B j c` is the coefficient of `c` in equation `j`.
-/
namespace LDT
namespace Ve

section
variable {g n : ℕ} {κ : Type} [Fintype κ]

/-- What is left of the observations. -/
def left (y : Matrix (Fin g) (Fin n) ℝ) (X : Matrix (Fin n) κ ℝ) (B : Matrix (Fin g) κ ℝ) : Matrix (Fin g) (Fin n) ℝ :=
  fun j i => y j i - ∑ c, B j c * X i c

/-- The sum of squares over all equations and observations. -/
def total (e : Matrix (Fin g) (Fin n) ℝ) : ℝ := ∑ j, ∑ i, e j i ^ 2

/-- Equation by equation the least sum of squares, and no other coefficients reach it. -/
def BestFit (y : Matrix (Fin g) (Fin n) ℝ) (X : Matrix (Fin n) κ ℝ) (B : Matrix (Fin g) κ ℝ) : Prop :=
  ∀ (j : Fin g) (b : κ → ℝ), Ls.squares (left y X B j) ≤ Ls.squares (fun i => y j i - ∑ c, b c * X i c) ∧
    (Ls.squares (fun i => y j i - ∑ c, b c * X i c) ≤ Ls.squares (left y X B j) → b = B j)

/-- The mean products of the residuals of two equations. -/
noncomputable def meanProducts (e : Matrix (Fin g) (Fin n) ℝ) : Matrix (Fin g) (Fin g) ℝ := fun j j' => (∑ i, e j i * e j' i) / n

/-- `V` is the covariance of the least squares coefficients for errors with the covariance `S`: `Σ_d (X'X)_cd V_(d,j)(c',j') = [c = c'] S_jj'`. -/
def CovOf [DecidableEq κ] (X : Matrix (Fin n) κ ℝ) (S : Matrix (Fin g) (Fin g) ℝ) (V : Matrix (κ × Fin g) (κ × Fin g) ℝ) : Prop :=
  ∀ c c' j j', ∑ d, (∑ i, X i c * X i d) * V (d, j) (c', j') = if c = c' then S j j' else 0

/-- The coefficients `vec B = R t`. -/
def expand {q : ℕ} (R : Matrix (κ × Fin g) (Fin q) ℝ) (t : Fin q → ℝ) : Matrix (Fin g) κ ℝ := fun j c => ∑ a, R (c, j) a * t a

/-- `v` is the greatest sum of absolute values in a column. -/
def IsNorm1 (A : Matrix κ κ ℝ) (v : ℝ) : Prop := (∀ c, ∑ d, |A d c| ≤ v) ∧ ((∃ c, ∑ d, |A d c| = v) ∨ (IsEmpty κ ∧ v = 0))

/-- The condition number is acceptable: the products of the norms of `A` and its inverse do not exceed the limit (`none`: no limit). -/
def WellConditioned [DecidableEq κ] (A : Matrix κ κ ℝ) (limit : Option ℝ) : Prop :=
  ∀ m, limit = some m → ∃ B a b, A * B = 1 ∧ IsNorm1 A a ∧ IsNorm1 B b ∧ a * b ≤ m

/-- The matrix of cross products. -/
def cross (X : Matrix (Fin n) κ ℝ) : Matrix κ κ ℝ := fun c d => ∑ i, X i c * X i d

/-- The matrix of cross products of the regressors of the free coefficients: regressor `a` of observation `i` of equation `j` is `Σ_c R_(c,j)a X_ic`. -/
def crossR {q : ℕ} (X : Matrix (Fin n) κ ℝ) (R : Matrix (κ × Fin g) (Fin q) ℝ) : Matrix (Fin q) (Fin q) ℝ :=
  fun a a' => ∑ i, ∑ j, (∑ c, R (c, j) a * X i c) * (∑ c, R (c, j) a' * X i c)

/-- Different free coefficients have different fitted values. -/
def Identified {q : ℕ} (X : Matrix (Fin n) κ ℝ) (R : Matrix (κ × Fin g) (Fin q) ℝ) : Prop :=
  ∀ t t' : Fin q → ℝ, (∀ i j, ∑ c, expand R t j c * X i c = ∑ c, expand R t' j c * X i c) → t = t'

/-- The regressors `X` are those in `x` and the earlier residuals: column `(c, j)` holds the residual of equation `j`, `lag c` observations ago, and zero before
the first observation. -/
structure WithLags {k p : ℕ} (x : Matrix (Fin n) (Fin k) ℝ) (lag : Fin p → ℕ) (e : Matrix (Fin g) (Fin n) ℝ)
    (X : Matrix (Fin n) (Fin k ⊕ (Fin p × Fin g)) ℝ) : Prop where
  first : ∀ i c, X i (.inl c) = x i c
  lagged : ∀ (i i' : Fin n) c j, (i' : ℕ) + lag c = i → X i (.inr (c, j)) = e j i'
  before : ∀ (i : Fin n) c j, (i : ℕ) < lag c → X i (.inr (c, j)) = 0

end
end Ve
end LDT
