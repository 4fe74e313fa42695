import Verif.Spec.Ols
import Verif.Model.Sur
import Mathlib.Logic.Equiv.Fin.Basic
/-!
# Specification: systems of regressions

`m` equations with the same `k` regressors and `N` observations. The coefficient of regressor `l` in equation `j` has the
number `l + k * j` in the list of all coefficients (`number j l`).
-/
namespace LDT
namespace Su
open Ls Mx
open Arr (Val)

section
variable {K : Type} [Field K] {N m k q : Nat}

/-- The place of the coefficient of regressor `l` in equation `j`: `l + k * j`. -/
def number (j : Fin m) (l : Fin k) : Fin (m * k) := finProdFinEquiv (j, l)

theorem number_val (j : Fin m) (l : Fin k) : (number j l : Nat) = l + k * j := rfl

/-- What is left of the observations after the regressors with the coefficients `B`. -/
def left (Y : Matrix (Fin N) (Fin m) K) (X : Matrix (Fin N) (Fin k) K) (B : Matrix (Fin k) (Fin m) K) :
    Matrix (Fin N) (Fin m) K := fun i j => Y i j - ∑ l, X i l * B l j

/-- The mean of the products of what is left in two equations. -/
def cov (E : Matrix (Fin N) (Fin m) K) : Matrix (Fin m) (Fin m) K := fun j j' => (∑ i, E i j * E i j') / N

/-- Equation by equation the least sum of squares. -/
def LeastSquares [LE K] (Y : Matrix (Fin N) (Fin m) K) (X : Matrix (Fin N) (Fin k) K) (B : Matrix (Fin k) (Fin m) K) : Prop :=
  ∀ (j : Fin m) (b : Fin k → K),
    squares (misfit X (fun i => Y i j) (fun l => B l j)) ≤ squares (misfit X (fun i => Y i j) b)

/-- The weighted sum of squares of a whole system: `Σ_i Σ_j Σ_j' E_ij W_jj' E_ij'`. -/
def system (W : Matrix (Fin m) (Fin m) K) (E : Matrix (Fin N) (Fin m) K) : K := ∑ i, weighted W (fun j => E i j)

/-- The coefficients `vec B = R g`. -/
def coef (R : Matrix (Fin (m * k)) (Fin q) K) (g : Fin q → K) : Matrix (Fin k) (Fin m) K :=
  fun l j => ∑ p, R (number j l) p * g p

/-- The information of a restricted system: `Σ R_(j l) a W_jj' (Σ_i X_il X_il') R_(j' l') b`. -/
def information (W : Matrix (Fin m) (Fin m) K) (X : Matrix (Fin N) (Fin k) K) (R : Matrix (Fin (m * k)) (Fin q) K) :
    Matrix (Fin q) (Fin q) K := fun a b =>
  ∑ j, ∑ l, ∑ j', ∑ l', R (number j l) a * (W j j' * ∑ i, X i l * X i l') * R (number j' l') b

/-- The three numbers reported about a coefficient `b` with the variance `v`, for a standard deviation `sqrt v`. -/
inductive Reported [LinearOrder K] (f : Fns K) (N : Int) (b v : K) : Val K → Tst K → Val K → Prop where
  | regular (s : K) : f.sqrt v = some s → s ≠ 0 → Reported f N b v (some s) (.num (b / s)) (some (f.pnum N (b / s)))
  | certain : f.sqrt v = some 0 → b ≠ 0 → Reported f N b v (some 0) .inf (some (f.pinf N))
  | nothing : f.sqrt v = some 0 → b = 0 → Reported f N b v (some 0) .nan none
  | undefined : f.sqrt v = none → Reported f N b v none .nan none

/-- The details hold for every coefficient what is to be reported, for the variances `V`. -/
def Report [LinearOrder K] (f : Fns K) (N : Int) (B V : Matrix (Fin k) (Fin m) K) (d : Det K) : Prop :=
  ∀ (l : Fin k) (j : Fin m), ∃ s t p, d.std.get (l : Nat) (j : Nat) = .ok s ∧ d.t.get (l : Nat) (j : Nat) = .ok t ∧
    d.prob.get (l : Nat) (j : Nat) = .ok p ∧ Reported f N (B l j) (V l j) s t p

/-- The matrix that places free coefficient `a` at `s a`. -/
def places (s : Fin q → Fin (m * k)) : Matrix (Fin (m * k)) (Fin q) K := fun p a => if p = s a then 1 else 0

/-- The estimate with the free coefficients at the increasing places `s` and zeros elsewhere: the only ones with the least sum of
squares of the system, weighted with the inverse of the covariances of the residuals of some earlier coefficients; `V` are their
covariances. -/
structure Selected [LinearOrder K] (Y : Matrix (Fin N) (Fin m) K) (X : Matrix (Fin N) (Fin k) K) (s : Fin q → Fin (m * k))
    (g : Fin q → K) (W : Matrix (Fin m) (Fin m) K) (V : Matrix (Fin q) (Fin q) K) : Prop where
  some_kept : 0 < q
  increasing : StrictMono s
  weights : PosDef W ∧ ∃ B, W * cov (left Y X B) = 1
  least : ∀ g', system W (left Y X (coef (places s) g)) ≤ system W (left Y X (coef (places s) g'))
  only : ∀ g', (∀ g'', system W (left Y X (coef (places s) g')) ≤ system W (left Y X (coef (places s) g''))) → g' = g
  variances : V * information W X (places s) = 1

/-- The variances of all coefficients, given those of the free ones: the diagonal of `R V R'`. -/
def spread (R : Matrix (Fin (m * k)) (Fin q) K) (V : Matrix (Fin q) (Fin q) K) : Matrix (Fin k) (Fin m) K :=
  fun l j => ∑ a, ∑ b, R (number j l) a * V a b * R (number j l) b

/-- The probability of the coefficient `b` with variance `v` is not missing and not greater than `p`. -/
def Significant [LinearOrder K] (f : Fns K) (N : Int) (maxProb b v : K) : Prop :=
  ∃ s t p, Reported f N b v s t (some p) ∧ p ≤ maxProb

end
end Su
end LDT
