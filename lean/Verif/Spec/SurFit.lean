import Verif.Spec.Ols
import Verif.Model.SurFit
/-!
# Specification: goodness of fit of a system of regressions
-/
namespace LDT
namespace Su
open Ls
open Arr (Val)

section
variable {K : Type} [Field K] {N m : Nat}

/-- The mean of a variable. -/
def average (Y : Matrix (Fin N) (Fin m) K) (j : Fin m) : K := (∑ i, Y i j) / N

/-- All squared distances of the observations from the means of their variables. -/
def total (Y : Matrix (Fin N) (Fin m) K) : K := ∑ j, ∑ i, (Y i j - average Y j) ^ 2

/-- The squares of all residuals. -/
def unexplained (E : Matrix (Fin N) (Fin m) K) : K := ∑ j, ∑ i, E i j ^ 2

/-- What is reported about the residuals `E` of the variables `Y` with `k` regressors; `cdf` is the distribution function. -/
structure GoodFit [LinearOrder K] (cdf : Int → Int → Ext K → K) (Y E : Matrix (Fin N) (Fin m) K) (k : Nat) (g : Fit K) : Prop where
  degrees : g.d1 = m * (N - 1) ∧ g.d2 = m * (N - k)
  regular : total Y ≠ 0 → unexplained E ≠ 0 → ∃ R F : K, g.r2 = .num R ∧ g.f = .num F ∧ R = 1 - unexplained E / total Y ∧
    F = (R / (m * (N - 1))) / ((1 - R) / (m * (N - k))) ∧
    (0 ≤ F → g.prob = some (1 - cdf g.d1 g.d2 (.num F))) ∧ (F < 0 → g.prob = none)
  exact_fit : total Y ≠ 0 → unexplained E = 0 → g.r2 = .num 1 ∧ g.f = .pinf ∧ g.prob = some (1 - cdf g.d1 g.d2 .pinf)
  constant : total Y = 0 → g.f = .nan ∧ g.prob = some (1 - cdf g.d1 g.d2 .nan) ∧
    (unexplained E = 0 → g.r2 = .nan) ∧ (unexplained E ≠ 0 → g.r2 = .ninf)

end
end Su
end LDT
