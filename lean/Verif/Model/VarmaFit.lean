import Verif.Model.Varma
import Verif.Spec.Ols
import Mathlib.LinearAlgebra.Matrix.NonsingularInverse
import Mathlib.LinearAlgebra.Matrix.Kronecker
import Mathlib.Analysis.Real.Sqrt
/-!
# Least squares of a VARMA model: `EstimateOls` of `src/ldt_statistics/modeling/time_series/varma/varma.cpp`

Arithmetic is exact. Matrices are functions of their indices: the work array and the storage are not represented, and a product (BLAS `gemm`) is the
product of matrices. The columns of `Xt` have names instead of numbers (`Reg`), and so have the coefficients: coefficient `(c, j)` of `vec Pi` is
that of regressor `c` in equation `j`, at the place `j + g * (number of c)`. The preparation of `y` and of the first columns of `Xt` is C55.
The null pointers `r` and `ma_resid` stay null, as in all calls (varma_restriction.cpp never sets `r`).
-/
namespace LDT
namespace Ve
open Matrix
open scoped Kronecker

/-- `Result.y` (g × T), the first `MaStart` columns of `Result.Xt` (T × k) and `Sizes.MaLags`, varma.cpp:86-125. -/
structure Sample (g n k p : ℕ) where
  y : Matrix (Fin g) (Fin n) ℝ
  x : Matrix (Fin n) (Fin k) ℝ
  lag : Fin p → ℕ

/-- The columns of `Xt`: `MaStart` lags of the variables and exogenous variables, then for each MA lag one column per equation, varma.cpp:112-125, 199-206. -/
abbrev Reg (g k p : ℕ) := Fin k ⊕ (Fin p × Fin g)

section
variable {g n k p : ℕ}

/-- The columns of the lagged residuals: zero (`SetStorage`, varma_sizes.cpp:254) where `SetSub_t0(l, row, Result.resid, 0, 0, T - l, g)` does not write,
varma.cpp:199-206. -/
def Sample.maCols (s : Sample g n k p) (e : Matrix (Fin g) (Fin n) ℝ) : Matrix (Fin n) (Fin p × Fin g) ℝ :=
  fun i c => if s.lag c.1 ≤ i then e c.2 ⟨i - s.lag c.1, by omega⟩ else 0

/-- `Result.Xt` with the lags of the residuals `e`, varma.cpp:197-206. -/
def Sample.xt (s : Sample g n k p) (e : Matrix (Fin g) (Fin n) ℝ) : Matrix (Fin n) (Reg g k p) ℝ :=
  fun i => Sum.elim (s.x i) (s.maCols e i)

/-- `Norm('1')`, matrix_la.cpp:541-561, by the contract of `?lange`: the greatest sum of absolute values in a column. -/
noncomputable def norm1 {ι : Type} [Fintype ι] (A : Matrix ι ι ℝ) : ℝ := Finset.univ.fold max 0 fun j => ∑ i, |A i j|

/-- `Result.cn > maxCondNum`; `none` is the default `INFINITY`, varma.cpp:176, 225, 256. -/
noncomputable def exceeds (cn : ℝ) (maxCn : Option ℝ) : Bool := maxCn.any fun m => decide (cn > m)

/-- A matrix of (co)variances: `none` has `INFINITY` on the diagonal and zeros elsewhere, varma.cpp:295-296. -/
abbrev Cov (ι : Type) := Option (Matrix ι ι ℝ)

/-- What one regression leaves: `Result.gamma` (as a g × f matrix), `Result.resid`, `sxx` (inverted), `Result.cn`. -/
structure Step (g n : ℕ) (κ : Type) where
  gamma : Matrix (Fin g) κ ℝ
  resid : Matrix (Fin g) (Fin n) ℝ
  inv : Matrix κ κ ℝ
  cn : ℝ

/-- `Dot_AtA`, `Norm`, `Inv0`, the two checks, `gamma` and `resid`, varma.cpp:168-183 and 215-232 (twice the same code). -/
noncomputable def ols {κ : Type} [Fintype κ] [DecidableEq κ] (X : Matrix (Fin n) κ ℝ) (y : Matrix (Fin g) (Fin n) ℝ) (maxCn : Option ℝ) :
    Outcome (Step g n κ) :=
  let sxx := Xᵀ * X
  if sxx.det = 0 then .throws
  else
    let inv := sxx⁻¹
    let cn := norm1 sxx * norm1 inv
    if exceeds cn maxCn then .throws
    else
      let gamma := y * (X * inv)
      .ok ⟨gamma, y - gamma * Xᵀ, inv, cn⟩

/-- `Result.resid.Dot_AAt(Result.sigma2); Result.sigma2.Multiply_in(1 / T)`, varma.cpp:187-189, 235-236, 281-282. -/
noncomputable def sigma2 (e : Matrix (Fin g) (Fin n) ℝ) : Matrix (Fin g) (Fin g) ℝ := (1 / (n : ℝ)) • (e * eᵀ)

/-- What `EstimateOls` leaves: `gamma` as the list of free coefficients `θ` with `Result.gamma.ColsCount`, `resid`, `sigma2`, `gammavar`. -/
structure Start (g n : ℕ) (θ : Type) where
  gamma : θ → ℝ
  cols : ℕ
  resid : Matrix (Fin g) (Fin n) ℝ
  sigma2 : Cov (Fin g)
  gammavar : Cov θ

/-- A regression with its variances: `sxx.Kron(Result.sigma2, Result.gammavar)`, varma.cpp:185-191, 234-237. -/
noncomputable def Step.start {κ : Type} (a : Step g n κ) (cols : ℕ) : Start g n (κ × Fin g) :=
  ⟨fun c => a.gamma c.2 c.1, cols, a.resid, some (sigma2 a.resid), some (a.inv ⊗ₖ sigma2 a.resid)⟩

/-- The pure MA case, varma.cpp:285-298: `gamma` is a `q × 1` matrix then (varma_sizes.cpp:248 or varma.cpp:289). -/
def pureMa (g n : ℕ) (θ : Type) : Start g n θ := ⟨0, 1, 0, none, none⟩

/-- `EstimateOls` without AR and MA restrictions and without `ma_resid`, when there is an MA part (`p > 0`), varma.cpp:106-238, 285-298. -/
noncomputable def unrestrictedMa (s : Sample g n k p) (maxCn : Option ℝ) : Outcome (Start g n (Reg g k p × Fin g)) :=
  if k = 0 then .ok (pureMa g n _)
  else do
    let a ← ols s.x s.y maxCn
    let b ← ols (s.xt a.resid) s.y maxCn
    pure (b.start (k + p * g))

/-- The same without an MA part (`p = 0`): there is one regression only, varma.cpp:185-191. -/
noncomputable def unrestrictedAr (s : Sample g n k p) (maxCn : Option ℝ) : Outcome (Start g n (Fin k × Fin g)) := do
  let a ← ols s.x s.y maxCn
  pure (a.start k)

/-- `vecY`, varma.cpp:263. -/
def vecY (y : Matrix (Fin g) (Fin n) ℝ) : Fin n × Fin g → ℝ := fun i => y i.2 i.1

/-- The restricted regression, varma.cpp:239-283. `R` has a row for each coefficient. -/
noncomputable def restrictedFit {q : ℕ} {κ : Type} [Fintype κ] [DecidableEq κ] (X : Matrix (Fin n) κ ℝ) (y : Matrix (Fin g) (Fin n) ℝ)
    (R : Matrix (κ × Fin g) (Fin q) ℝ) (maxCn : Option ℝ) : Outcome (Start g n (Fin q)) :=
  let A := Rᵀ * ((Xᵀ * X) ⊗ₖ (1 : Matrix (Fin g) (Fin g) ℝ)) * R
  if A.det = 0 then .throws
  else if exceeds (norm1 A * norm1 A⁻¹) maxCn then .throws
  else
    let rx := Rᵀ * (Xᵀ ⊗ₖ (1 : Matrix (Fin g) (Fin g) ℝ))
    let gamma := A⁻¹ *ᵥ (rx *ᵥ vecY y)
    let resid : Matrix (Fin g) (Fin n) ℝ := fun j i => (vecY y - rxᵀ *ᵥ gamma) (i, j)
    .ok ⟨gamma, 1, resid, some (sigma2 resid), some A⁻¹⟩

/-- `EstimateOls` with a restriction: the first regression is made without it, varma.cpp:106-206, 239-298. -/
noncomputable def restricted {q : ℕ} (s : Sample g n k p) (R : Matrix (Reg g k p × Fin g) (Fin q) ℝ) (maxCn : Option ℝ) :
    Outcome (Start g n (Fin q)) :=
  if k = 0 then .ok (pureMa g n _)
  else do
    let a ← ols s.x s.y maxCn
    restrictedFit (s.xt a.resid) s.y R maxCn

end
end Ve
end LDT
