import Verif.Model.VarmaFit
import Verif.Model.Distribution
import Verif.Spec.NelderMead
import Mathlib.Analysis.SpecialFunctions.Log.Basic
import Mathlib.LinearAlgebra.Matrix.PosDef
/-!
# Maximum likelihood of a VARMA model: `EstimateMl` of `src/ldt_statistics/modeling/time_series/varma/varma.cpp`

As in `Model/VarmaFit.lean`; numbers that may be infinite or NaN are `Dbl ℝ`. The optimiser (`setulb`) and the numerical derivatives are parameters, with the points at
which they evaluate the objective, since each evaluation overwrites `Result.resid`. Points of the search are finite. `c_ln_2Pi_plus_one` is `1 + log (2 pi)`.
-/
namespace LDT
namespace Ve
open Matrix
open Op (Dbl Ops exact)

section
variable {g n k p : ℕ} {θ : Type}

/-- How the coefficients (and what becomes of variances) depend on the free ones: with `R`, or without. -/
structure Par (g k p : ℕ) (θ : Type) where
  pi : (θ → ℝ) → Matrix (Fin g) (Reg g k p) ℝ
  spread : (θ → Dbl ℝ) → Matrix (Fin g) (Reg g k p) (Dbl ℝ)

/-- `gamma.CopyTo00(Pi)`, varma.cpp:316; `gammavar.GetDiag(coefstd)`, varma.cpp:396-397. -/
def freePar (g k p : ℕ) : Par g k p (Reg g k p × Fin g) := ⟨fun t j c => t (c, j), fun v j c => v (c, j)⟩

/-- `R->Dot0(gamma, Pi)`, varma.cpp:312; `R->Dot0(mdig, coefstd)`, varma.cpp:394. -/
noncomputable def restrictedPar {q : ℕ} (R : Matrix (Reg g k p × Fin g) (Fin q) ℝ) : Par g k p (Fin q) :=
  ⟨fun t j c => ∑ a, R (c, j) a * t a,
   fun v j c => (List.finRange q).foldl (fun z a => (exact : Ops ℝ).add z ((exact : Ops ℝ).mul (.num (R (c, j) a)) (v a))) (.num 0)⟩

/-- The residuals of `MlUpdateResid`, varma.cpp:318-359: row `i` of `Xt` holds earlier residuals when residual `i` is computed (C56); the lags are positive (C51). -/
noncomputable def innov (s : Sample g n k p) (P : Matrix (Fin g) (Reg g k p) ℝ) (i : Fin n) (j : Fin g) : ℝ :=
  s.y j i - ((∑ c, P j (.inl c) * s.x i c) +
    ∑ c : Fin p × Fin g, P j (.inr c) * (if h : 0 < s.lag c.1 ∧ s.lag c.1 ≤ i then innov s P ⟨i - s.lag c.1, by omega⟩ c.2 else 0))
termination_by i.val
decreasing_by simp; omega

/-- `Result.resid` after `MlUpdateResid`. -/
noncomputable def resid (s : Sample g n k p) (P : Matrix (Fin g) (Reg g k p) ℝ) : Matrix (Fin g) (Fin n) ℝ := fun j i => innov s P i j

open Classical in
/-- `std::log(sigma2.Det_pd0())`, matrix.cpp:2314-2334, by the contract of `?potrf2`: one number is taken as it is, otherwise the result is NaN if the matrix is not
positive definite. -/
noncomputable def lnDet (S : Matrix (Fin g) (Fin g) ℝ) : Dbl ℝ :=
  if g = 1 then (if 0 < S.det then .num (Real.log S.det) else if S.det = 0 then .ninf else .nan)
  else if S.PosDef then .num (Real.log S.det) else .nan

/-- `x * n` for a positive number `n`. -/
noncomputable def times (n : ℕ) : Dbl ℝ → Dbl ℝ
  | .num x => .num (x * n)
  | d => d

open Classical in
/-- `MlFunction`, varma.cpp:363-371: the divisor is the number of observations less `gamma.ColsCount`; it is infinite (or NaN) in case of a division by zero. -/
noncomputable def objective (s : Sample g n k p) (w : Par g k p θ) (cols : ℕ) (t : θ → ℝ) : Dbl ℝ :=
  let e := resid s (w.pi t)
  if n = cols then (if g = 1 ∧ 0 < (e * eᵀ).det then .pinf else .nan)
  else times n (lnDet ((1 / ((n : ℝ) - cols)) • (e * eᵀ)))

/-- The answers of `setulb`: evaluate the objective and the gradient at the new point, go on (`NEW_X`), or stop, lmbfgsb.cpp:111-116. -/
inductive Task where
  | evaluate
  | next
  | stop

/-- `setulb` (lbfgsb.c): from the bounds to its private memory; from that, the point, the value and the gradient to the same with a task. -/
structure Ulb (σ θ : Type) where
  init : (θ → Dbl ℝ) → (θ → Dbl ℝ) → σ
  step : σ → (θ → ℝ) → Dbl ℝ → (θ → Dbl ℝ) → σ × Task × (θ → ℝ) × Dbl ℝ

/-- The numerical derivatives of an objective at a point, the last point at which `CalculateFirst` evaluates (derivative.cpp:124-128), the second derivatives, and what
`Inv0` leaves if they are singular. -/
structure Numeric (θ : Type) where
  first : ((θ → ℝ) → Dbl ℝ) → (θ → ℝ) → θ → Dbl ℝ
  lastPoint : ((θ → ℝ) → Dbl ℝ) → (θ → ℝ) → θ → ℝ
  second : ((θ → ℝ) → Dbl ℝ) → (θ → ℝ) → Matrix θ θ ℝ
  junk : Matrix θ θ ℝ → Matrix θ θ ℝ

/-- The optimiser: its memory, the point, `FunctionValue`, the gradient and the point of the last evaluation. -/
structure Search (σ θ : Type) where
  mem : σ
  x : θ → ℝ
  value : Dbl ℝ
  grad : θ → Dbl ℝ
  last : Option (θ → ℝ)

/-- The loop of `Minimize00`, lmbfgsb.cpp:96-117, with the iterations that are left. -/
noncomputable def search {σ : Type} (o : Ulb σ θ) (d : Numeric θ) (f : (θ → ℝ) → Dbl ℝ) : ℕ → Search σ θ → Search σ θ
  | 0, r => r
  | i + 1, r =>
    match o.step r.mem r.x r.value r.grad with
    | (m, .evaluate, x, _) => search o d f i ⟨m, x, f x, d.first f x, some (d.lastPoint f x)⟩
    | (m, .next, x, v) => search o d f i ⟨m, x, v, r.grad, r.last⟩
    | (m, .stop, x, v) => ⟨m, x, v, r.grad, r.last⟩

/-- `mDoDetails`, `mCalculateVarCoefs`, `Optim.Options.IterationMax`, `stdMultipler`, `sampleEnd`, and the distribution function of Student's distribution. -/
structure Request where
  details : Bool
  calcVar : Bool
  maxIter : ℕ
  mult : ℝ
  sampleEnd : ℕ
  tcdf : ℕ → Dbl ℝ → Dbl ℝ

/-- The diagonal of `gammavar`. -/
def diagonal : Cov θ → θ → Dbl ℝ
  | none, _ => .pinf
  | some V, a => .num (V a a)

/-- The bounds, varma.cpp:526-532, with `sign` -1 or 1. -/
noncomputable def limits (u : Request) (sign : ℝ) (b : Start g n θ) : θ → Dbl ℝ := fun a =>
  (exact : Ops ℝ).add (.num (b.gamma a)) ((exact : Ops ℝ).mul (.num sign) ((exact : Ops ℝ).mul (.num u.mult) (Di.sqrtD (diagonal b.gammavar a))))

/-- `LogLikelihood`, `Aic`, `Sic`, `coefstd`, `coeft`, `coefprob`. -/
structure Report (g k p : ℕ) where
  ll : Dbl ℝ
  aic : Dbl ℝ
  sic : Dbl ℝ
  std : Matrix (Fin g) (Reg g k p) (Dbl ℝ)
  t : Matrix (Fin g) (Reg g k p) (Dbl ℝ)
  prob : Matrix (Fin g) (Reg g k p) (Dbl ℝ)

/-- `CalculateGoodness(*this, T, g, f, max_vf)` with `T = Sizes.T`, which does not know `sampleEnd`, and `SetDetails`, varma.cpp:387-428. -/
noncomputable def report (u : Request) (T : ℕ) (w : Par g k p θ) (n : ℕ) (coef : Matrix (Fin g) (Reg g k p) ℝ) (var : Cov θ) (vf : Dbl ℝ) : Report g k p :=
  let ar := (exact : Ops ℝ)
  let f := k + p * g
  let ll := ar.div (ar.sub (.num (-(T * g * (1 + Real.log (2 * Real.pi))))) vf) (.num 2)
  let std : Matrix (Fin g) (Reg g k p) (Dbl ℝ) := fun j c => Di.sqrtD (w.spread (diagonal var) j c)
  let t : Matrix (Fin g) (Reg g k p) (Dbl ℝ) := fun j c => ar.div (.num (coef j c)) (std j c)
  { ll := ll
    aic := ar.sub (.num (2 * g * f)) (ar.mul (.num 2) ll)
    sic := ar.sub (.num (Real.log T * g * f)) (ar.mul (.num 2) ll)
    std := std
    t := t
    prob := fun j c => ar.mul (.num 2) (ar.sub (.num 1) (u.tcdf (g * n) (ar.abs (t j c)))) }

/-- `Result` after the estimation: `gamma`, `resid`, `sigma2`, `gammavar`, `coef` and the details. -/
structure Fit (g n k p : ℕ) (θ : Type) where
  gamma : θ → ℝ
  resid : Matrix (Fin g) (Fin n) ℝ
  sigma2 : Cov (Fin g)
  gammavar : Cov θ
  coef : Option (Matrix (Fin g) (Reg g k p) ℝ)
  report : Option (Report g k p)

/-- The branch without MA part and restriction, varma.cpp:462-473; `coef` is set with the details only. -/
noncomputable def finishAr (u : Request) (b : Start g n (Reg g k p × Fin g)) : Fit g n k p (Reg g k p × Fin g) :=
  let w := freePar g k p
  { gamma := b.gamma
    resid := b.resid
    sigma2 := b.sigma2
    gammavar := b.gammavar
    coef := if u.details then some (w.pi b.gamma) else none
    report := if u.details then
        some (report u (n + u.sampleEnd) w n (w.pi b.gamma) b.gammavar (times n (match b.sigma2 with | none => .nan | some S => lnDet S)))
      else none }

/-- The other branch, varma.cpp:475-564. Without the details `coef` has no memory (varma_sizes.cpp:261-263), and varma.cpp:553-557 write to it. -/
noncomputable def finishMl {σ : Type} [Fintype θ] [DecidableEq θ] (o : Ulb σ θ) (d : Numeric θ) (u : Request) (s : Sample g n k p) (w : Par g k p θ) (grad : θ → Dbl ℝ)
    (b : Start g n θ) : Outcome (Fit g n k p θ) :=
  let f := objective s w b.cols
  let r := search o d f u.maxIter ⟨o.init (limits u (-1) b) (limits u 1 b), b.gamma, .num 0, grad, none⟩
  let H := d.second f r.x
  let var := if u.calcVar then some ((2 : ℝ) • if H.det = 0 then d.junk H else H⁻¹) else b.gammavar
  let e := match (if u.calcVar then some r.x else r.last) with
    | none => b.resid
    | some t => resid s (w.pi t)
  if u.details = false then .ub
  else .ok ⟨r.x, e, some (sigma2 e), var, some (w.pi r.x), some (report u (n + u.sampleEnd) w n (w.pi r.x) var r.value)⟩

/-- A regression without MA lags as a model whose set of MA lags is empty. -/
def Start.asModel (b : Start g n (Fin k × Fin g)) : Start g n (Reg g k 0 × Fin g) :=
  ⟨fun | (.inl c, j) => b.gamma (c, j) | (.inr c, _) => c.1.elim0, b.cols, b.resid, b.sigma2, b.gammavar.map fun V => fun
    | (.inl c, j), (.inl c', j') => V (c, j) (c', j')
    | (.inr c, _), _ => c.1.elim0
    | _, (.inr c, _) => c.1.elim0⟩

/-- `EstimateMl` without MA part and restriction, varma.cpp:440-473. -/
noncomputable def estimateAr (u : Request) (s : Sample g n k 0) (maxCn : Option ℝ) : Outcome (Fit g n k 0 (Reg g k 0 × Fin g)) := do
  let b ← unrestrictedAr s maxCn
  pure (finishAr u b.asModel)

/-- `EstimateMl` with an MA part and no restriction; with `useCurrentEstime` the first step is replaced by what the storage holds, varma.cpp:440-457. -/
noncomputable def estimateMa {σ : Type} (o : Ulb σ (Reg g k p × Fin g)) (d : Numeric (Reg g k p × Fin g)) (u : Request) (s : Sample g n k p)
    (grad : Reg g k p × Fin g → Dbl ℝ) (maxCn : Option ℝ) (current : Option (Start g n (Reg g k p × Fin g))) : Outcome (Fit g n k p (Reg g k p × Fin g)) := do
  let b ← match current with
    | some b => pure { b with cols := 1 }
    | none => unrestrictedMa s maxCn
  finishMl o d u s (freePar g k p) grad b

/-- `EstimateMl` with a restriction. The optimiser has been made for no variables if there is no MA part (varma_sizes.cpp:222-237), and refuses `q > 0` of them
(lmbfgsb.cpp:71-73). -/
noncomputable def estimateRestricted {σ : Type} {q : ℕ} (o : Ulb σ (Fin q)) (d : Numeric (Fin q)) (u : Request) (s : Sample g n k p)
    (R : Matrix (Reg g k p × Fin g) (Fin q) ℝ) (grad : Fin q → Dbl ℝ) (maxCn : Option ℝ) (current : Option (Start g n (Fin q))) :
    Outcome (Fit g n k p (Fin q)) := do
  let b ← match (if p = 0 then none else current) with
    | some b => pure { b with cols := 1 }
    | none => restricted s R maxCn
  if p = 0 ∧ 0 < q then .throws
  else finishMl o d u s (restrictedPar R) grad b

end
end Ve
end LDT
