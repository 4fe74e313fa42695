import Verif.Model.Ols
import Verif.Model.NelderMead
import Verif.Spec.NelderMead
import Verif.Spec.Ols
/-!
# Newton's method: `src/ldt_math/optimization/newton.cpp`

Arithmetic is exact (`exact` for the values of the function, which may be `NaN` or infinite); points, gradients and Hessians are finite
numbers. `std::sqrt` is a parameter. `dposv` is replaced by its contract: for a positive definite matrix, of which only the lower triangle
is read, it solves the system and overwrites the lower triangle (`chol` is what it leaves there), otherwise `info` is not zero.
The functions given by the user keep no state. `IterationMax` is not negative.
-/
namespace LDT
namespace Op
open Matrix

section
variable {K : Type} [Field K] [LinearOrder K] {n : Nat}

/-- The symmetric matrix whose lower triangle is that of `H` (all that `dposv` with `UPLO = 'L'` reads, matrix_la.cpp:740-757). -/
def mirrored (H : Matrix (Fin n) (Fin n) K) : Matrix (Fin n) (Fin n) K := fun i j => if j ≤ i then H i j else H j i

open Classical in
/-- `Hessian.SolvePos0(d, false)`, matrix_la.cpp:740-757: (info, the matrix, the solution). LAPACK refuses an empty system (`LDA` must be positive). -/
noncomputable def solvePos (chol : Matrix (Fin n) (Fin n) K → Matrix (Fin n) (Fin n) K) (H : Matrix (Fin n) (Fin n) K) (d : Fin n → K) :
    Int × Matrix (Fin n) (Fin n) K × (Fin n → K) :=
  if 0 < n ∧ Ls.PosDef (mirrored H) then (0, chol H, (mirrored H)⁻¹ *ᵥ d) else (1, H, d)

/-- `x0`, `vf0`, `vg0` and the step length after the line search, and `Iteration`. -/
structure Line (K : Type) (n : Nat) where
  x : Fin n → K
  f : Dbl K
  g : Fin n → K
  iter : Nat

/-- The new step length when the curvature condition fails, newton.cpp:66. -/
def longer (beta : Option K) (t : K) : K :=
  match beta with
  | none => 2 * t
  | some b => 1 / 2 * (t + b)

/-- The loop of `wolfe_weak`, newton.cpp:51-75, at `Iteration = i` with `fuel` iterations left; `beta = none` is infinity. The result is
`inl` of what was found, or `inr` of `beta` if the iterations were used up. -/
def wolfeLoop (F : (Fin n → K) → Dbl K) (G : (Fin n → K) → Fin n → K) (d x0 : Fin n → K) (vf0 : Dbl K) (gd0 c1 c2 : K) :
    Nat → Nat → K → Option K → K → Line K n ⊕ Option K
  | 0, _, _, beta, _ => .inr beta
  | fuel + 1, i, alpha, beta, t =>
    let w : Fin n → K := fun k => t * d k + x0 k
    let v := F w
    if v = .nan ∨ ((exact : Ops K).add vf0 (.num (c1 * t * gd0))).lt v = true then
      wolfeLoop F G d x0 vf0 gd0 c1 c2 fuel (i + 1) alpha (some t) (1 / 2 * (alpha + t))
    else
      let g := G w
      if d ⬝ᵥ g < c2 * gd0 then
        wolfeLoop F G d x0 vf0 gd0 c1 c2 fuel (i + 1) t beta (longer beta t)
      else .inl ⟨w, v, g, i⟩

/-- `wolfe_weak`, newton.cpp:38-92. -/
def wolfe (F : (Fin n → K) → Dbl K) (G : (Fin n → K) → Fin n → K) (d x0 : Fin n → K) (vf0 : Dbl K) (vg0 : Fin n → K) (t c1 c2 : K)
    (maxIterations : Nat) : Outcome (Line K n) :=
  match wolfeLoop F G d x0 vf0 (d ⬝ᵥ vg0) c1 c2 (maxIterations - 1) 1 0 none t with
  | .inl l => .ok l
  | .inr (some _) => .ok ⟨x0, vf0, vg0, maxIterations⟩
  | .inr none => .throws

/-- The settings of the class, optimization.h:150-162. -/
structure NewtonOpts (K : Type) where
  iterationMax : Nat
  tolGradient : K
  tolFunction : K
  useLineSearch : Bool

/-- `x0` and the public members of the class, optimization.h:164-186. -/
structure NewtonState (K : Type) (n : Nat) where
  x : Fin n → K
  f : Dbl K
  g : Fin n → K
  h : Matrix (Fin n) (Fin n) K
  iteration : Nat
  iterLine : Nat
  gnorm : Dbl K
  vfDiff : Dbl K

/-- `norm2`, newton.cpp:17-22. -/
def norm2 (sqrt : K → K) (g : Fin n → K) : K := sqrt (∑ i, g i ^ 2)

/-- The end of an iteration, newton.cpp:149-157: the check of the function tolerance and the next iteration. -/
def newtonNext (o : NewtonOpts K) (next : Dbl K → NewtonState K n → Outcome (NewtonState K n)) (pre : Dbl K) (s : NewtonState K n) :
    Outcome (NewtonState K n) :=
  if 0 < o.tolFunction then
    let diff := (exact : Ops K).abs ((exact : Ops K).sub pre s.f)
    if diff.lt (.num o.tolFunction) = true then pure { s with vfDiff := diff }
    else next s.f { s with vfDiff := diff, iteration := s.iteration + 1 }
  else next s.f { s with iteration := s.iteration + 1 }

/-- The gradient check at the beginning of an iteration, newton.cpp:120-127 (a gradient of finite numbers has a finite norm). -/
def newtonGnorm (o : NewtonOpts K) (sqrt : K → K) (s : NewtonState K n) : NewtonState K n :=
  if 0 < o.tolGradient then { s with gnorm := .num (norm2 sqrt s.g) } else s

/-- The loop of `Newton::minimize`, newton.cpp:116-157, with `fuel` iterations left before `IterationMax`; `pre` is `pre_vf`. -/
noncomputable def newtonLoop (o : NewtonOpts K) (sqrt : K → K) (chol : Matrix (Fin n) (Fin n) K → Matrix (Fin n) (Fin n) K)
    (F : (Fin n → K) → Dbl K) (G : (Fin n → K) → Fin n → K) (H : (Fin n → K) → Matrix (Fin n) (Fin n) K) :
    Nat → Dbl K → NewtonState K n → Outcome (NewtonState K n)
  | 0, _, s => pure s
  | fuel + 1, pre, s =>
    if 0 < o.tolGradient ∧ norm2 sqrt s.g < o.tolGradient then pure (newtonGnorm o sqrt s)
    else
      let s := newtonGnorm o sqrt s
      let q := solvePos chol (H s.x) (fun i => s.g i * -1)
      if q.1 ≠ 0 then .throws
      else if o.useLineSearch then do
        let l ← wolfe F G q.2.2 s.x s.f s.g 1 (1 / 10000) (9 / 10) 100
        newtonNext o (newtonLoop o sqrt chol F G H fuel) pre
          { s with x := l.x, f := l.f, g := l.g, h := q.2.1, iterLine := s.iterLine + l.iter }
      else
        newtonNext o (newtonLoop o sqrt chol F G H fuel) pre
          { s with x := fun i => s.x i + q.2.2 i, f := F fun i => s.x i + q.2.2 i, h := q.2.1 }

/-- `Newton::minimize`, newton.cpp:94-158, as called by `Newton::Minimize` and `Newton::Minimize2`, newton.cpp:160-194: `k` is the number
of variables the class was made for. `h0`, `gnorm0` and `vf0` are the members before the call. -/
noncomputable def newton (k : Nat) (o : NewtonOpts K) (sqrt : K → K) (chol : Matrix (Fin n) (Fin n) K → Matrix (Fin n) (Fin n) K)
    (F : (Fin n → K) → Dbl K) (G : (Fin n → K) → Fin n → K) (H : (Fin n → K) → Matrix (Fin n) (Fin n) K) (x0 : Fin n → K)
    (h0 : Matrix (Fin n) (Fin n) K) (gnorm0 vfDiff0 : Dbl K) : Outcome (NewtonState K n) :=
  if k < n then .throws
  else newtonLoop o sqrt chol F G H o.iterationMax (F x0) ⟨x0, F x0, G x0, h0, 0, 0, gnorm0, vfDiff0⟩

end
end Op
end LDT
