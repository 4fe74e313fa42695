import Verif.Spec.NelderMead
import Verif.Spec.Ols
import Mathlib.LinearAlgebra.Matrix.NonsingularInverse
/-!
# What a minimisation by Newton's method promises
-/
namespace LDT
namespace Op
open Matrix

variable {K : Type} [Field K] [LinearOrder K] {n : Nat}

/-- `d` is the Newton direction at `x`: it solves `H d = -g`, where `H` is symmetric and positive definite and has the lower triangle of
the Hessian. -/
def Direction (G : (Fin n → K) → Fin n → K) (H : (Fin n → K) → Matrix (Fin n) (Fin n) K) (x d : Fin n → K) : Prop :=
  ∃ S : Matrix (Fin n) (Fin n) K, Ls.PosDef S ∧ (∀ i j, j ≤ i → S i j = H x i j) ∧ ∀ i, ∑ j, S i j * d j = -(G x i)

/-- One iteration with line search: the point stays where it is, or moves by a positive multiple `t` of the Newton direction with a
sufficient decrease and a sufficient flattening (the weak Wolfe conditions with 1e-4 and 0.9). -/
def Wolfe (F : (Fin n → K) → Dbl K) (G : (Fin n → K) → Fin n → K) (H : (Fin n → K) → Matrix (Fin n) (Fin n) K) (x y : Fin n → K) : Prop :=
  y = x ∨ ∃ d t, Direction G H x d ∧ 0 < t ∧ (∀ i, y i = x i + t * d i) ∧ F y ≠ .nan ∧
    ((exact : Ops K).add (F x) (.num (1 / 10000 * t * ∑ i, G x i * d i))).lt (F y) = false ∧
    9 / 10 * ∑ i, G x i * d i ≤ ∑ i, G y i * d i

/-- `k` iterations lead from `x` to `y`. -/
inductive Path (R : (Fin n → K) → (Fin n → K) → Prop) : Nat → (Fin n → K) → (Fin n → K) → Prop where
  | refl (x : Fin n → K) : Path R 0 x x
  | step {k : Nat} {x y z : Fin n → K} : R x y → Path R k y z → Path R (k + 1) x z

/-- The quadratic `x·Ax/2 - b·x + c`. -/
def quadratic (A : Matrix (Fin n) (Fin n) K) (b : Fin n → K) (c : K) (x : Fin n → K) : K :=
  (∑ i, ∑ j, x i * A i j * x j) / 2 - ∑ i, b i * x i + c

end Op
end LDT
