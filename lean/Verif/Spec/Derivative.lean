import Mathlib.Algebra.Order.Field.Basic
import Mathlib.Logic.Function.Basic
import Mathlib.Algebra.BigOperators.Group.Finset.Basic
/-!
# Difference quotients and their extrapolation
-/
namespace LDT
namespace Dv

variable {K : Type} [Field K] [LinearOrder K] {n : Nat}

/-- The central difference quotient in coordinate `i` with step `h`. -/
def slope (f : (Fin n → K) → K) (x : Fin n → K) (i : Fin n) (h : K) : K :=
  (f (Function.update x i (x i + h)) - f (Function.update x i (x i - h))) / (2 * h)

/-- `x` with `s` added to coordinate `i` and `t` added to another coordinate `j`. -/
def moved (x : Fin n → K) (i j : Fin n) (s t : K) : Fin n → K := Function.update (Function.update x i (x i + s)) j (x j + t)

/-- The second difference quotient in the coordinates `i` and `j` with steps `hi` and `hj`. -/
def bend (f : (Fin n → K) → K) (x : Fin n → K) (i j : Fin n) (hi hj : K) : K :=
  if i = j then
    (f (Function.update x i (x i + 2 * hi)) - 2 * f x + f (Function.update x i (x i - 2 * hi))) / (2 * hi) ^ 2
  else
    (f (moved x i j hi hj) - f (moved x i j hi (-hj)) - f (moved x i j (-hi) hj) + f (moved x i j (-hi) (-hj))) / (4 * hi * hj)

/-- Richardson extrapolation of `a 0, a 1, ...` as the comment in the code says (derivative.cpp:106-113): level `k` removes the error term
of order `k`. `richardson T a k c` is entry `c` of level `k`. -/
def richardson (T : K) (a : Nat → K) : Nat → Nat → K
  | 0, c => a c
  | k + 1, c => (T ^ (k + 1) * richardson T a k (c + 1) - richardson T a k c) / (T ^ (k + 1) - 1)

/-- The first `count` numbers are all larger than 1e-16 in absolute value. -/
def Noticeable (count : Nat) (a : Nat → K) : Prop := ∀ c < count, 1 / 10 ^ 16 < |a c|

end Dv
end LDT
