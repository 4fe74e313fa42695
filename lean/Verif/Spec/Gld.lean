import Verif.Model.Gld
import Mathlib.Analysis.SpecialFunctions.Integrals.Basic
import Mathlib.NumberTheory.Harmonic.GammaDeriv
/-!
# What a generalized lambda distribution is

A number drawn from it is `Q U`, where `U` is uniform on the unit interval and `Q` the curve below: the two tails are integrals of powers, with exponents of their own.
So the mean of a function of it is an integral over the unit interval.
-/
namespace LDT
namespace Gl
open Op MeasureTheory

/-- The integral of a power from 1 on; nothing if the shape is infinite. -/
noncomputable def tail : Shape → ℝ → ℝ
  | .num l, x => ∫ t in (1 : ℝ)..x, t ^ (l - 1)
  | _, _ => 0

/-- The quantiles between 0 and 1. -/
noncomputable def curve (d1 d2 : ℝ) (d3 d4 : Shape) (p : ℝ) : ℝ := d1 + (tail d3 p - tail d4 (1 - p)) / d2

/-- The quantiles of a distribution with finite parameters. -/
noncomputable def Gld.curve (g : Gld) : ℝ → ℝ := Gl.curve g.d1 g.d2 (.num g.d3) (.num g.d4)

/-- The mean of a function of the distribution is `m`: the integral exists and is `m`. -/
def Gld.Expect (g : Gld) (f : ℝ → ℝ) (m : ℝ) : Prop :=
  IntervalIntegrable (fun p => f (g.curve p)) volume 0 1 ∧ ∫ p in (0 : ℝ)..1, f (g.curve p) = m

/-- The mean. -/
def Gld.IsMean (g : Gld) (m : ℝ) : Prop := g.Expect (fun x => x) m

/-- The central moment of order `k` is `v`. -/
def Gld.IsCentral (g : Gld) (k : ℕ) (v : ℝ) : Prop := ∃ m, g.IsMean m ∧ g.Expect (fun x => (x - m) ^ k) v

/-- The special functions that are used by formulas with two shapes that are not zero. -/
structure Fns.Beta (F : Fns) : Prop where
  beta : ∀ x y, 0 < x → 0 < y → F.beta x y = ∫ t in (0 : ℝ)..1, t ^ (x - 1) * (1 - t) ^ (y - 1)

/-- … and with one that is: the derivative of the logarithm of the gamma function, its derivatives, and the value of zeta at 3. -/
structure Fns.Digamma (F : Fns) : Prop where
  euler : F.euler = Real.eulerMascheroniConstant
  digamma : ∀ x, 0 < x → F.digamma x = deriv Real.Gamma x / Real.Gamma x
  polygamma : ∀ n x, 0 < n → 0 < x → F.polygamma n x = iteratedDeriv n (fun y => deriv Real.Gamma y / Real.Gamma y) x
  zeta3 : F.zeta3 = ∑' n : ℕ, 1 / ((n : ℝ) + 1) ^ 3

/-- The shapes of a type, as documented in distribution_gld.cpp:327-338 (the upper limit 5 of type 4 is a misprint of 0.5). -/
def OfType (type : ℤ) (a b : ℝ) : Prop :=
  match type with
  | 1 => a = b
  | 2 => a < 1 ∧ b < 1
  | 3 => a < 1 ∧ b < 1 ∧ a = b
  | 4 => a ≤ 0.5 ∧ b ≤ 0.5
  | 5 => a ≤ 0.5 ∧ b ≤ 0.5 ∧ a = b
  | 6 => 2 ≤ a ∧ 2 ≤ b
  | 7 => 2 ≤ a ∧ 2 ≤ b ∧ a = b
  | 8 => (2 < a ∧ 1 < b ∧ b < 2) ∨ (1 < a ∧ a < 2 ∧ 2 < b)
  | 9 => 1 < a ∧ a ≤ 2 ∧ 1 < b ∧ b ≤ 2
  | 10 => 1 < a ∧ a ≤ 2 ∧ 1 < b ∧ b ≤ 2 ∧ a = b
  | 11 => 1 < a ∧ b ≤ 1
  | _ => True

/-- A number is within a lower and an upper bound. -/
def Within (x : ℝ) (b : ℝ × Option ℝ) : Prop := b.1 ≤ x ∧ ∀ u, b.2 = some u → x ≤ u

end Gl
end LDT
