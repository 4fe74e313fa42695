import Mathlib.Algebra.Polynomial.Coeff
import Mathlib.Algebra.Polynomial.Degree.Lemmas
/-! Specification of coefficient lists: the polynomial (Mathlib's `R[X]`) with these coefficients. -/
namespace LDT
namespace Poly
open Polynomial

/-- The polynomial `c₀ + c₁ X + c₂ X² + …` of a list of coefficients. -/
noncomputable def toPoly {R : Type} [Semiring R] (l : List R) : R[X] :=
  ∑ i ∈ Finset.range l.length, monomial i ((l[i]?).getD 0)

end Poly
end LDT
