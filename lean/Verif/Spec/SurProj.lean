import Verif.Spec.Sur
/-!
# Specification: projections of a system of regressions
-/
namespace LDT
namespace Su

section
variable {K : Type} [Field K] {m k q : Nat}

/-- The covariances of all coefficients, given those (`V`) of the free ones: `R V R'`. -/
def coefCov (R : Matrix (Fin (m * k)) (Fin q) K) (V : Matrix (Fin q) (Fin q) K) : Matrix (Fin (m * k)) (Fin (m * k)) K :=
  fun p p' => ∑ a, ∑ b, R p a * V a b * R p' b

/-- The covariances of the projections for the regressors `x`: those of the residuals and those of the estimated coefficients. -/
def projectionCov (Q : Matrix (Fin (m * k)) (Fin (m * k)) K) (S : Matrix (Fin m) (Fin m) K) (x : Fin k → K) :
    Matrix (Fin m) (Fin m) K :=
  fun j j' => S j j' + ∑ l, ∑ l', x l * Q (number j l) (number j' l') * x l'

end
end Su
end LDT
