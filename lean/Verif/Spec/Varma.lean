import Verif.Spec.Matrix
import Verif.Model.Varma
import Verif.Spec.Poly
import Mathlib.Algebra.BigOperators.Group.Finset.Basic
/-! Cell values as a total function, for numeric statements about matrices. -/
namespace LDT
namespace Mx

/-- The value in cell `(i, j)` (column-major memory); zero outside the memory. -/
def Mat.val {K : Type} [Zero K] (m : Mat K) (i j : Int) : K := (m.mem[(i + m.rows * j).toNat]?).getD 0

end Mx
end LDT

namespace LDT
namespace Varma
open Mx

/-- The difference polynomial applied to series `r` at time `t`: `Σ_f c_f · m(r, t - f)`. -/
def diffAt {K : Type} [Ring K] (poly : List Int) (m : Mat K) (r t : Int) : K :=
  ∑ f ∈ Finset.range poly.length, (((poly[f]?).getD 0 : Int) : K) * m.val r (t - f)

end Varma
end LDT

namespace LDT
namespace Varma
open Mx

/-- The right-hand side of equation `r` of the VARMA model with coefficient matrix `B` (columns: one block of
`EqsCount` per AR lag, the exogenous variables, one block per MA lag):
`Σ_{AR lags l} Σ_s B(r, ·) · ar s l + Σ_x B(r, ·) · exo x + Σ_{MA lags l} Σ_s B(r, ·) · ma s l`. -/
def modelRhs {K : Type} [Ring K] (z : Sizes) (B : Mat K) (ar : Int → Int → K) (exo : Int → K) (ma : Int → Int → K)
    (r : Int) : K :=
  ∑ c ∈ Finset.range z.arLags.length, ∑ s ∈ Finset.range z.eqsCount.toNat,
      B.val r (c * z.eqsCount + s) * ar s ((z.arLags[c]?).getD 0)
  + ∑ x ∈ Finset.range z.exoCount.toNat, B.val r (z.arLags.length * z.eqsCount + x) * exo x
  + ∑ c ∈ Finset.range z.maLags.length, ∑ s ∈ Finset.range z.eqsCount.toNat,
      B.val r (z.arLags.length * z.eqsCount + z.exoCount + c * z.eqsCount + s) * ma s ((z.maLags[c]?).getD 0)

/-- The value of an exogenous series (zero when there is none). -/
def exoVal {K : Type} [Zero K] (exo : Option (Mat K)) (x t : Int) : K :=
  match exo with
  | none => 0
  | some e => e.val x t

end Varma
end LDT
