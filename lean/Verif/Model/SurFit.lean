import Verif.Model.MatrixStat
import Mathlib.Algebra.Order.Field.Basic
/-!
# Goodness of fit of a system of regressions: `src/ldt_statistics/modeling/linear/sur.cpp`

Numbers are exact, but `NaN` and the infinities are kept apart (`Ext`): which of them comes out decides whether `F` throws. Zeros have
no sign: the only zero that could be negative is `0 / d2` with `d2 < 0`, which is not reached (there are at least as many
observations as regressors, or the estimation has thrown). The numbers made from the logarithm of the likelihood (:70-99) are not modelled.
-/
namespace LDT
namespace Su
open Mx
open Arr (Val)

/-- A `double`: a number, `NaN` or an infinity. -/
inductive Ext (K : Type) where
  | nan
  | pinf
  | ninf
  | num (x : K)
  deriving DecidableEq

section
variable {K : Type} [Field K] [LinearOrder K]

/-- IEEE division. -/
def Ext.div : Ext K → Ext K → Ext K
  | .num a, .num b => if b = 0 then (if 0 < a then .pinf else if a < 0 then .ninf else .nan) else .num (a / b)
  | .num _, .pinf => .num 0
  | .num _, .ninf => .num 0
  | .pinf, .num b => if b < 0 then .ninf else .pinf
  | .ninf, .num b => if b < 0 then .pinf else .ninf
  | _, _ => .nan

/-- `1 - x`. -/
def Ext.oneMinus : Ext K → Ext K
  | .nan => .nan
  | .pinf => .ninf
  | .ninf => .pinf
  | .num x => .num (1 - x)

/-- `x < 0`. -/
def Ext.neg : Ext K → Bool
  | .ninf => true
  | .num x => decide (x < 0)
  | _ => false

/-- A cell as a `double`. -/
def Ext.ofVal : Val K → Ext K
  | none => .nan
  | some x => .num x

/-- The same matrix, with cells that may be missing (none is). -/
def vals (m : Mat K) : Mat (Val K) := ⟨m.rows, m.cols, m.data.map (List.map some)⟩

/-- `R2(y, resid)`, sur.cpp:40-57. -/
def r2 (y resid : Mat K) : Outcome (Ext K) := do
  let vars ← (vals y).columnsVariances ⟨y.cols, 1, some (List.replicate (y.cols * 1).toNat (some 0))⟩ false false
  let sy ← (upTo 0 y.cols).foldlM (fun (s : Val K) i => do
    let v ← read vars.mem i
    pure (vadd s (vmul v (vint y.rows)))) (some 0)
  let sr ← (upTo 0 resid.length).foldlM (fun (s : K) i => do
    let v ← read resid.mem i
    pure (s + v * v)) 0
  pure ((Ext.num sr).div (Ext.ofVal sy)).oneMinus

/-- What `calculate_details` stores about the fit: `r2`, `f`, `f_prob_d1`, `f_prob_d2`, `f_prob`, sur.h:76-91. -/
structure Fit (K : Type) where
  r2 : Ext K
  f : Ext K
  d1 : Int
  d2 : Int
  prob : Val K

/-- `F(r2, N, m, qstar, pvalue, d1, d2)`, sur.cpp:59-68, with the check of the constructor of the distribution,
distributions_uni.cpp:110-113. `cdf d1 d2 x` is the distribution function of the `F` distribution. -/
def fstat (cdf : Int → Int → Ext K → K) (r2 : Ext K) (N m q : Int) : Outcome (Fit K) :=
  let d1 := m * (N - 1)
  let d2 := m * N - q
  let f := (r2.div (.num (d1 : K))).div (r2.oneMinus.div (.num (d2 : K)))
  if f.neg then .ok ⟨r2, f, d1, d2, none⟩
  else if d1 ≤ 0 ∨ d2 ≤ 0 then .throws
  else .ok ⟨r2, f, d1, d2, some (1 - cdf d1 d2 f)⟩

/-- The last part of `Sur::calculate_details`, sur.cpp:140-142. -/
def goodness (cdf : Int → Int → Ext K → K) (y resid : Mat K) (km : Int) : Outcome (Fit K) := do
  let r ← r2 y resid
  fstat cdf r y.rows y.cols km

end
end Su
end LDT
