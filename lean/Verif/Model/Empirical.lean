import Verif.Model.NelderMead
import Mathlib.Algebra.Order.Floor.Ring
import Mathlib.Algebra.Field.Basic
/-!
# Empirical distributions by 103 quantiles: `src/ldt_statistics/distributions/empirical103.cpp`

Arithmetic is exact, over an ordered field. The quantiles are 103 finite numbers; reading another position is undefined.
-/
namespace LDT
namespace Em
open Op

section
variable {K : Type} [Field K] [LinearOrder K]

/-- `Quantiles[i]`. -/
def quantileAt (Q : Fin 103 → K) (i : Int) : Outcome K :=
  if h : 0 ≤ i ∧ i < 103 then .ok (Q ⟨i.toNat, by omega⟩) else .ub

/-- Division of finite numbers. -/
def quotient (a b : K) : Dbl K :=
  if b = 0 then (if 0 < a then .pinf else if a < 0 then .ninf else .nan) else .num (a / b)

/-- `y - shift`. -/
def less (y : K) : Dbl K → Dbl K
  | .num s => .num (y - s)
  | .pinf => .ninf
  | .ninf => .pinf
  | .nan => .nan

/-- The loop `for (; i < 103; i++)` with `fuel = 103 - i`, empirical103.cpp:38-42: `i` and `d` after it. -/
def position (Q : Fin 103 → K) (x : Dbl K) : Nat → Int → K → Outcome (Int × K)
  | 0, i, d => .ok (i, d)
  | fuel + 1, i, _ => do
    let d ← quantileAt Q i
    if x.le (.num d) then .ok (i, d) else position Q x fuel (i + 1) d

/-- `h` and `y` for the position, empirical103.cpp:44-59. -/
def stepAt (i : Int) : K × K :=
  if i = 1 then (1 / 1000 - 1 / 10000, 1 / 1000)
  else if i = 102 then (9999 / 10000 - 999 / 1000, 9999 / 10000)
  else if i = 2 then (1 / 100 - 1 / 1000, 1 / 100)
  else if i = 101 then (999 / 1000 - 99 / 100, 999 / 1000)
  else (1 / 100, ((i - 1 : Int) : K) / 100)

/-- `GetCDFApprox(x)`, empirical103.cpp:18-65. -/
def cdf (Q : Fin 103 → K) (x : Dbl K) : Outcome (Dbl K) :=
  match x with
  | .pinf => .ok (.num 1)
  | .ninf => .ok (.num 0)
  | .nan => do
    let r ← position Q .nan 102 1 0
    let _ ← quantileAt Q r.1
    let _ ← quantileAt Q (r.1 - 1)
    .ok .nan
  | .num x => do
    let q0 ← quantileAt Q 0
    let q102 ← quantileAt Q 102
    if x ≤ q0 then do
      let q1 ← quantileAt Q 1
      .ok (less (1 / 10000) (quotient ((x - q0) * (1 / 1000 - 1 / 10000)) (q1 - q0)))
    else if x ≥ q102 then do
      let q101 ← quantileAt Q 101
      .ok (less (9999 / 10000) (quotient ((x - q102) * (9999 / 10000 - 999 / 1000)) (q102 - q101)))
    else do
      let r ← position Q (.num x) 102 1 0
      let a ← quantileAt Q r.1
      let b ← quantileAt Q (r.1 - 1)
      .ok (less (stepAt r.1).2 (quotient ((r.2 - x) * (stepAt r.1).1) (a - b)))

variable [FloorRing K]

/-- `i`, `d` and `h` of `GetQuantileApprox`, empirical103.cpp:87-111. -/
def interval (p : K) : Int × K × K :=
  if p < 1 / 1000 then (0, 1 / 10000, 1 / 1000 - 1 / 10000)
  else if p > 999 / 1000 then (101, 999 / 1000, 9999 / 10000 - 999 / 1000)
  else if p < 1 / 100 then (1, 1 / 1000, 1 / 100 - 1 / 1000)
  else if p > 99 / 100 then (100, 99 / 100, 999 / 1000 - 99 / 100)
  else (⌊p * 100⌋ + 1, (⌊p * 100⌋ : K) / 100, 1 / 100)

/-- `GetQuantileApprox(p)`, empirical103.cpp:67-117. `(Ti)(d * 100)` is the floor that `d` was made from. -/
def quantile (Q : Fin 103 → K) (p : K) : Outcome (Dbl K) :=
  if p ≤ 0 then .ok .ninf
  else if p ≥ 1 then .ok .pinf
  else do
    let q0 ← quantileAt Q 0
    let q1 ← quantileAt Q 1
    let q101 ← quantileAt Q 101
    let q102 ← quantileAt Q 102
    if p ≤ 1 / 10000 then .ok (.num (q0 + (p - 1 / 10000) * (q1 - q0) / (1 / 1000 - 1 / 10000)))
    else if p ≥ 9999 / 10000 then .ok (.num (q102 + (p - 9999 / 10000) * (q102 - q101) / (9999 / 10000 - 999 / 1000)))
    else do
      let a ← quantileAt Q (interval p).1
      let b ← quantileAt Q ((interval p).1 + 1)
      .ok (.num (a + (p - (interval p).2.1) * (b - a) / (interval p).2.2))

end

section
variable {K : Type} [Field K] [LinearOrder K] (o : Ops K)

/-- `GetCDFApprox` as a value: `NaN` where it would read outside. -/
def cdfValue (Q : Fin 103 → K) (x : Dbl K) : Dbl K :=
  match cdf Q x with
  | .ok v => v
  | _ => .nan

/-- The lambda `objective`, empirical103.cpp:138-149, for the weights (the equal weight if none are given). -/
def objective (l : List (Dbl K × (Fin 103 → K))) (prob : Dbl K) (x : Dbl K) : Dbl K :=
  o.abs (o.sub (l.foldl (fun wa d => o.add wa (o.mul d.1 (cdfValue d.2 x))) (o.ofInt 0)) prob)

/-- `prob`, empirical103.cpp:155-159. -/
def prob (i : Nat) : K :=
  if i = 0 then 1 / 10000 else if i = 1 then 1 / 1000 else if i = 101 then 999 / 1000 else if i = 102 then 9999 / 10000 else ((i : K) - 1) / 100

/-- The loop of `Combine` from `i`, with `fuel` results to come, empirical103.cpp:154-171. -/
def combineLoop (big tol : Dbl K) (l : List (Dbl K × (Fin 103 → K))) : Nat → Nat → Dbl K → List (Dbl K)
  | 0, _, _ => []
  | fuel + 1, i, start =>
    let r := (minimize1 o big (objective o l (.num (prob i))) start (o.div (o.ofInt 1) (o.ofInt 10)) 500 tol start .nan).1
    r :: combineLoop big tol l fuel (i + 1) r

/-- `Combine(dists, weights, result)`, empirical103.cpp:119-171; `weights` has one number per distribution if it is given. `1e5` and `1e-8` are `big`
and `tol`. -/
def combine (big tol : Dbl K) (dists : List (Fin 103 → K)) (weights : Option (List K)) : Outcome (List (Dbl K)) :=
  match dists with
  | [] => .throws
  | [Q] => .ok (List.ofFn fun i => .num (Q i))
  | _ =>
    let ws := match weights with
      | none => dists.map fun _ => o.div (o.ofInt 1) (o.ofInt dists.length)
      | some ws => ws.map .num
    let start := dists.foldl (fun (mi : Dbl K) Q => if (Dbl.num (Q 0)).lt mi then .num (Q 0) else mi) .pinf
    .ok (combineLoop o big tol (ws.zip dists) 103 0 start)

end
end Em
end LDT
