import Verif.Model.Sort
import Mathlib.Algebra.Order.Field.Basic
/-!
# ROC curves, src/ldt_statistics/scoring/roc.cpp, and trapezoidal areas, src/ldt_math/auc.cpp

Exact arithmetic in a linearly ordered field.  Labels, scores, weights and costs are given as one list of
observations (the code reads the columns at the same index); scores are numbers (no NaN).
-/
namespace LDT
namespace Roc
open Arr

variable {K : Type} [Field K] [LinearOrder K]

/-- One observation: `y.Data[i]`, `scores.Data[i]`, `weights->Data[i]` (1 without weights) and
`options.Costs.Data[i]` (1 without costs), roc.cpp:57-63, 82. -/
structure Obs (K : Type) where
  /-- label -/
  y : K
  /-- score: probability of a negative observation -/
  score : K
  /-- weight -/
  w : K
  /-- cost -/
  x : K
  deriving DecidableEq, Repr

/-- The four entries of the (column-major) cost matrix, `options.CostMatrix.Data[0..3]`, roc.cpp:83, 88. -/
structure CostMat (K : Type) where
  /-- `Data[0]` -/
  d0 : K
  /-- `Data[1]` -/
  d1 : K
  /-- `Data[2]` -/
  d2 : K
  /-- `Data[3]` -/
  d3 : K
  deriving DecidableEq, Repr

/-- `RocOptions`, scoring.h:318-349; `cost` is present when the class is instantiated with `hasCost`. -/
structure Options (K : Type) where
  /-- `NormalizePoints` -/
  normalizePoints : Bool := true
  /-- `LowerThreshold` (NaN is `none`) -/
  lower : Val K := none
  /-- `UpperThreshold` -/
  upper : Val K := none
  /-- `Epsilon` -/
  epsilon : K
  /-- `Pessimistic` -/
  pessimistic : Bool := false
  /-- `CostMatrix` -/
  cost : Option (CostMat K) := none
  deriving DecidableEq, Repr

/-- A sorted observation reduced to what the loop adds: score, horizontal move, vertical move. -/
structure Move (K : Type) where
  /-- score -/
  s : K
  /-- added to `horiz` -/
  h : K
  /-- added to `verti` -/
  v : K
  deriving DecidableEq, Repr

/-- The moves of one observation, roc.cpp:79-104. -/
def moveOf (cost : Option (CostMat K)) (o : Obs K) : Outcome (Move K) :=
  match cost with
  | none => .ok (if o.y = 0 then ⟨o.score, o.w, 0⟩ else ⟨o.score, 0, o.w⟩)
  | some c =>
    let b_tp := c.d0 * o.x - c.d2
    if b_tp < 0 then .throws
    else
      let c_fp := -(c.d1 * o.x - c.d3)
      if c_fp < 0 then .throws
      else .ok (if o.y = 0 then ⟨o.score, o.w * c_fp, 0⟩ else ⟨o.score, 0, o.w * b_tp⟩)

/-- Loop variables, roc.cpp:51-55. -/
structure St (K : Type) where
  /-- `Points` -/
  points : List (K × K)
  /-- `thPre` -/
  thPre : K
  /-- `sumFP` -/
  sumFP : K
  /-- `sumTP` -/
  sumTP : K
  /-- `horiz` -/
  horiz : K
  /-- `verti` -/
  verti : K

/-- Body of the loop, roc.cpp:56-108. -/
def step (epsilon : K) (pessimistic : Bool) (st : St K) (m : Move K) : St K :=
  let st :=
    if |m.s - st.thPre| > epsilon then
      let sumTP := st.sumTP + st.verti
      let sumFP := st.sumFP + st.horiz
      let points := if pessimistic then st.points ++ [(sumFP, 0)] else st.points
      { points := points ++ [(sumFP, sumTP)], thPre := m.s, sumFP := sumFP, sumTP := sumTP, horiz := 0, verti := 0 }
    else st
  { st with horiz := st.horiz + m.h, verti := st.verti + m.v }

/-- The points and the two sums, roc.cpp:51-112. -/
def curve (epsilon : K) (pessimistic : Bool) (ms : List (Move K)) (th0 : K) : List (K × K) × K × K :=
  let st := ms.foldl (step epsilon pessimistic) ⟨[(0, 0)], th0, 0, 0, 0, 0⟩
  (st.points ++ [(st.sumFP + st.horiz, st.sumTP + st.verti)], st.sumFP + st.horiz, st.sumTP + st.verti)

/-- Body of the loop of `AucPoints<false>`, auc.cpp:20-34, on `(x0, y0, Result)`. -/
def aucStep (base : K) (a : K × K × K) (p : K × K) : K × K × K :=
  (p.1, p.2, a.2.2 + (p.1 - a.1) * (a.2.1 - base + (p.2 - a.2.1) / 2))

/-- `AucPoints<false>::AucPoints`, auc.cpp:11-35. -/
def aucPoints (points : List (K × K)) (base : K) : K :=
  match points with
  | [] => 0
  | [_] => 0
  | p :: q :: l => ((p :: q :: l).foldl (aucStep base) (p.1, p.2, 0)).2.2

/-- Body of the loop of the partial area, roc.cpp:125-149: `(x0, y0, newPoints)`. -/
def clipStep (lo up : K) (a : K × K × List (K × K)) (p : K × K) : K × K × List (K × K) :=
  let x0 := a.1
  let y0 := a.2.1
  let x := p.1
  let y := p.2
  let slope := (y - y0) / (x - x0)
  let pts :=
    if x ≥ lo ∧ x0 ≤ up then
      let pts := if x > lo ∧ x0 < lo then a.2.2 ++ [(lo, y0 + (lo - x0) * slope)] else a.2.2
      let pts := if x ≥ lo ∧ x ≤ up then pts ++ [(x, y)] else pts
      if x > up ∧ x0 < up then pts ++ [(up, y - (x - up) * slope)] else pts
    else a.2.2
  (x, y, pts)

/-- `newPoints`, roc.cpp:123-149 (`slope` is only used when `x ≠ x0`). -/
def clip (lo up : K) (points : List (K × K)) : List (K × K) := (points.foldl (clipStep lo up) (0, 0, [])).2.2

/-- Division of doubles: `none` when the result is not a number (the divisor is 0). -/
def vdiv (a b : K) : Val K := if b = 0 then none else some (a / b)

/-- The end of `Calculate`, roc.cpp:114-159.  When one of the sums is 0 the normalized points are NaN. -/
def finish (normalize : Bool) (bounds : Option (K × K)) (c : List (K × K) × K × K) : Val K × List (K × K) :=
  if normalize then
    let points := c.1.map fun p => (p.1 / c.2.1, p.2 / c.2.2)
    if c.2.1 = 0 ∨ c.2.2 = 0 then (none, points)
    else match bounds with
      | some (lo, up) => (vdiv (aucPoints (clip lo up points) 0) (up - lo), points)
      | none => (some (aucPoints points 0), points)
  else (vdiv (aucPoints c.1 0) (c.2.1 * c.2.2), c.1)

/-- `isPartial` and the thresholds, roc.cpp:21-31. -/
def boundsOf (o : Options K) : Option (K × K) :=
  match o.lower, o.upper with
  | some lo, some up => some (lo, up)
  | _, _ => none

/-- `ROC::Calculate`, roc.cpp:16-160: the result (NaN is `none`) and the points.  An invalid cost matrix throws
inside the loop; nothing else has happened by then, so that the check can be done for all observations first. -/
def calculate (o : Options K) (obs : List (Obs K)) : Outcome (Val K × List (K × K)) :=
  let bounds := boundsOf o
  let bad := match bounds with
    | some (lo, up) => decide (up < lo) || decide (up > 1) || decide (lo < 0)
    | none => false
  if bad then .throws
  else if obs.length = 0 then .throws
  else do
    let sorted := stableSort (fun a b : Obs K => decide (a.score < b.score)) obs
    let ms ← sorted.mapM (moveOf o.cost)
    let normalize := o.normalizePoints || bounds.isSome
    let th0 := (sorted.head?.map (·.score)).getD 0
    pure (finish normalize bounds (curve o.epsilon o.pessimistic ms th0))

end Roc
end LDT
