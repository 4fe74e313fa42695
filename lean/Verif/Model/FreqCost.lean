import Verif.Model.Matrix
/-!
# Frequency costs: `src/ldt_statistics/scoring/frequency_cost.cpp`

Thresholds, costs, probabilities and weights are numbers of a linearly ordered field (no NaN among them);
labels may be missing (`none`).  A label is the `int` obtained by `static_cast<Ti>(yi)`.
-/
namespace LDT
namespace FCost
open Mx

variable {K : Type} [Field K] [LinearOrder K]

/-- The loop over thresholds, frequency_cost.cpp:45-48; `n` iterations are left; returns `rowIndex`. -/
def findRow (c : Mat K) (p : K) : Nat → Int → Outcome Int
  | 0, r => .ok r
  | n + 1, r => do
    let t ← c.get0 r 0
    if t ≥ p then pure r else findRow c p n (r + 1)

/-- Charging one observation to one table, frequency_cost.cpp:45-58; state (cost sum, count). -/
def charge (c : Mat K) (p : K) (col : Int) (weight : K) (s : K × K) : Outcome (K × K) := do
  let r ← findRow c p c.rows.toNat 0
  let value ← c.get0 r (col + 1)
  if value = 0 then pure (s.1, s.2 + weight) else pure (s.1 + value * weight, s.2 + weight)

/-- The inner loop over the tables, frequency_cost.cpp:41-58, with `CostSums` and `CostCounts`. -/
def chargeAll (p : K) (col : Int) (weight : K) : List (Mat K) → List (K × K) → Outcome (List (K × K))
  | c :: cs, s :: ss => do
    let s' ← charge c p col weight s
    let rest ← chargeAll p col weight cs ss
    pure (s' :: rest)
  | _, _ => .ok []

/-- The loop over observations, frequency_cost.cpp:28-59; observations are (label, weight), `i` is the row in
`scores`. -/
def obsLoop (costs : List (Mat K)) (scores : Mat K) : List (Option Int × K) → Int → List (K × K) →
    Outcome (List (K × K))
  | [], _, st => .ok st
  | (none, _) :: obs, i, st => obsLoop costs scores obs (i + 1) st
  | (some col, weight) :: obs, i, st => do
    let p ← scores.get0 i col
    let st' ← chargeAll p col weight costs st
    obsLoop costs scores obs (i + 1) st'

/-- `FrequencyCost::Calculate`, frequency_cost.cpp:15-65: (`CostSums`, `CostCounts`) and `AverageRatio`
(without weights every weight is 1). -/
def calculate (costs : List (Mat K)) (obs : List (Option Int × K)) (scores : Mat K) :
    Outcome (List (K × K) × K) := do
  let st ← obsLoop costs scores obs 0 (costs.map (fun _ => (0, 0)))
  pure (st, (st.map (fun s => s.1 / s.2)).sum / (costs.length : K))

/-- The loop of `Check`, frequency_cost.cpp:79-93; `n` iterations left. -/
def checkLoop (c : Mat K) : Nat → Int → K → Outcome Unit
  | 0, _, _ => .ok ()
  | n + 1, i, pre => do
    let d ← c.get0 i 0
    if d < 0 ∨ d > 1 then .throws
    else if i > 0 ∧ d ≤ pre then .throws
    else checkLoop c n (i + 1) d

/-- `FrequencyCost::Check`, frequency_cost.cpp:67-94. -/
def check (c : Mat K) (numChoices : Int) : Outcome Unit :=
  if c.rows ≤ 1 then .throws
  else if c.cols ≠ numChoices + 1 then .throws
  else checkLoop c c.rows.toNat 0 0

end FCost
end LDT
