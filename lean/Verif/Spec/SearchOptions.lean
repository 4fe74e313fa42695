import Verif.Model.SearchOptions
/-!
# Specification: what the options of a search mean after they are updated
-/
namespace LDT
namespace SOpt
open Score Op

/-- `i` is the position of `x` in a list: the first one, or -1 if `x` is not in the list. -/
def Position {α : Type} (l : List α) (x : α) (i : Int) : Prop :=
  (x ∉ l ∧ i = -1) ∨ ∃ k : Nat, i = k ∧ l[k]? = some x ∧ ∀ j < k, l[j]? ≠ some x

/-- Larger is better: only for the area under the curve. -/
def inPositive (m : Gof) : Prop := m = .auc

/-- Larger is better: the share of right directions, of right signs, and the area under the curve. -/
def outPositive (m : Sco) : Prop := m = .direction ∨ m = .sign ∨ m = .auc

/-- A table of positions that was never filled, or was filled for the same metrics. -/
def Fresh {α : Type} (l : List α) (f : α → Option Int) : Prop := ∀ x i, f x = some i → Position l x i

/-- A limit that is not switched off by an infinity. -/
def Limits {K : Type} (x : Dbl K) : Prop := x ≠ .pinf ∧ x ≠ .ninf

/-- The contradictions that make the metric options unusable. -/
inductive Contradiction {K : Type} [Zero K] (o : Metrics K) (timeSeries : Bool) : Prop
  /-- out-of-sample metrics without simulations -/
  | noSimulation : o.metricsOut ≠ [] → o.simFix ≤ 0 → Contradiction o timeSeries
  /-- simulations without a training sample -/
  | noTraining : 0 < o.simFix → timeSeries = false → o.trainFix = 0 → o.trainRatio = .num 0 → Contradiction o timeSeries
  /-- horizons without out-of-sample metrics -/
  | noMetric : timeSeries = true → o.horizons ≠ [] → o.metricsOut = [] → Contradiction o timeSeries
  /-- out-of-sample metrics without horizons -/
  | noHorizon : timeSeries = true → o.horizons = [] → o.metricsOut ≠ [] → Contradiction o timeSeries

/-- A check on the estimated model, other than the condition number, is wanted. -/
def WantsEstimation {K : Type} (c : Checks K) (m : Metrics K) : Prop :=
  m.metricsIn ≠ [] ∨ 0 < c.minObs ∨ 0 < c.minDof ∨ Limits c.maxAic ∨ Limits c.maxSic ∨ Limits c.minR2

end SOpt
end LDT
