import Verif.Model.SurSet
import Verif.Spec.SearchOptions
import Verif.Spec.SurSearcher
import Verif.Spec.Search
/-! # Which searches over systems of regressions are possible -/
namespace LDT
namespace Su
open Mx

/-- The group has a target. -/
def SetRequest.HasTarget (q : SetRequest) (e : List ℤ) : Prop := ∃ t ∈ e, t < (q.targets : ℤ)

/-- The first variable of the group is not behind the one that follows the targets. -/
def SetRequest.Chosen (q : SetRequest) (e : List ℤ) : Prop := ∃ a, e.head? = some a ∧ a ≤ (q.targets : ℤ)

/-- A size leaves room for the fixed partitions. -/
def SetRequest.Roomy (q : SetRequest) (s : ℤ) : Prop := (q.comb.numFixPartitions : ℤ) ≤ s

/-- The requests that are accepted. -/
structure SetAccepted (q : SetRequest) : Prop where
  options : ¬ SOpt.Contradiction q.metrics false
  simulations : ¬ (0 < q.metrics.simFix ∧ q.metrics.simFix < q.checks.minOutSim)
  targets : 0 < q.targets
  coefficients : q.length1 = 0 ∨ (q.length1 = q.exo ∧ (q.checks.estimation = true ∨ SOpt.WantsEstimation q.checks q.metrics))
  partitions : ∀ b ∈ q.comb.partitions, ∀ a ∈ b, (q.endo : ℤ) ≤ a ∧ a < q.endo + q.exo
  sizes : ∀ s ∈ q.sizes, 0 < s
  /-- the groups are not empty; a chosen one has a target -/
  groups : (∃ s ∈ q.sizes, q.Roomy s) → ∀ e ∈ q.groups, e ≠ [] ∧ (q.Chosen e → q.HasTarget e)
  /-- there is something to compare the models by and something to keep -/
  searchers : (∃ s ∈ q.sizes, q.Roomy s) → (∃ e ∈ q.groups, q.Chosen e) →
    (q.metrics.metricsIn ≠ [] ∨ q.metrics.metricsOut ≠ []) ∧ (q.keepModels = true ∨ q.length1 ≠ 0) ∧ 0 < q.source.rows

open Classical in
/-- The searchers: for each size with room for the fixed partitions one for each chosen group, in the order of the request. -/
noncomputable def SetRequest.planned (q : SetRequest) : List (ℤ × List ℤ) :=
  (q.sizes.filter fun s => decide (q.Roomy s)).flatMap fun s => (q.groups.filter fun e => decide (q.Chosen e)).map fun e => (s, e)

/-- The seed of the `k`-th searcher. -/
def SetRequest.seedAt (q : SetRequest) (k : ℕ) : ℤ :=
  if q.metrics.seed = 0 then 0 else if q.metrics.seed < 0 then -q.metrics.seed else q.metrics.seed + k

/-- The data have the variables of the request: first the dependent ones. No variable is in two partitions. -/
structure SetData (q : SetRequest) : Prop where
  counts : q.numEndo = q.endo ∧ q.numExo = q.exo
  wf : q.source.Wf
  cols : (q.endo + q.exo : ℤ) ≤ q.source.cols
  groups : ∀ e ∈ q.groups, ∀ a ∈ e, 0 ≤ a ∧ a < (q.endo : ℤ)
  apart : ∀ (i j : ℕ) b b' a, q.comb.partitions[i]? = some b → q.comb.partitions[j]? = some b' → a ∈ b → a ∈ b' → i = j

end Su
end LDT
