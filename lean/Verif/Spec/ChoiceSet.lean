import Verif.Model.ChoiceSet
import Verif.Spec.ChoiceSearch
import Verif.Spec.Search
/-! # Which searches over discrete choice models are possible -/
namespace LDT
namespace Dc
open Op Di Mx Arr Score

/-- The number of explanatory variables: the columns behind the dependent variable and the weights. -/
def Request.exo (q : Request) : ℤ := q.source.cols - front q.hasWeight

/-- The largest number of a column. -/
def TopOf (m : Mat (Val ℝ)) (j : ℤ) (x : ℝ) : Prop := (∃ i, m.get i j = .ok (some x)) ∧ ∀ i y, m.get i j = .ok (some y) → y ≤ x

/-- A column of ones, apart from missing cells. -/
def Ones (m : Mat (Val ℝ)) (j : ℤ) : Prop := ∀ i x, m.get i j = .ok (some x) → x = 1

/-- A table of costs: ascending thresholds between 0 and 1 in the first column, a column of costs for each choice. -/
structure CostTable (c : Mat ℝ) (choices : ℤ) : Prop where
  rows : 1 < c.rows
  cols : c.cols = choices + 1
  unit : ∀ i, 0 ≤ i → i < c.rows → ∃ t, c.get i 0 = .ok t ∧ 0 ≤ t ∧ t ≤ 1
  ascending : ∀ i t t', 0 ≤ i → i + 1 < c.rows → c.get i 0 = .ok t → c.get (i + 1) 0 = .ok t' → t < t'

/-- A metric is chosen, but it is not the first one. -/
def Later {α : Type} (l : List α) (x : α) : Prop := x ∈ l ∧ l[0]? ≠ some x

/-- What a searcher needs. -/
structure Searchable (q : Request) (choices : ℤ) : Prop where
  /-- the constant is in each model -/
  fixed : 0 < q.comb.numFixPartitions
  enough : ∀ s ∈ q.sizes, (q.comb.numFixPartitions : ℤ) ≤ s
  /-- there is something to compare the models by -/
  metric : q.metrics.metricsIn ≠ [] ∨ q.metrics.metricsOut ≠ []
  /-- there is something to keep -/
  keep : q.keepModels = true ∨ q.length1 ≠ 0
  form : (q.form = .binary ∧ choices = 2) ∨ (q.form = .ordered ∧ 3 ≤ choices)
  rows : 0 < q.source.rows
  /-- a training sample for the simulations; costs or the AUC are wanted -/
  sims : q.metrics.metricsOut ≠ [] → (q.costs ≠ [] ∨ Sco.auc ∈ q.metrics.metricsOut) ∧ 0 ≤ q.metrics.trainFix ∧
    (q.metrics.trainFix = 0 → ∃ r, q.metrics.trainRatio = .num r ∧ 0 < r ∧ r < 1 ∧ 0 < Split.trainSize q.source.rows r 0 ∧
      Split.trainSize q.source.rows r 0 ≠ q.source.rows) ∧ (0 < q.metrics.trainFix → q.metrics.trainFix ≠ q.source.rows)

/-- The requests that are accepted. -/
structure Accepted (q : Request) (choices : ℤ) : Prop where
  two : 2 ≤ choices
  exo : 1 ≤ q.exo
  options : ¬ SOpt.Contradiction q.metrics false
  simulations : ¬ (0 < q.metrics.simFix ∧ q.metrics.simFix < q.checks.minOutSim)
  coefficients : q.length1 = 0 ∨ (q.length1 = q.exo + choices - 2 ∧ (q.checks.estimation = true ∨ SOpt.WantsEstimation q.checks q.metrics))
  constant : Ones q.source (front q.hasWeight)
  elements : ∀ b ∈ q.comb.partitions, ∀ a ∈ b, 0 ≤ a ∧ a ≤ q.exo
  noCosts : Gof.frequencyCost ∉ q.metrics.metricsIn → Sco.frequencyCost ∉ q.metrics.metricsOut → q.costs = []
  costs : Later q.metrics.metricsIn .frequencyCost ∨ Later q.metrics.metricsOut .frequencyCost → q.costs ≠ [] ∧ ∀ c ∈ q.costs, CostTable c choices
  sizes : ∀ s ∈ q.sizes, 0 < s
  searchers : q.sizes ≠ [] → q.addLogit = true ∨ q.addProbit = true → Searchable q choices

/-- The laws that are wanted. -/
def Request.laws (q : Request) : List Law := (if q.addLogit then [.logit] else []) ++ (if q.addProbit then [.probit] else [])

/-- The searchers that are wanted: for each size (in the order of the request) one for each law, with a seed that depends on the place of the size. -/
def Request.planned (q : Request) : List (ℤ × Law × ℤ) :=
  q.sizes.zipIdx.flatMap fun p => q.laws.map fun l =>
    (p.1, l, if q.metrics.seed = 0 then 0 else if q.metrics.seed < 0 then -q.metrics.seed else q.metrics.seed + (p.2 + 1))

/-- The candidates are explanatory variables of the data and no variable is in two partitions. -/
structure Candidates (q : Request) : Prop where
  data : q.numEndo = 1 ∧ (q.numExo : ℤ) = q.exo
  elements : ∀ b ∈ q.comb.partitions, ∀ a ∈ b, 1 ≤ a
  apart : ∀ (i j : ℕ) b b' a, q.comb.partitions[i]? = some b → q.comb.partitions[j]? = some b' → a ∈ b → a ∈ b' → i = j

end Dc
end LDT
