import Verif.Model.VarmaSet
import Verif.Spec.SearchOptions
import Verif.Spec.VarmaSearcher
import Verif.Spec.Search
/-! # Which searches over VARMA models are possible -/
namespace LDT
namespace Vm
open Mx

/-- The orders of the request: none is larger than its limit, and there is a lag. -/
structure SetRequest.Wanted (r : SetRequest) (o : Order) : Prop where
  p : 0 ≤ o.p ∧ ∃ m, r.params[0]? = some m ∧ o.p ≤ m
  d : 0 ≤ o.d ∧ ∃ m, r.params[1]? = some m ∧ o.d ≤ m
  q : 0 ≤ o.q ∧ ∃ m, r.params[2]? = some m ∧ o.q ≤ m
  sp : 0 ≤ o.sp ∧ ∃ m, r.params[3]? = some m ∧ o.sp ≤ m
  sd : 0 ≤ o.sd ∧ ∃ m, r.params[4]? = some m ∧ o.sd ≤ m
  sq : 0 ≤ o.sq ∧ ∃ m, r.params[5]? = some m ∧ o.sq ≤ m
  lag : o.p ≠ 0 ∨ o.q ≠ 0 ∨ o.sp ≠ 0 ∨ o.sq ≠ 0

/-- The orders one after the other: the last ones of (p, d, q, P, D, Q) run first. -/
def Order.before (a b : Order) : Prop := List.Lex (· < ·) a.list b.list

/-- The observations that a model loses: the last of its lags in the autoregression and the degree of its differences. -/
def Order.lost (o : Order) (season : ℤ) : ℤ := (if o.sp = 0 then o.p else season * o.sp) + o.d + o.sd * season

/-- The season counts only if it has two periods or more. -/
def SetRequest.period (r : SetRequest) : ℤ := if r.season < 2 then 0 else r.season

/-- The conditions of one searcher, for `n` endogenous variables and `T` periods until the end of the first series. -/
structure Possible (r : SetRequest) (T n : ℤ) (o : Order) : Prop where
  season : r.season < 2 → o.sp = 0 ∧ o.sd = 0 ∧ o.sq = 0
  room : (r.comb.numFixPartitions : ℤ) ≤ n
  metrics : r.metrics.metricsIn ≠ [] ∨ r.metrics.metricsOut ≠ []
  keeps : r.keepModels = true ∨ r.length1 ≠ 0
  horizon : (r.checks.estimation = true ∨ SOpt.WantsEstimation r.checks r.metrics) → r.checks.prediction = true → 0 < r.maxHorizon
  simulations : 0 < r.metrics.simFix → r.metrics.metricsOut ≠ [] → r.metrics.simFix < T - o.lost r.period

/-- The requests that are accepted. -/
structure SetAccepted (r : SetRequest) : Prop where
  options : ¬ SOpt.Contradiction r.metrics true
  simulations : ¬ (0 < r.metrics.simFix ∧ r.metrics.simFix < r.checks.minOutSim)
  targets : 0 < r.targets
  forecasts : r.length1 = 0 ∨ r.checks.prediction = true
  partitions : ∀ b ∈ r.comb.partitions, ∀ a ∈ b, 0 ≤ a ∧ a ≤ (r.endo : ℤ)
  params : r.params.length = 6 ∧ ∀ m ∈ r.params, 0 ≤ m
  sizes : ∀ s ∈ r.sizes, 0 < s
  /-- there is data; each order is possible with each size -/
  searchers : ∃ g gs, r.source.ranges = g :: gs ∧ ∀ s ∈ r.sizes, ∀ o, r.Wanted o → Possible r (g.stop + 1) s o

/-- The orders and the season are small enough for 32 bits. -/
structure Small (r : SetRequest) : Prop where
  season : r.season + 1 ≤ Poly.intMax
  diffs : ∀ o, r.Wanted o → o.d + 1 ≤ Poly.intMax ∧ o.d + o.sd * r.season + 1 ≤ Poly.intMax

/-- The groups of exogenous variables: without any there is one group, without variables. -/
def SetRequest.innerGroups (r : SetRequest) : List (List ℤ) := if r.groups = [] then [[]] else r.groups

/-- The sizes of a model in the words of its orders. -/
structure SizesOf (r : SetRequest) (T n : ℤ) (o : Order) (e : List ℤ) (z : Varma.Sizes) : Prop where
  obs : z.obsCount = T
  eqs : z.eqsCount = n
  exo : z.exoCount = e.length
  ar : ∀ l, l ∈ z.arLags ↔ (1 ≤ l ∧ l ≤ o.p) ∨ ∃ k, 1 ≤ k ∧ k ≤ o.sp ∧ l = r.season * k
  ma : ∀ l, l ∈ z.maLags ↔ (1 ≤ l ∧ l ≤ o.q) ∨ ∃ k, 1 ≤ k ∧ k ≤ o.sq ∧ l = r.season * k
  lost : z.arMaxD = o.lost r.period
  params : z.numParams = ((o.p + o.sp + o.q + o.sq) * n + e.length) * n

end Vm
end LDT
