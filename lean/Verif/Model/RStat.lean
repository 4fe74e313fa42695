import Verif.Model.Scoring
import Verif.Model.Running
import Verif.Model.Cluster
import Verif.Model.Roc
import Verif.Model.Text
import Mathlib.Analysis.SpecialFunctions.Sqrt
import Mathlib.Algebra.Order.Floor.Ring
/-!
# Functions of statistics and clustering that R calls (Rpackage/src/r_statistics.cpp, r_clustering.cpp)

Doubles are exact reals (`Val`: `none` is NaN).
-/
namespace LDT
namespace RStat
open Arr (Val)
open Text (Str)

/-- `boost::algorithm::to_lower` (ASCII), r_statistics.cpp:19, 45; r_clustering.cpp:14-15, 45, 77-79. -/
def lowerName (s : Str) : Str := s.map Char.toLower

/-! ## Weights and metrics -/

/-- The inner `try`, r_statistics.cpp:27-36: every exception becomes one exception. -/
noncomputable def weightOfScoring (value : ℝ) (name : Str) (minValue : ℝ) : Outcome ℝ :=
  match Score.scoOfName name with
  | .ok t => .ok (Score.scoToWeight t value minValue)
  | _ => .throws

/-- `GetWeightFromMetric`, r_statistics.cpp:14-38: the in-sample names are tried first. -/
noncomputable def getWeightFromMetric (value : ℝ) (metricName : Str) (minValue : ℝ) : Outcome ℝ :=
  match Score.gofOfName (lowerName metricName) with
  | .ok t => .ok (Score.gofToWeight t value minValue)
  | _ => weightOfScoring value (lowerName metricName) minValue

/-- The inner `try`, r_statistics.cpp:52-61. -/
noncomputable def metricOfScoring (value : ℝ) (name : Str) (minValue : ℝ) : Outcome ℝ :=
  match Score.scoOfName name with
  | .ok t => .ok (Score.scoFromWeight t value minValue)
  | _ => .throws

/-- `GetMetricFromWeight`, r_statistics.cpp:41-63. -/
noncomputable def getMetricFromWeight (value : ℝ) (metricName : Str) (minValue : ℝ) : Outcome ℝ :=
  match Score.gofOfName (lowerName metricName) with
  | .ok t => .ok (Score.gofFromWeight t value minValue)
  | _ => metricOfScoring value (lowerName metricName) minValue

/-! ## Combining statistics -/

/-- The list that `CombineStats4` takes and returns, r_statistics.cpp:202-209. -/
structure Stats4 where
  mean : Val ℝ
  variance : Val ℝ
  skewness : Val ℝ
  kurtosis : Val ℝ
  weight : ℝ
  count : Int

/-- The returned list, r_statistics.cpp:206-209. -/
noncomputable def statsOf (r : Arr.RM ℝ) : Stats4 :=
  ⟨r.getMean, r.getVariance, r.getSkewness, r.getKurtosis, r.sumW, r.count⟩

/-- `r.Combine(list["mean"], …)`, r_statistics.cpp:202-205. -/
noncomputable def addStats (r : Arr.RM ℝ) (s : Stats4) : Arr.RM ℝ :=
  r.combineStats 4 s.mean s.variance s.skewness s.kurtosis s.weight s.count

/-- `CombineStats4`, r_statistics.cpp:198-211. -/
noncomputable def combineStats4 (list1 list2 : Stats4) : Stats4 :=
  statsOf (addStats (addStats Arr.RM.empty list1) list2)

/-! ## ROC -/

/-- An R vector given for `costs` or `costMatrix`: `isDouble` is false for an integer vector, of which `as<NumericVector>`
makes a copy. -/
structure RVec where
  isDouble : Bool
  data : List ℝ

/-- The arguments of `GetRoc`; the four fields after `weights` are those of its `options`, r_ldt.cpp:270-283. -/
structure RocArgs where
  y : List ℝ
  scores : List ℝ
  weights : Option (List ℝ)
  lower : Val ℝ
  upper : Val ℝ
  epsilon : ℝ
  costs : Option (RVec × RVec)

/-- `UpdateRocOptions` and the reads of the costs in `Calculate`, r_ldt.cpp:270-283, roc.cpp:79-98: `some` the costs of the
observations and the cost matrix. The matrices point into `costs0` and `costMatrix0`, which end with the function: when R had to
convert an integer vector, nothing else holds the memory and using it is undefined. Fewer costs than observations, or fewer than
4 cells of the cost matrix, are read out of bounds. Nothing checks them. -/
def costsOf (n : Nat) : Option (RVec × RVec) → Outcome (Option (List ℝ × Roc.CostMat ℝ))
  | none => .ok none
  | some (c, m) =>
    if c.isDouble = false ∨ m.isDouble = false ∨ c.data.length < n then .ub
    else match m.data with
      | d0 :: d1 :: d2 :: d3 :: _ => .ok (some (c.data, ⟨d0, d1, d2, d3⟩))
      | _ => .ub

/-- `hasWeight && N != weights0.length()`, r_statistics.cpp:92. -/
def badWeights (n : Nat) : Option (List ℝ) → Bool
  | none => false
  | some w => decide (n ≠ w.length)

/-- The checks at the top of `GetRoc`, r_statistics.cpp:67-105 (that the arguments are numeric vectors is not modelled). `min` and
`max` of an empty vector read its first element. -/
noncomputable def checkRoc (a : RocArgs) : Outcome PUnit :=
  if a.y.length ≠ a.scores.length then .throws
  else if badWeights a.y.length a.weights = true then .throws
  else match a.y with
    | [] => .ub
    | v :: vs => if vs.foldl min v ≠ 0 ∨ vs.foldl max v ≠ 1 then .throws else .ok ⟨⟩

/-- The observations that `Calculate` reads: `y`, `scores`, the weights (1 without) and the costs (1 without). -/
def obsOf (a : RocArgs) (costs : Option (List ℝ)) : List (Roc.Obs ℝ) :=
  (List.range a.y.length).map (fun i =>
    ⟨a.y.getD i 0, a.scores.getD i 0, (a.weights.map (fun w => w.getD i 0)).getD 1, (costs.map (fun c => c.getD i 0)).getD 1⟩)

/-- The options after `UpdateRocOptions`, r_ldt.cpp:270-283: `Pessimistic` keeps its default. -/
def rocOptions (a : RocArgs) (m : Option (Roc.CostMat ℝ)) : Roc.Options ℝ :=
  { normalizePoints := true, lower := a.lower, upper := a.upper, epsilon := a.epsilon, pessimistic := false, cost := m }

/-- `GetRoc`, r_statistics.cpp:66-143: the number of observations, the area and the points. -/
noncomputable def getRoc (a : RocArgs) : Outcome (Nat × Val ℝ × List (ℝ × ℝ)) := do
  let _ ← checkRoc a
  let c ← costsOf a.y.length a.costs
  let r ← Roc.calculate (rocOptions a (c.map (·.2))) (obsOf a (c.map (·.1)))
  pure (a.y.length, r.1, r.2)

/-! ## Clustering -/

/-- The number of variables from the number of distances, r_clustering.cpp:38-43. -/
noncomputable def clusterVars (len : Nat) : Outcome Nat :=
  let n : ℝ := (1 + Real.sqrt (1 + 8 * (len : ℝ))) / 2
  let k : Int := ⌊n⌋
  if |n - (k : ℝ)| > 1e-16 ∨ k ≤ 1 then .throws else .ok k.toNat

/-- `FromString_HClusterLinkage`, clustering.h:178-193. -/
def linkageOfName (v : Str) : Outcome Cl.Linkage :=
  if Text.startsWith "sin".toList v then .ok .single
  else if Text.startsWith "com".toList v then .ok .complete
  else if Text.areEqualI "averageu".toList v || Text.startsWith "uav".toList v || Text.startsWith "upg".toList v then .ok .averageU
  else if Text.areEqualI "averagew".toList v || Text.startsWith "wav".toList v || Text.startsWith "wpg".toList v then .ok .averageW
  else if Text.startsWith "war".toList v then .ok .ward
  else .throws

/-- `ToString(HClusterLinkage)`, clustering.h:157-172. -/
def linkageName : Cl.Linkage → Str
  | .single => "Single".toList
  | .complete => "Complete".toList
  | .averageU => "AverageU (UPGMA)".toList
  | .averageW => "AverageW (WPGMA)".toList
  | .ward => "Ward".toList

/-- `DistanceMethod`, clustering.h:14-33. -/
inductive DistMethod where
  | euclidean | manhattan | maximum | correlation | absCorrelation
  deriving DecidableEq, Repr

/-- `FromString_DistanceMethod`, clustering.h:60-75. -/
def distOfName (v : Str) : Outcome DistMethod :=
  if Text.startsWith "euc".toList v then .ok .euclidean
  else if Text.startsWith "man".toList v then .ok .manhattan
  else if Text.startsWith "max".toList v then .ok .maximum
  else if Text.startsWith "abs".toList v then .ok .absCorrelation
  else if Text.startsWith "cor".toList v then .ok .correlation
  else .throws

/-- `ToString(DistanceMethod)`, clustering.h:40-55. -/
def distName : DistMethod → Str
  | .euclidean => "Euclidean".toList
  | .manhattan => "Manhattan".toList
  | .maximum => "Maximum".toList
  | .correlation => "Correlation".toList
  | .absCorrelation => "Absolute Correlation".toList

section
variable {K : Type} [Field K] [LinearOrder K]

/-- `ClusterH`, r_clustering.cpp:36-65, with at most `fuel` rounds of the loop: merges, heights and order. -/
noncomputable def clusterH (fuel : Nat) (distances : List (Val K)) (linkage : Str) :
    Outcome (List (Int × Int) × List K × List Nat) := do
  let n ← clusterVars distances.length
  let l ← linkageOfName (lowerName linkage)
  let r ← Cl.calculate l n fuel { rows := n, data := distances }
  Cl.mergeR r.1 n

end

/-- The conversion of the result of `ClusterHGroup`, r_clustering.cpp:100-121: indexes start at 1. -/
def groupsR (g : Cl.Groups) : List (List Nat) × List Nat :=
  (g.groups.map (fun s => s.map (· + 1)), g.removed.map (· + 1))

section
variable {K : Type} [Field K] [LinearOrder K]

/-- `ClusterHGroup`, r_clustering.cpp:68-124, from the distances of the `n` columns on (C73), with at most `fuel` rounds: the
groups, the removed columns and whether R warns about missing distances. The check of the threshold comes first. -/
def clusterHGroup (fuel : Nat) (linkage : Str) (n : Nat) (distances : List (Val K)) (nGroups : Nat) (threshold : K) :
    Outcome ((List (List Nat) × List Nat) × Bool) :=
  if threshold < 0 then .throws
  else do
    let l ← linkageOfName (lowerName linkage)
    let r ← Cl.groupData l n fuel { rows := n, data := distances } nGroups threshold
    pure (groupsR r, r.nanFound)

end
end RStat
end LDT
