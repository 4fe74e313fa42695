import Verif.Model.Summary
import Verif.Model.Running
import Verif.Model.Distribution
/-!
# Summaries of a search and their combination: src/ldt_statistics/modeling/search/summary.cpp, modelset.cpp

`double`s are reals, `NaN` means and variances are `none` (the type `Val`).  Metrics and weights of pushed
estimations are numbers (a model with a NaN metric is not pushed, searcher_reg.cpp:121-122).  The vectors
of running moments are lists; `std::vector::at` with an index out of range throws.
-/
namespace LDT
namespace Srch
open Arr Di Op

/-- `EstimationKeep`, include/math/statistics/inference/searchers.h:26-58 and its constructor,
summary.cpp:109-115: `Mean` and `Variance` are NaN unless given. -/
structure Est where
  /-- `Metric` -/
  metric : ℝ
  /-- `Weight` -/
  weight : ℝ
  /-- `Mean` -/
  mean : Val ℝ := none
  /-- `Variance` -/
  variance : Val ℝ := none
  /-- `Endogenous` -/
  endo : List Int
  /-- `Exogenouses` -/
  exo : List Int
  /-- `Extra` -/
  extra : List Int := []

/-- The fields of `SearchItems` used by a summary, searchers.h:262-310. -/
structure Items where
  /-- `KeepBestCount` -/
  keepBest : Int
  /-- `KeepAll` -/
  keepAll : Bool
  /-- `KeepInclusionWeights` -/
  keepInclusion : Bool
  /-- `KeepMixture` -/
  keepMixture : Bool
  /-- `CdfsAt` -/
  cdfsAt : List ℝ
  /-- `ExtremeBoundsMultiplier` -/
  mult : ℝ

/-- `SearcherSummary`, searchers.h:312-390. -/
structure Summ where
  /-- `Index1` (the metric) -/
  i1 : Int
  /-- `Index2` (the target) -/
  i2 : Int
  /-- `Index3` (the coefficient) -/
  i3 : Int
  /-- `Bests` -/
  bests : List Est
  /-- `All` -/
  all : List Est
  /-- `InclusionsInfo` -/
  incl : List (RM ℝ)
  /-- `Cdfs` -/
  cdfs : List (RM ℝ)
  /-- `Mixture4` -/
  mix : RM ℝ
  /-- `ExtremeBounds` -/
  bounds : Option (ℝ × ℝ)

/-- The constructor, summary.cpp:121-141; `big`, `tiny` are the largest and the smallest positive normal
`double` (`numeric_limits::max()`, `min()`). -/
noncomputable def newSumm (items : Items) (big tiny : ℝ) (numEndo numExo : Nat) (i1 i2 i3 : Int) : Summ where
  i1 := i1
  i2 := i2
  i3 := i3
  bests := []
  all := []
  incl := if items.keepInclusion then List.replicate (numEndo + numExo) RM.empty else []
  cdfs := if items.cdfsAt.length > 0 then List.replicate items.cdfsAt.length RM.empty else []
  mix := RM.empty
  bounds := if items.mult > 0 then some (big, tiny) else none

/-- `std::vector::at` with a signed index. -/
def atI {α : Type} (l : List α) (i : Int) : Option α := if i < 0 then none else l[i.toNat]?

/-- The order of `Bests`: `EstimationKeepComp::operator()`, searchers.h:60-68. -/
noncomputable def estBefore (positiveOriented : Bool) (lhs rhs : Est) : Bool :=
  if positiveOriented then decide (lhs.metric > rhs.metric) else decide (lhs.metric < rhs.metric)

/-- `for (auto &i : indices) InclusionsInfo.at(i).PushNew(coef->Weight, 1)`, summary.cpp:159-162. -/
noncomputable def pushIncl (weight : ℝ) : List Int → List (RM ℝ) → Outcome (List (RM ℝ))
  | [], l => .ok l
  | i :: is, l => match atI l i with
    | none => .throws
    | some r => pushIncl weight is (l.set i.toNat (r.push false true (some weight) 1))

/-- The finite numbers among `double`s. -/
def toVal : Dbl ℝ → Val ℝ
  | .num x => some x
  | _ => none

/-- `Distribution<kNormal>(mean, sqrt(variance)).GetCdf(v)`, summary.cpp:173-175.  With a NaN mean or a NaN
or negative variance no comparison holds and `erfc` gives NaN. -/
noncomputable def normalCdfAt (S : Fns) (mean variance : Val ℝ) (v : ℝ) : Outcome (Val ℝ) :=
  match mean, variance.bind sqrtV with
  | some m, some s => make .normal m s >>= fun d => .ok (toVal (d.cdf S v))
  | _, _ => .ok none

/-- `for (auto &v : pItems->CdfsAt) Cdfs.at(i).PushNew(…, coef->Weight)`, summary.cpp:169-178. -/
noncomputable def pushCdfs (S : Fns) (e : Est) : List ℝ → List (RM ℝ) → Outcome (List (RM ℝ))
  | [], l => .ok l
  | _ :: _, [] => .throws
  | v :: vs, r :: l =>
    normalCdfAt S e.mean e.variance v >>= fun x =>
    pushCdfs S e vs l >>= fun l' => .ok (r.push true true x e.weight :: l')

/-- The extreme bounds, summary.cpp:183-187: `std::min`, `std::max` keep the old number when the new one is NaN. -/
noncomputable def pushBounds (mult : ℝ) (e : Est) (b : ℝ × ℝ) : ℝ × ℝ :=
  match e.mean, e.variance.bind sqrtV with
  | some m, some s => (min b.1 (m - mult * s), max b.2 (m + mult * s))
  | _, _ => b

/-- `SearcherSummary::Push`, summary.cpp:143-188. -/
noncomputable def push (S : Fns) (items : Items) (positiveOriented isModel : Bool) (s : Summ) (e : Est) : Outcome Summ :=
  let s := { s with bests := pushBest (estBefore positiveOriented) items.keepBest s.bests e }
  if isModel then
    let s := if items.keepAll then { s with all := s.all ++ [e] } else s
    if items.keepInclusion then
      pushIncl e.weight e.endo s.incl >>= fun l =>
      pushIncl e.weight e.exo l >>= fun l => .ok { s with incl := l }
    else .ok s
  else
    pushCdfs S e items.cdfsAt s.cdfs >>= fun l =>
    .ok { s with
      cdfs := l
      mix := if items.keepMixture then s.mix.combineStats 4 e.mean e.variance (some 0) (some 0) e.weight 1 else s.mix
      bounds := if items.mult > 0 then s.bounds.map (pushBounds items.mult e) else s.bounds }

/-- A summary after a sequence of calls of `Push`; the flag is `isModel` (`Push0`: true, `Push1`, `Push2`: false,
searcher.cpp:102-115). -/
noncomputable def feed (S : Fns) (items : Items) (positiveOriented : Bool) : List (Bool × Est) → Summ → Outcome Summ
  | [], s => .ok s
  | p :: l, s => push S items positiveOriented p.1 s p.2 >>= feed S items positiveOriented l

/-- The loop of `CombineInclusionWeights`, modelset.cpp:222-226. -/
noncomputable def combineInclLoop (i1 i2 i3 : Int) : List Summ → RM ℝ → Outcome (RM ℝ)
  | [], r => .ok r
  | s :: l, r =>
    if s.i1 = i1 ∧ s.i2 = i2 then
      match atI s.incl i3 with
      | none => .throws
      | some o => combineInclLoop i1 i2 i3 l (RM.combine true r o)
    else combineInclLoop i1 i2 i3 l r

/-- `CombineInclusionWeights`, modelset.cpp:212-227. -/
noncomputable def combineInclusion (i1 i2 i3 : Int) (summaries : List Summ) : Outcome (RM ℝ) :=
  if summaries.length = 0 then .throws else combineInclLoop i1 i2 i3 summaries RM.empty

/-- The loop of `CombineCdfAt`, modelset.cpp:239-243. -/
noncomputable def combineCdfLoop (i1 i2 i3 cdfIndex : Int) : List Summ → RM ℝ → Outcome (RM ℝ)
  | [], r => .ok r
  | s :: l, r =>
    if s.i1 = i1 ∧ s.i2 = i2 ∧ s.i3 = i3 then
      match atI s.cdfs cdfIndex with
      | none => .throws
      | some o => combineCdfLoop i1 i2 i3 cdfIndex l (RM.combine true r o)
    else combineCdfLoop i1 i2 i3 cdfIndex l r

/-- `CombineCdfAt`, modelset.cpp:229-244. -/
noncomputable def combineCdfAt (i1 i2 i3 cdfIndex : Int) (summaries : List Summ) : Outcome (RM ℝ) :=
  if summaries.length = 0 then .throws else combineCdfLoop i1 i2 i3 cdfIndex summaries RM.empty

/-- `CombineMixture`, modelset.cpp:267-283. -/
noncomputable def combineMixture (i1 i2 i3 : Int) (summaries : List Summ) : Outcome (RM ℝ) :=
  if summaries.length = 0 then .throws
  else .ok (summaries.foldl (fun r s => if s.i1 = i1 ∧ s.i2 = i2 ∧ s.i3 = i3 then RM.combine true r s.mix else r) RM.empty)

end Srch
end LDT
