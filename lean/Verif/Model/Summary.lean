import Verif.Model.Basic
import Mathlib.Algebra.Field.Defs
import Mathlib.Order.Defs.LinearOrder
/-!
# Search summaries, src/ldt_statistics/modeling/search/summary.cpp and modelset.cpp

Metrics and weights are elements of a linear order `K`: NaN metrics are not pushed (searcher_reg.cpp:121-122).
-/
namespace LDT
namespace Srch

/-- `EstimationKeep`, include/math/statistics/inference/searchers.h:26-58; `id` stands for the identity of
the model (its endogenous, exogenous and extra indices). -/
structure Keep (K : Type) where
  /-- `Metric` -/
  metric : K
  /-- `Weight` -/
  weight : K
  /-- `Mean` -/
  mean : K
  /-- `Variance` -/
  variance : K
  /-- the model -/
  id : Nat
  deriving DecidableEq, Repr

variable {K : Type}

/-- `EstimationKeepComp::operator()`, searchers.h:60-68: `lhs` goes before `rhs`. -/
def keepBefore [LT K] [DecidableLT K] (positiveOriented : Bool) (lhs rhs : Keep K) : Bool :=
  if positiveOriented then decide (lhs.metric > rhs.metric) else decide (lhs.metric < rhs.metric)

/-- `std::multiset::insert`: before the first element that must come after it (equal elements keep the order
of insertion). -/
def insertUpper {α : Type} (before : α → α → Bool) (a : α) : List α → List α
  | [] => [a]
  | b :: l => if before a b then a :: b :: l else b :: insertUpper before a l

/-- `SearcherSummary::Push`, the part for `Bests`, summary.cpp:144-150. -/
def pushBest {α : Type} (before : α → α → Bool) (keepBestCount : Int) (bests : List α) (a : α) : List α :=
  if keepBestCount ≠ 0 then
    let s := insertUpper before a bests
    if (s.length : Int) > keepBestCount then s.dropLast else s
  else bests

/-- The loop over `i` of `CombineBests`, modelset.cpp:194-206: the element is put before the first element of
smaller weight within the first `k` positions (or at the end), and the list is cut to `k` elements.
`front` are the positions already passed (`i = front.length`). -/
def combineOne {α : Type} (heavier : α → α → Bool) (k : Nat) (w : α) (front : List α) : List α → List α
  | [] => if front.length < k then front ++ [w] else front
  | b :: l =>
    if front.length < k then
      if heavier w b then
        let r := front ++ w :: b :: l
        if r.length > k then r.dropLast else r
      else combineOne heavier k w (front ++ [b]) l
    else front ++ b :: l

/-- `CombineBests`, modelset.cpp:180-210: `summaries` are the summaries with a flag telling whether their
indices match.  `KeepBestCount` is read from the first summary, here it is the argument `k`. -/
def combineBests {α : Type} (heavier : α → α → Bool) (k : Int) (summaries : List (Bool × List α)) :
    Outcome (List α) :=
  if summaries.length = 0 then .throws
  else if k ≤ 0 then .ok []
  else .ok (summaries.foldl (fun result s =>
    if s.1 then s.2.foldl (fun result w => combineOne heavier k.toNat w [] result) result else result) [])

/-- `w->Weight > result.at(i)->Weight`, modelset.cpp:197. -/
def heavier [LT K] [DecidableLT K] (a b : Keep K) : Bool := decide (b.weight < a.weight)

/-- `CombineAll`, modelset.cpp:162-178. -/
def combineAll {α : Type} (summaries : List (Bool × List α)) : Outcome (List α) :=
  if summaries.length = 0 then .throws
  else .ok (summaries.flatMap fun s => if s.1 then s.2 else [])

section Bounds
variable [Field K] [LinearOrder K]

/-- The extreme bounds of a summary, summary.cpp:130-132 and 183-187: they start at the largest double `big`
and the smallest positive normal double `tiny`; `sqrt` is kept abstract. -/
def extremeBounds (big tiny mult : K) (sqrt : K → K) (pushed : List (Keep K)) : K × K :=
  pushed.foldl (fun b c =>
    let d := mult * sqrt c.variance
    (min b.1 (c.mean - d), max b.2 (c.mean + d))) (big, tiny)

/-- `CombineExtremeBounds`, modelset.cpp:246-265. -/
def combineExtremeBounds (big tiny : K) (summaries : List (Bool × (K × K))) : Outcome (K × K) :=
  if summaries.length = 0 then .throws
  else .ok (summaries.foldl (fun r s =>
    if s.1 then (if r.1 > s.2.1 then s.2.1 else r.1, if r.2 < s.2.2 then s.2.2 else r.2) else r) (big, tiny))

end Bounds

end Srch
end LDT
