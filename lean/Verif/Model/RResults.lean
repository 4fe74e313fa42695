import Verif.Model.Basic
import Mathlib.Data.Nat.Notation
/-!
# The options and the results of a search that is called from R, Rpackage/src/r_ldt.cpp

Numbers are of any type `α`; the values that the searchers have gathered (best models, averages, bounds, moments) are
given by functions (`Gathered`), which are the subject of other properties.  `Ti` is a natural number.  The names that
R gives to the elements of a list are fixed and are not represented, and neither are the names of the elements of
`extra`.
-/
namespace LDT
namespace Rs

/-- What R asks for, the list `items`, r_ldt.cpp:116-127. -/
structure Ask where
  model : Bool
  all : Bool
  mixture4 : Bool
  inclusion : Bool
  bestK : ℕ
  extremeMultiplier : Rat
  cdfs : List Rat
  type1 : Bool
  deriving DecidableEq

/-- `SearchItems`, include/math/statistics/inference/searchers.h. -/
structure Items where
  keepModel : Bool
  keepAll : Bool
  keepMixture : Bool
  keepInclusion : Bool
  bestK : ℕ
  multiplier : Rat
  cdfs : List Rat
  length1 : ℕ
  length2 : ℕ
  deriving DecidableEq

/-- `UpdateSearchItems`, r_ldt.cpp:111-150, as it is called by `UpdateOptions` (r_ldt.cpp:260-261): `length2` is 0 and
`type2NeedsModelEstim` is false; `needs` is `type1NeedsModelEstim`. -/
def updateItems (a : Ask) (length1 : ℕ) (needs : Bool) : Outcome Items :=
  let l1 := if a.type1 then length1 else 0
  let km := if needs && decide (0 < l1) then true else a.model
  let km := if a.inclusion then true else km
  if km = false ∧ l1 = 0 then .throws
  else if ¬ (0 < a.bestK ∨ a.all ∨ a.cdfs ≠ [] ∨ a.mixture4 ∨ 0 < a.extremeMultiplier ∨ a.inclusion) then .throws
  else .ok ⟨km, a.all, a.mixture4, a.inclusion, a.bestK, a.extremeMultiplier, a.cdfs, l1, 0⟩

/-- The end of `UpdatemetricOptions`, r_ldt.cpp:245-246: the field `WeightedEval` (initially false) after the update;
`wanted` is `metricsR["weightedEval"]`. -/
def updateWeighted (isDc wanted : Bool) : Bool :=
  if isDc then wanted else false

/-- The last argument of `UpdateOptions` in `SearchDc` (r_dc.cpp:49-51), `SearchSur` (r_sur.cpp:32-34) and
`SearchVarma`. -/
def isDcArgument : Bool := false

/-- `WeightedEval` in a search for discrete choice models, r_dc.cpp:49-51. -/
def searchDcWeighted (wanted : Bool) : Bool := updateWeighted isDcArgument wanted

/-- `EstimationKeep`, searchers.h:23-58. -/
structure Keep (α : Type) where
  metric : α
  weight : α
  mean : α
  variance : α
  endo : List ℕ
  exo : List ℕ
  extra : List ℕ
  deriving DecidableEq, Repr

/-- What the searchers have gathered: the results of `CombineBests`, `CombineAll`, `CombineInclusionWeights`,
`CombineCdfAt`, `CombineExtremeBounds`, `CombineMixture` for a metric, a target and, if any, the index of the variable
or item and of the point (modelset.cpp:163-290). -/
structure Gathered (α : Type) where
  hasWeight : Bool
  best : ℕ → ℕ → List (Keep α)
  all : ℕ → ℕ → List (Keep α)
  inclusion : ℕ → ℕ → ℕ → List α
  best1 : ℕ → ℕ → ℕ → List (Keep α)
  cdf : ℕ → ℕ → ℕ → ℕ → List α
  bounds : ℕ → ℕ → ℕ → List α
  mixture : ℕ → ℕ → ℕ → List α

/-- The element `value` of an item. -/
inductive Value (α : Type)
  | keep (metric weight : α) (endo exo : List String) (coefs : Option (α × α)) (extra : List ℕ)
  | table (rows cols : List String) (cells : List (List α))
  deriving DecidableEq, Repr

/-- The element `info` of an item. -/
inductive Info
  | index (j : ℕ)
  | number (x : Rat)
  | none
  deriving DecidableEq

/-- An item of the results. -/
structure Item (α : Type) where
  metric : String
  target : String
  type : String
  info : Info
  value : Value α
  deriving DecidableEq

/-- `extractElements`, r_ldt.cpp:441-448: `vec[i]` without a check. -/
def extractElements (vec : List String) (indices : List ℕ) (skip : ℕ) : Outcome (List String) :=
  indices.mapM fun i =>
    match vec[i + skip]? with
    | some x => .ok x
    | none => .ub

variable {α : Type}

/-- The loop of `add_CoefInfo`, r_ldt.cpp:459-507, from position `j`. -/
def addKeeps (eName tName type : String) (colNames : List String) (coefs hasWeight : Bool) :
    (j : ℕ) → List (Keep α) → Outcome (List (Item α))
  | _, [] => .ok []
  | j, b :: l => do
    let en ← extractElements colNames b.endo 0
    let ex ← extractElements colNames b.exo (if hasWeight then 1 else 0)
    let rest ← addKeeps eName tName type colNames coefs hasWeight (j + 1) l
    pure (⟨eName, tName, type, .index j,
      .keep b.metric b.weight en ex (if coefs then some (b.mean, b.variance) else none) b.extra⟩ :: rest)

/-- `as_matrix`, r_ldt.cpp:309-335: the names must be as many as the rows and columns, or none. -/
def asMatrix (cells : List (List α)) (rows cols : List String) (n m : ℕ) : Outcome (Value α) :=
  if rows ≠ [] ∧ rows.length ≠ n then .throws
  else if cols ≠ [] ∧ cols.length ≠ m then .throws
  else .ok (.table rows cols cells)

/-- A block `if (c) { ... }` that adds items. -/
def opt {β : Type} (c : Bool) (x : Outcome (List β)) : Outcome (List β) := if c then x else .ok []

/-- One item with a table. -/
def tableItem (eName tName type : String) (info : Info) (v : Outcome (Value α)) : Outcome (List (Item α)) :=
  match v with
  | .ok v => .ok [⟨eName, tName, type, info, v⟩]
  | .throws => .throws
  | .ub => .ub
  | .diverges => .diverges

/-- One iteration of the first loop of `add_Lengthi`, r_ldt.cpp:521-541; `at` throws if there is no name. -/
def bestItems (g : Gathered α) (e t : ℕ) (eName tName : String) (colNames length1Names : List String) (i : ℕ) :
    Outcome (List (Item α)) :=
  match length1Names[i]? with
  | none => .throws
  | some nm => addKeeps eName tName ("best item for '" ++ nm ++ "'") colNames true g.hasWeight 0 (g.best1 e t i)

/-- `add_Lengthi`, r_ldt.cpp:510-623. -/
def addLength (g : Gathered α) (items : Items) (e t : ℕ) (eName tName : String)
    (colNames length1Names : List String) : Outcome (List (Item α)) := do
  let b ← opt (decide (0 < items.bestK)) ((List.range items.length1).mapM (bestItems g e t eName tName colNames length1Names))
  let c ← (List.range items.cdfs.length).mapM fun k =>
    tableItem eName tName "cdf" (.number (items.cdfs.getD k 0))
      (asMatrix ((List.range items.length1).map fun i => g.cdf e t i k) length1Names
        ["Mean", "Count", "SumWeights"] items.length1 3)
  let x ← opt (decide (0 < items.multiplier)) (tableItem eName tName "extreme bound" (.number items.multiplier)
      (asMatrix ((List.range items.length1).map fun i => g.bounds e t i) length1Names
        ["Lower", "Upper"] items.length1 2))
  let m ← opt items.keepMixture (tableItem eName tName "mixture" .none
      (asMatrix ((List.range items.length1).map fun i => g.mixture e t i) length1Names
        ["Mean", "Variance", "Skewness", "Kurtosis", "Count", "SumWeights"] items.length1 6))
  pure (b.flatten ++ c.flatten ++ x ++ m)

/-- The body of the loops of `GetModelSetResults`, r_ldt.cpp:678-730; `covars` is
`LengthEndogenous + LengthExogenous`. -/
def block (g : Gathered α) (items : Items) (covars e t : ℕ) (eName tName : String)
    (colNames length1Names inclusionNames : List String) : Outcome (List (Item α)) := do
  let b ← opt (items.keepModel && decide (0 < items.bestK))
    (addKeeps eName tName "best model" colNames false g.hasWeight 0 (g.best e t))
  let a ← opt (items.keepModel && items.keepAll)
    (addKeeps eName tName "model" colNames false g.hasWeight 0 (g.all e t))
  let i ← opt (items.keepModel && items.keepInclusion) (tableItem eName tName "inclusion" .none
    (asMatrix ((List.range covars).map fun i => g.inclusion e t i) inclusionNames ["Mean", "Count"] covars 2))
  let q ← opt (decide (0 < items.length1)) (addLength g items e t eName tName colNames length1Names)
  if 0 < items.length2 then .throws else pure (b ++ a ++ i ++ q)

/-- `GetModelSetResults`, r_ldt.cpp:625-738, the second element of the list; `lengthTargets` and `lengthEvals` are the
fields of `SearchItems`.  The lists of summaries are not empty (there is a searcher). -/
def results (g : Gathered α) (items : Items) (covars lengthTargets lengthEvals : ℕ)
    (metricNames colNames targetNames length1Names inclusionNames : List String) : Outcome (List (Item α)) :=
  if targetNames.length ≠ lengthTargets then .throws
  else if metricNames.length ≠ lengthEvals then .throws
  else do
    let l ← (metricNames.zipIdx).mapM fun (eName, e) => do
      let l ← (targetNames.zipIdx).mapM fun (tName, t) =>
        block g items covars e t eName tName colNames length1Names inclusionNames
      pure l.flatten
    pure l.flatten

/-- The names in `SearchDc`: `colNames` are the names of the columns of the data: the endogenous variables, the weights
if there are any, the exogenous variables.  Names of the parameters (r_dc.cpp:33-39, 59-60), targets (r_dc.cpp:53-54)
and of the variables of the inclusion weights (r_dc.cpp:108-110); the weights are erased at position 1. -/
def dcNames (colNames : List String) (numEndo numTargets numChoices : ℕ) (hasWeight : Bool) :
    List String × List String × List String :=
  (colNames.drop (numEndo + (if hasWeight then 1 else 0)) ++
      (List.range (numChoices - 2)).map (fun i => "Threshold" ++ toString (i + 1)),
    colNames.take numTargets,
    if hasWeight then colNames.eraseIdx 1 else colNames)

/-- The first element of `GetModelSetResults`, r_ldt.cpp:639-656: the number of failures; and which line is printed at
the end (r_ldt.cpp:657-664): `some true`: all estimations failed, `some false`: some failed. -/
def counts (fails : List (String × ℕ)) (searched : ℕ) (printMsg : Bool) : ℕ × Option Bool :=
  let f := (fails.map (·.2)).sum
  (f, if 0 < f ∧ printMsg then some (decide (f = searched)) else none)

end Rs
end LDT
