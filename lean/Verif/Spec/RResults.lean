import Verif.Model.RResults
/-!
# What C142 says about the results that R gets

`vars` are the names of the variables: the endogenous ones, then the exogenous ones, without the weights.
-/
namespace LDT
namespace Rs
variable {α : Type}

/-- The names of the columns of the data of R: the weights, if any, are between the endogenous and the exogenous
variables. -/
def columns (endo exo : List String) (w : Option String) : List String := endo ++ w.toList ++ exo

/-- The indices of a result are those of endogenous and of exogenous variables. -/
def Keep.Valid (b : Keep α) (numEndo numVars : ℕ) : Prop :=
  (∀ i ∈ b.endo, i < numEndo) ∧ ∀ i ∈ b.exo, numEndo ≤ i ∧ i < numVars

/-- A result, with the names of its variables. -/
def tell (vars : List String) (coefs : Bool) (b : Keep α) : Value α :=
  .keep b.metric b.weight (b.endo.map fun i => vars.getD i "") (b.exo.map fun i => vars.getD i "")
    (if coefs then some (b.mean, b.variance) else none) b.extra

/-- The items for a list of results: in their order, numbered from 0. -/
def told (vars : List String) (m t type : String) (coefs : Bool) (l : List (Keep α)) : List (Item α) :=
  l.zipIdx.map fun x => ⟨m, t, type, .index x.2, tell vars coefs x.1⟩

/-- What is wanted for metric number `e`, named `m`, and target number `t`, named `tn`. -/
def wanted (g : Gathered α) (items : Items) (vars names1 : List String) (e t : ℕ) (m tn : String) : List (Item α) :=
  (if items.keepModel ∧ 0 < items.bestK then told vars m tn "best model" false (g.best e t) else []) ++
  (if items.keepModel ∧ items.keepAll then told vars m tn "model" false (g.all e t) else []) ++
  (if items.keepModel ∧ items.keepInclusion then
    [⟨m, tn, "inclusion", .none, .table vars ["Mean", "Count"] (vars.zipIdx.map fun x => g.inclusion e t x.2)⟩]
    else []) ++
  (if items.length1 = 0 then [] else
    (if 0 < items.bestK then
      names1.zipIdx.flatMap fun x => told vars m tn ("best item for '" ++ x.1 ++ "'") true (g.best1 e t x.2)
      else []) ++
    (items.cdfs.zipIdx.map fun x => ⟨m, tn, "cdf", .number x.1,
      .table names1 ["Mean", "Count", "SumWeights"] (names1.zipIdx.map fun y => g.cdf e t y.2 x.2)⟩) ++
    (if 0 < items.multiplier then
      [⟨m, tn, "extreme bound", .number items.multiplier,
        .table names1 ["Lower", "Upper"] (names1.zipIdx.map fun y => g.bounds e t y.2)⟩] else []) ++
    (if items.keepMixture then
      [⟨m, tn, "mixture", .none, .table names1 ["Mean", "Variance", "Skewness", "Kurtosis", "Count", "SumWeights"]
        (names1.zipIdx.map fun y => g.mixture e t y.2)⟩] else []))

/-- The request and the gathered results fit: there is a name for each of the items of the first kind if there are any, none of the
second kind are wanted, and the results are about variables of the data. -/
structure Fits (g : Gathered α) (items : Items) (endo exo names1 : List String) : Prop where
  length1 : 0 < items.length1 → names1.length = items.length1
  length2 : items.length2 = 0
  best : ∀ e t, ∀ b ∈ g.best e t, b.Valid endo.length (endo ++ exo).length
  all : ∀ e t, ∀ b ∈ g.all e t, b.Valid endo.length (endo ++ exo).length
  best1 : ∀ e t i, ∀ b ∈ g.best1 e t i, b.Valid endo.length (endo ++ exo).length

end Rs
end LDT
