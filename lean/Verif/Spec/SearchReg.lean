import Verif.Model.SearchReg
/-!
# What a search over regression models is meant to keep

Independent of how the loops and the state of the searcher work.
-/
namespace LDT
namespace Srch
open Arr Score

/-- The endogenous variables of the model with the selected variables `cur`. -/
def endoOf (c : RegCfg) (cur : List Int) : List Int := if c.innerExo then cur else c.inner

/-- The exogenous variables. -/
def exoOf (c : RegCfg) (cur : List Int) : List Int := if c.innerExo then c.inner else cur

/-- The columns of the data: endogenous variables, the weight (which is the column after all endogenous variables) if there is one, and
the exogenous variables, which are behind the weight. -/
def tableColumns (c : RegCfg) (cur : List Int) : List Int :=
  if c.hasWeight then endoOf c cur ++ [(c.numEndo : Int)] ++ (exoOf c cur).map (· + 1) else endoOf c cur ++ exoOf c cur

/-- The targets: the endogenous variables among the first `lengthTargets`. -/
def wanted (c : RegCfg) (cur : List Int) : List Int := (endoOf c cur).filter fun a => decide (a < (c.lengthTargets : Int))

/-- The model was estimated: it has a target, the estimation succeeded and nobody cancelled. -/
def Estimated (c : RegCfg) (cur : List Int) (o : RegOut) : Prop :=
  wanted c cur ≠ [] ∧ o.cancelBefore = false ∧ o.reply = .returns "" ∧ o.cancelAfter = false

/-- The smallest metric given for target `t`, 0 if none is given. -/
noncomputable def leastOf (l : Option (List ℝ)) (t : Nat) : ℝ := match l with
  | some l => l.getD t 0
  | none => 0

/-- The weight of metric `i` with value `q` for target `t`. -/
noncomputable def regWeight (c : RegCfg) (i t : Nat) (q : ℝ) : ℝ :=
  if h : i < c.metricsIn.length then gofToWeight c.metricsIn[i] q (leastOf (c.minIn c.metricsIn[i]) t)
  else if h' : i - c.metricsIn.length < c.metricsOut.length then
    scoToWeight c.metricsOut[i - c.metricsIn.length] q (leastOf (c.minOut c.metricsOut[i - c.metricsIn.length]) t)
  else 0

/-- What is kept of a model for metric `i` and target `t`. -/
noncomputable def modelKept (c : RegCfg) (i t : Nat) (r : List Int × RegOut) : List Est :=
  (List.range (wanted c r.1).length).flatMap fun j =>
    if (wanted c r.1)[j]? = some (t : Int) then
      match r.2.metric i j with
      | some q => [⟨q, regWeight c i t q, none, none, endoOf c r.1, exoOf c r.1, r.2.extra⟩]
      | none => []
    else []

/-- What is kept of coefficient `k` for metric `i` and target `t`. -/
noncomputable def coefKept (c : RegCfg) (i t k : Nat) (r : List Int × RegOut) : List Est :=
  (List.range (wanted c r.1).length).flatMap fun j =>
    if (wanted c r.1)[j]? = some (t : Int) then
      match r.2.metric i j, r.2.mean k j with
      | some q, some m => [⟨q, regWeight c i t q, some m, r.2.variance k j, endoOf c r.1, exoOf c r.1, r.2.extra⟩]
      | _, _ => []
    else []

/-- The calls of the estimator: each with the selected variables and its answer for the columns and targets of the model. -/
def answers (c : RegCfg) (est : List Visit → List Int → List Int → RegOut) : (done calls : List Visit) → List (List Int × RegOut)
  | _, [] => []
  | done, v :: vs => (v.cur, est done (tableColumns c v.cur) (wanted c v.cur)) :: answers c est (done ++ [v]) vs

open Classical in
/-- The answers for the models that were estimated. -/
noncomputable def estimated (c : RegCfg) (l : List (List Int × RegOut)) : List (List Int × RegOut) :=
  l.filter fun r => Estimated c r.1 r.2

/-- The options fit together: one orientation for each metric, smallest metrics for all targets, variables of the data. -/
structure Ready (c : RegCfg) : Prop where
  /-- one evaluation for each metric -/
  evals : c.lengthEvals = c.metricsIn.length + c.metricsOut.length
  /-- smallest metrics -/
  minIn : ∀ g l, c.minIn g = some l → c.lengthTargets ≤ l.length
  /-- smallest metrics -/
  minOut : ∀ g l, c.minOut g = some l → c.lengthTargets ≤ l.length
  /-- variables of the data -/
  inner : ∀ a ∈ c.inner, 0 ≤ a ∧ a < (c.numEndo + c.numExo : Nat)

/-- A call selects `n` variables of the data. -/
def Selects (c : RegCfg) (v : Visit) : Prop := v.cur.length = c.n ∧ ∀ a ∈ v.cur, 0 ≤ a ∧ a < (c.numEndo + c.numExo : Nat)

end Srch
end LDT
