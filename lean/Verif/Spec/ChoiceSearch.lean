import Verif.Model.ChoiceSearch
import Verif.Spec.SearchOptions
import Verif.Spec.ChoiceSim
import Verif.Props.Dataset
/-! # What a search over discrete choice models is meant to report -/
namespace LDT
namespace Dc
open Op Di Mx Arr Score

/-- The columns of a sample: the dependent variable, the weights (if there are any), the regressors. -/
def front (hasWeight : Bool) : ℕ := if hasWeight then 2 else 1

/-- `D` has the cells of the rows `kept` and the columns `cols` of the data. -/
def SampleOf (hasWeight : Bool) (source : Mat (Val ℝ)) (cols kept : List ℤ) (D : Data) : Prop :=
  D.n = kept.length ∧ D.k0 = cols.length - front hasWeight ∧ (D.w = none ↔ hasWeight = false) ∧
    ∀ (i : ℕ) (row : ℤ), kept[i]? = some row →
      (∀ c, cols[0]? = some c → source.get row c = .ok (some (D.y i))) ∧
      (hasWeight = true → ∀ c, cols[1]? = some c → source.get row c = .ok (some (D.wt i))) ∧
      ∀ j < D.k0, ∀ c, cols[j + front hasWeight]? = some c → source.get row c = .ok (some (D.x i j))

/-- The weights of the scores. -/
noncomputable def scoreWeight (u : DcSetup) (D : Data) (i : ℕ) : ℝ := if u.hasWeight = true ∧ u.weightedEval = true then D.wt i else 1

/-- The tables of the positions are those of the chosen metrics (`C120_positions_partial`). -/
def Indexed (m : SOpt.Metrics ℝ) : Prop :=
  (∀ g, ∃ i, m.indexIn g = some i ∧ SOpt.Position m.metricsIn g i) ∧ (∀ g, ∃ i, m.indexOut g = some i ∧ SOpt.Position m.metricsOut g i)

/-- The limits that are in force. -/
structure Within (u : DcSetup) {k : ℕ} (n : ℕ) (e : Est k) : Prop where
  obs : 0 < u.checks.minObs → u.checks.minObs ≤ n
  dof : 0 < u.checks.minDof → u.checks.minDof ≤ (n : ℤ) - k
  condition : u.checks.checkCNAll = true → ∀ c l, e.condition = some c → u.checks.maxCondition = .num l → c ≤ l
  aic : ∀ a l, e.aic = .num a → u.checks.maxAic = .num l → a ≤ l
  sic : ∀ a l, e.sic = .num a → u.checks.maxSic = .num l → a ≤ l

/-- The numbers of choices the two forms are made for. -/
def DcSetup.Proper (u : DcSetup) : Prop := (u.form = .binary → u.numChoices = 2) ∧ (u.form = .ordered → 3 ≤ u.numChoices)

/-- The probability of choice `j` for row `i` of the sample in the estimated model. -/
noncomputable def fitted (u : DcSetup) (D : Data) {k : ℕ} (e : Est k) (i j : ℕ) : ℝ :=
  chance u.law.cdf u.cuts D.k0 (ext e.beta) (index D.k0 D.x (ext e.beta) i) j

/-- `e` is the model of the columns `cols`: estimated for the cells of the rows `kept`, those without a missing cell, and within the limits. -/
structure ModelOf (S : Fns) (u : DcSetup) (E : ∀ k, Env k) (source : Mat (Val ℝ)) (cols kept : List ℤ) (D : Data) (e : Est (kOf u.form u.cuts D)) : Prop where
  rows : CompleteRows Option.isNone source cols kept
  sample : SampleOf u.hasWeight source cols kept D
  fit : estimate S u.law u.form u.cuts D E false true (fun _ => none) = .ok e
  within : Within u D.n e

end Dc
end LDT
