import Verif.Model.VarmaSearcher
import Verif.Spec.ChoiceSearch
import Verif.Props.DatasetTs
import Verif.Spec.VarmaSim
import Verif.Lemmas.SurSim
/-! # Specification: one VARMA model of a search -/
namespace LDT
namespace Vm
open Op Mx Arr Score

/-- The period `S` is the latest of the first observations of the series `sel` (rows of the data), `E` is the earliest of their last observations. -/
structure CommonWindow (m : Mat (Val ℝ)) (sel : List ℤ) (S E : ℤ) : Prop where
  first : ∃ k ∈ sel, ObsT true m k S ∧ ∀ t, 0 ≤ t → t < S → ¬ ObsT true m k t
  others_first : ∀ k ∈ sel, ∃ t ≤ S, ObsT true m k t
  last : ∃ k ∈ sel, ObsT true m k E ∧ ∀ t, E < t → t < m.cols → ¬ ObsT true m k t
  others_last : ∀ k ∈ sel, ∃ t, E ≤ t ∧ ObsT true m k t

/-- The data of a model: the endogenous series `cur` in the window, the exogenous series `inner` from its first period until the end of the data. -/
structure Sampled (m : Mat (Val ℝ)) (inner cur : List ℤ) (S E : ℤ) (s : Sample) : Prop where
  y_shape : s.y.rows = cur.length ∧ s.y.cols = E - S + 1
  y : ∀ (a : ℕ) (k t : ℤ), cur[a]? = some k → 0 ≤ t → t ≤ E - S → s.y.get a t = m.get k (S + t)
  noExo : inner = [] → s.x = none
  x : inner ≠ [] → ∃ x, s.x = some x ∧ x.rows = inner.length ∧ x.cols = m.cols - S ∧
    ∀ (a : ℕ) (k t : ℤ), inner[a]? = some k → 0 ≤ t → t < m.cols - S → x.get a t = m.get k (S + t)

/-- The data set holds the table `m`, a series in each row. -/
structure Loaded (m : Mat (Val ℝ)) (d : DsTs ℝ) : Prop where
  wf : m.Wf
  periods : 0 < m.cols
  few : m.cols ≤ intMax
  made : ∃ R C d0, m.rows ≤ R ∧ m.cols ≤ C ∧ DsTs.make R C true true = .ok d0 ∧ d0.setData true m = .ok d

/-- The series of a model are in the data: `cols` lists the endogenous series `cur` and the exogenous series `inner`. -/
structure Chosen (m : Mat (Val ℝ)) (inner cur cols : List ℤ) : Prop where
  endo : cur ≠ []
  mem : ∀ k, k ∈ cols ↔ k ∈ cur ∨ k ∈ inner
  data : ∀ k ∈ cols, 0 ≤ k ∧ k < m.rows
  count : (cols.length : ℤ) ≤ m.rows

/-- A value is not beyond a limit (nothing is beyond a limit if one of them is not a number). -/
def NotBeyond (x l : Dbl ℝ) : Prop := ∀ a b, x = .num a → l = .num b → a ≤ b

/-- There are enough observations and degrees of freedom. -/
def Enough (u : Setup) (s : Sample) : Prop :=
  (0 < u.checks.minObs → u.checks.minObs ≤ s.y.cols) ∧ (0 < u.checks.minDof → u.checks.minDof ≤ s.y.cols - s.exo)

/-- The forecasts of the targets among the endogenous variables `cur`, at each horizon, can be compared with bounds. -/
def Readable (u : Setup) (lower upper : Mat (Dbl ℝ)) (f : Vs.Cols) (cur : List ℤ) : Prop :=
  ∀ (i : ℕ) (t : ℤ), cur[i]? = some t → t < (u.targets : ℤ) → ∀ h ∈ u.metrics.horizons,
    (∃ c, Mx.read f (h + u.sizes.arMaxD - 1) = .ok c) ∧ (∃ l, lower.get0 (h - 1) t = .ok l) ∧ ∃ r, upper.get0 (h - 1) t = .ok r

/-- They are within the bounds: row `h - 1` of the bounds, in the column of the target. -/
def InBounds (u : Setup) (lower upper : Mat (Dbl ℝ)) (f : Vs.Cols) (cur : List ℤ) : Prop :=
  ∀ (i : ℕ) (t : ℤ), cur[i]? = some t → t < (u.targets : ℤ) → ∀ h ∈ u.metrics.horizons, ∀ c l r,
    Mx.read f (h + u.sizes.arMaxD - 1) = .ok c → lower.get0 (h - 1) t = .ok l → upper.get0 (h - 1) t = .ok r → (c i).lt l = false ∧ r.lt (c i) = false

/-- What the tables report about the model with the data `s`. -/
structure Reported {σ : Type} (u : Setup) (o : Oracle σ) (s : Sample) (cur : List ℤ) (T : ℕ) (t : Tables) : Prop where
  estimation : u.checks.estimation = true → Enough u s ∧ ∃ e, o.estimate (limit u.checks.checkCNAll u) s.y s.x = .ok e ∧
    NotBeyond e.aic u.checks.maxAic ∧ NotBeyond e.sic u.checks.maxSic ∧
    (∀ i : ℕ, u.metrics.indexIn .aic = some (i : ℤ) → ∀ j < T, t.cells.metric i j = Srch.toVal e.aic) ∧
    ∀ i : ℕ, u.metrics.indexIn .sic = some (i : ℤ) → ∀ j < T, t.cells.metric i j = Srch.toVal e.sic
  forecast : u.checks.estimation = true → u.checks.prediction = true → ∃ f v, o.forecast s.y s.x = .ok (f, v) ∧
    (∀ c ∈ f, ∀ i < cur.length, c i ≠ .nan) ∧
    (∀ l r, u.lower = some l → u.upper = some r → Readable u l r f cur ∧ InBounds u l r f cur) ∧
    ∀ i < u.length1, ∀ j < T, ∃ m w, f[(i + u.sizes.arMaxD).toNat]? = some m ∧ v[(i + u.sizes.arMaxD).toNat]? = some w ∧
      t.cells.mean i j = Srch.toVal (m j) ∧ t.cells.variance i j = Srch.toVal (w j)
  scores : 0 < u.metrics.simFix → u.metrics.metricsOut ≠ [] → ∃ r, simulated u o s = .ok r ∧ 0 < r.valid ∧
    ∀ e, Vs.Implemented e → ∀ i : ℕ, u.metrics.indexOut e = some (i : ℤ) → ∀ j < T,
      ∃ x, Su.cell r.results i j = some x ∧ t.cells.metric (u.metrics.metricsIn.length + i) j = Srch.toVal x
  noForecast : ∀ i j : ℕ, u.length1 ≤ i ∨ T ≤ j ∨ u.forecasts = false → t.cells.mean i j = none
  extra : t.extra = u.params

/-- Why a model with the data `s` is refused. -/
inductive Refused {σ : Type} (u : Setup) (o : Oracle σ) (s : Sample) (cur : List ℤ) : Prop
  | few (h : u.checks.estimation = true) (h1 : ¬ Enough u s)
  | estimation (h : u.checks.estimation = true) (h1 : o.estimate (limit u.checks.checkCNAll u) s.y s.x = .throws)
  | criterion (h : u.checks.estimation = true) {e : Fitted} (h1 : o.estimate (limit u.checks.checkCNAll u) s.y s.x = .ok e)
      (h2 : u.checks.maxAic.lt e.aic = true ∨ u.checks.maxSic.lt e.sic = true)
  | forecast (h : u.checks.estimation = true) (h1 : u.checks.prediction = true) {e : Fitted} (h2 : o.estimate (limit u.checks.checkCNAll u) s.y s.x = .ok e)
      (h3 : o.forecast s.y s.x = .throws)
  | nan (h : u.checks.estimation = true) (h1 : u.checks.prediction = true) {e : Fitted} (h2 : o.estimate (limit u.checks.checkCNAll u) s.y s.x = .ok e)
      {f v : Vs.Cols} (h3 : o.forecast s.y s.x = .ok (f, v)) {c : ℕ → Dbl ℝ} (h4 : c ∈ f) {i : ℕ} (h5 : i < cur.length) (h6 : c i = .nan)
  | bounds (h : u.checks.estimation = true) (h1 : u.checks.prediction = true) {e : Fitted} (h2 : o.estimate (limit u.checks.checkCNAll u) s.y s.x = .ok e)
      {f v : Vs.Cols} (h3 : o.forecast s.y s.x = .ok (f, v)) {l r : Mat (Dbl ℝ)} (h4 : u.lower = some l) (h5 : u.upper = some r)
      (h6 : Readable u l r f cur) (h7 : ¬ InBounds u l r f cur)

/-- Sizes of a model with `n` endogenous and `k` exogenous variables whose data are not too short. -/
structure Planned (z : Varma.Sizes) (n k : ℕ) : Prop where
  eqs : z.eqsCount = n
  exo : z.exoCount = k
  lags : 0 ≤ z.arMax
  diff : z.diffPoly ≠ []
  long : 0 ≤ z.T

end Vm
end LDT
