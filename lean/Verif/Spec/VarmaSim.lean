import Verif.Model.VarmaSim
import Verif.Spec.SurSim
/-!
# Specification: scores of forecasts
-/
namespace LDT
namespace Vs
open Op Score
open Su (backD sqrtD lambda)

/-- A forecast that is compared: the last observation before it was made, the actual value, the forecast and its standard deviation. -/
structure Comparison where
  last : ℝ
  actual : ℝ
  forecast : ℝ
  std : ℝ

/-- The scores that are there. -/
def Implemented (e : Sco) : Prop := e ∈ [Sco.direction, .sign, .mae, .mape, .rmse, .rmspe, .crps]

/-- The actual value and the forecast are on the same side of the last observation. -/
def SameDirection (x : Comparison) : Prop :=
  (x.last < x.actual ∧ x.last < x.forecast) ∨ (x.actual < x.last ∧ x.forecast < x.last) ∨ (x.actual = x.last ∧ x.forecast = x.last)

open Classical in
/-- The loss of one forecast; `c error σ` is the continuous ranked probability score. -/
noncomputable def loss (c : ℝ → ℝ → ℝ) : Sco → Comparison → ℝ
  | .direction, x => if SameDirection x then 1 else 0
  | .sign, x => if x.actual * x.forecast = 0 then 1 / 2 else if 0 < x.actual * x.forecast then 1 else 0
  | .mae, x => |x.actual - x.forecast|
  | .mape, x => |(x.actual - x.forecast) / x.actual|
  | .rmse, x => (x.actual - x.forecast) ^ 2
  | .rmspe, x => ((x.actual - x.forecast) / x.actual) ^ 2
  | .crps, x => c (x.actual - x.forecast) x.std
  | _, _ => 0

/-- The average. -/
noncomputable def mean (l : List ℝ) : ℝ := l.sum / l.length

/-- The value of variable `j` in period `t` of a table. -/
def at_ (d : Cols) (t : ℤ) (j : ℕ) : Dbl ℝ := (d[t.toNat]?.map fun v => v j).getD .nan

/-- What is compared, before it is known that it consists of numbers. -/
structure Point where
  last : Dbl ℝ
  actual : Dbl ℝ
  forecast : Dbl ℝ
  std : Dbl ℝ

/-- It consists of these numbers (the standard deviation too, if it is wanted). -/
def Point.Is (x : Point) (deviation : Prop) (c : Comparison) : Prop :=
  x.last = .num c.last ∧ x.actual = .num c.actual ∧ x.forecast = .num c.forecast ∧ (deviation → x.std = .num c.std)

/-- A simulation is made without the last `se` periods before (and with) the last one, `final`. Its forecast `h` periods ahead of the others is compared with
the observation of that period. -/
noncomputable def point (u : Setup) (data : Cols) (final : ℤ) (j : ℕ) (s : ℤ × Fit) (h : ℤ) : Point :=
  let back := backD (lambda u.lambdas j)
  ⟨back (at_ data (final - s.1) j), back (at_ data (final - s.1 + h) j), back (at_ s.2.forecast (s.2.start - 1 + h) j),
    back (sqrtD (at_ s.2.variance (s.2.start - 1 + h) j))⟩

/-- The horizons for which the periods left out are enough. -/
def within (u : Setup) (se : ℤ) : List ℤ := u.horizons.filter fun h => h ≤ se

/-- All that is compared for variable `j` in some simulations. -/
noncomputable def points (u : Setup) (data : Cols) (final : ℤ) (j : ℕ) (g : List (ℤ × Fit)) : List Point :=
  g.flatMap fun s => (within u s.1).map (point u data final j s)

/-- Horizons: at least one, in ascending order. -/
def Ascending (u : Setup) : Prop := u.horizons ≠ [] ∧ u.horizons.Pairwise (· < ·)

/-- The simulations leaving out `n`, `n - 1`, … periods, as far as the first horizon allows: those that succeed, and the messages of those that do not. Each
starts from what the one before left, and from its estimates if that is wanted and one has succeeded. -/
inductive Ran (u : Setup) {σ : Type} (fit : Estimator σ) : ℕ → σ → Bool → List (ℤ × Fit) → List String → Prop
  | stop {n : ℕ} {q b} : n = 0 ∨ (n : ℤ) < u.hMin → Ran u fit n q b [] []
  | failed {n : ℕ} {q q' b m g f} : u.hMin ≤ n + 1 → fit q (n + 1) (min (n + 1) u.hMax) (u.usePrevious && b) = (q', .failed m) → Ran u fit n q' b g f →
      Ran u fit (n + 1) q b g (m :: f)
  | done {n : ℕ} {q q' b p g f} : u.hMin ≤ n + 1 → fit q (n + 1) (min (n + 1) u.hMax) (u.usePrevious && b) = (q', .done p) → Ran u fit n q' true g f →
      Ran u fit (n + 1) q b ((((n + 1 : ℕ) : ℤ), p) :: g) f

end Vs
end LDT
