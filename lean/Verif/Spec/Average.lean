import Verif.Spec.Distribution
/-! # What the averages over models mean -/
namespace LDT
namespace Srch

/-- The normal density with mean `m` and variance `v`. -/
noncomputable def bell (m v x : ℝ) : ℝ := Real.exp (-(x - m) ^ 2 / (2 * v)) / Real.sqrt (2 * Real.pi * v)

/-- A part of a mixture: weight, mean and variance. -/
structure Part where
  /-- weight -/
  w : ℝ
  /-- mean -/
  m : ℝ
  /-- variance -/
  v : ℝ

/-- The density of the weighted mixture of normal distributions. -/
noncomputable def mixed (ps : List Part) (x : ℝ) : ℝ :=
  (ps.map fun p => p.w * bell p.m p.v x).sum / (ps.map (·.w)).sum

/-- The average of some numbers. -/
noncomputable def average (l : List ℝ) : ℝ := l.sum / l.length

end Srch
end LDT
