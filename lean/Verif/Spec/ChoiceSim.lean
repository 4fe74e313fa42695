import Verif.Spec.ChoiceEstimate
/-! # Scores of probabilities -/
namespace LDT
namespace Dc

/-- The weighted mean of the squared differences of `y` and the probabilities `p`. -/
noncomputable def Brier (n : ℕ) (w y p : ℕ → ℝ) : ℝ := (∑ i ∈ Finset.range n, w i * (y i - p i) ^ 2) / ∑ i ∈ Finset.range n, w i

/-- Row `j` of the table of ten rows is for the probabilities from `j / 10` to `(j + 1) / 10`, the last one also for 1 (and what lies above it by less
than 1/10). -/
def InRow (j : ℕ) (p : ℝ) : Prop := (j : ℝ) / 10 ≤ p ∧ (p < (j + 1) / 10 ∨ j = 9 ∧ p < 11 / 10)

end Dc
end LDT
