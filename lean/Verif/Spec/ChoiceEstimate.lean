import Verif.Spec.Choice
import Verif.Model.ChoiceEstimate
/-! # What an estimated model of discrete choice is -/
namespace LDT
namespace Dc
open Filter Topology

/-- `H` is the matrix of the second derivatives of minus the log-likelihood at `β`: it is symmetric, and along every line through `β`
the second derivative is its quadratic form. -/
def Information (G : ℝ → ℝ) (n J k0 : ℕ) (w : ℕ → ℝ) (c : ℕ → ℕ) (x : ℕ → ℕ → ℝ) (β : ℕ → ℝ) {k : ℕ} (H : Matrix (Fin k) (Fin k) ℝ) : Prop :=
  (∀ a b, H a b = H b a) ∧
    ∀ d : ℕ → ℝ, ∃ φ' : ℝ → ℝ, (∀ᶠ t in 𝓝 0, HasDerivAt (fun t => -logLik G n J k0 w c x fun l => β l + t * d l) (φ' t) t) ∧
      HasDerivAt φ' (∑ a : Fin k, ∑ b : Fin k, d a * H a b * d b) 0

/-- The sum of the weights of the observations with choice `j`. -/
def total (n : ℕ) (w : ℕ → ℝ) (c : ℕ → ℕ) (j : ℕ) : ℝ := ∑ i ∈ (Finset.range n).filter (fun i => c i = j), w i

/-- `b` has the least weighted sum of squared residuals, and nothing else has. -/
def WeightedBest (n k0 : ℕ) (v y : ℕ → ℝ) (x : ℕ → ℕ → ℝ) (b : ℕ → ℝ) : Prop :=
  ∀ b' : ℕ → ℝ, ∑ i ∈ Finset.range n, v i * (y i - index k0 x b i) ^ 2 ≤ ∑ i ∈ Finset.range n, v i * (y i - index k0 x b' i) ^ 2 ∧
    (∑ i ∈ Finset.range n, v i * (y i - index k0 x b' i) ^ 2 ≤ ∑ i ∈ Finset.range n, v i * (y i - index k0 x b i) ^ 2 →
      ∀ l < k0, b' l = b l)

/-- Where the first regressor is 1 and the others are 0, the probabilities of the choices are their shares in the sample. -/
def Shares (G : ℝ → ℝ) (n J k0 : ℕ) (w : ℕ → ℝ) (c : ℕ → ℕ) (β : ℕ → ℝ) : Prop :=
  ∀ j ≤ J, chance G J k0 β (β 0) j = total n w c j / ∑ i ∈ Finset.range n, w i

/-- `p` is the probability that a standard normal variable is further from zero than `z`. -/
def TwoSided (z p : ℝ) : Prop := p = gaussian (-|z|) + (1 - gaussian |z|)

end Dc
end LDT
