import Verif.Model.RSearch
/-!
# What C141 says about a search that is called from R
-/
namespace LDT
namespace Rs

/-- Neither thread is forgotten: each has infinitely many events. -/
def Fair (σ : ℕ → Ev) : Prop :=
  (∀ t, ∃ u, t ≤ u ∧ σ u = .worker) ∧ ∀ t, ∃ u, t ≤ u ∧ ∃ b, σ u = .main b

/-- The user never interrupts. -/
def Calm (σ : ℕ → Ev) : Prop := ∀ t, σ t ≠ .main true

/-- The worker no longer uses the data, the searchers and the working memory. -/
def Quiet (s : St) : Prop := s.worker = .finished ∨ s.worker = .failed

/-- The call has come back to R, with `r`. -/
def Back (s : St) (r : Ret) : Prop := s.main = .left r

end Rs
end LDT
