import Verif.Model.Scoring
import Verif.Props.Summary
import Mathlib.Tactic.Linarith
import Mathlib.Tactic.NormNum
import Mathlib.Tactic.Ring
/-!
# C25, C26 (and C21 with the code's own weights)
-/
namespace LDT
namespace Score
open Srch (Keep Better heavier combineBests pushBest keepBefore IsTopK inScope)

/-- What "better" means to a user, per metric, independently of the code's orientation flag: area under the curve is
better when larger, everything else (information criteria, Brier score, cost) when smaller. -/
def GofBetter : Gof → ℝ → ℝ → Prop
  | .auc, a, b => b < a
  | _, a, b => a < b

/-- Direction, sign and area are success rates (larger is better); the rest are errors or costs. -/
def ScoBetter : Sco → ℝ → ℝ → Prop
  | .direction, a, b => b < a
  | .sign, a, b => b < a
  | .auc, a, b => b < a
  | _, a, b => a < b

/-- **C25**: a better value of an in-sample metric has strictly larger weight, and conversely. -/
theorem C25_gof_monotone (t : Gof) (m a b : ℝ) :
    GofBetter t a b ↔ gofToWeight t b m < gofToWeight t a m := by
  cases t <;> simp only [GofBetter, gofToWeight, Real.exp_lt_exp] <;>
    constructor <;> intro h <;> (try norm_num at h ⊢) <;> linarith

/-- **C25**: a better value of an out-of-sample metric has strictly larger weight, and conversely. -/
theorem C25_sco_monotone (t : Sco) (m a b : ℝ) :
    ScoBetter t a b ↔ scoToWeight t b m < scoToWeight t a m := by
  cases t <;> simp only [ScoBetter, scoToWeight, Real.exp_lt_exp] <;>
    constructor <;> intro h <;> (try norm_num at h ⊢) <;> linarith

/-- **C25**: the weight determines the metric: converting back returns the metric. -/
theorem C25_gof_roundtrip (t : Gof) (m x : ℝ) : gofFromWeight t (gofToWeight t x m) m = x := by
  cases t <;> simp only [gofFromWeight, gofToWeight, Real.log_exp] <;> (try norm_num) <;> ring

/-- **C25**: out-of-sample metrics. -/
theorem C25_sco_roundtrip (t : Sco) (m x : ℝ) : scoFromWeight t (scoToWeight t x m) m = x := by
  cases t <;> simp only [scoFromWeight, scoToWeight, Real.log_exp] <;> (try norm_num) <;> ring

/-- **C25**: the orientation flag used for sorting agrees with the meaning of the metric. -/
theorem C25_gof_orientation (t : Gof) (a b : ℝ) :
    GofBetter t a b ↔ if gofPositive t then b < a else a < b := by
  cases t <;> simp [GofBetter, gofPositive]

/-- **C25**: out-of-sample metrics. -/
theorem C25_sco_orientation (t : Sco) (a b : ℝ) :
    ScoBetter t a b ↔ if scoPositive t then b < a else a < b := by
  cases t <;> simp [ScoBetter, scoPositive]

/-- Converting an admissible weight to a metric and back returns the weight (for the exponential metrics only
positive weights occur). -/
theorem C25_gof_weight_roundtrip (t : Gof) (m w : ℝ) (hw : 0 < w) :
    gofToWeight t (gofFromWeight t w m) m = w := by
  have e : (-0.5 : ℝ) * (-2.0 * Real.log w + m - m) = Real.log w := by norm_num; ring
  cases t <;> simp only [gofFromWeight, gofToWeight] <;> (try rw [e, Real.exp_log hw]) <;> ring

/-- Out-of-sample metrics. -/
theorem C25_sco_weight_roundtrip (t : Sco) (m w : ℝ) (hw : 0 < w) :
    scoToWeight t (scoFromWeight t w m) m = w := by
  have e : (-0.5 : ℝ) * (-2 * Real.log w + m - m) = Real.log w := by ring
  have e' : (-0.5 : ℝ) * (-2 * Real.log w * 100 + m - m) / 100 = Real.log w := by
    ring
  cases t <;> simp only [scoFromWeight, scoToWeight] <;>
    (first | rw [e, Real.exp_log hw] | rw [e', Real.exp_log hw] | ring)

/-- The weights of the exponential metrics are positive: the hypothesis above is met. -/
example (m x : ℝ) : 0 < gofToWeight .aic x m := Real.exp_pos _

/-- **C26**: in-sample metric names. -/
theorem C26_gof_names (t : Gof) : gofOfName (gofName t) = .ok t := by
  cases t <;> decide +kernel

/-- **C26** (partial): out-of-sample metric names, except the root mean squared percentage error. -/
theorem C26_sco_names_partial (t : Sco) (h : t ≠ .rmspe) : scoOfName (scoName t) = .ok t := by
  cases t <;> first | decide +kernel | exact absurd rfl h

/-- C26 fails for "rmspe": it is read as the root mean squared error. -/
theorem C26_violated_rmspe : scoName .rmspe = "rmspe".toList ∧ scoOfName "rmspe".toList = .ok .rmse := by
  decide +kernel

/-- No text at all is read as the percentage error. -/
theorem C26_violated_rmspe_unreachable (v : Text.Str) : scoOfName v ≠ .ok .rmspe := by
  intro h
  unfold scoOfName at h
  by_cases h4 : startsWith "rms".toList v = true
  · rw [if_pos h4] at h
    split_ifs at h <;> simp at h
  · have h5 : startsWith "rmsp".toList v = false := by
      rw [Bool.eq_false_iff]
      intro h5
      apply h4
      unfold startsWith at h5 ⊢
      rw [List.isPrefixOf_iff_prefix] at h5 ⊢
      exact List.IsPrefix.trans (by decide) h5
    rw [h5] at h
    split_ifs at h <;> simp_all

theorem only_throws {α : Type} (o : Outcome α) (h1 : ∀ t, o ≠ .ok t) (h2 : o ≠ .ub) (h3 : o ≠ .diverges) :
    o = .throws := by
  cases o with
  | ok t => exact absurd rfl (h1 t)
  | throws => rfl
  | ub => exact absurd rfl h2
  | diverges => exact absurd rfl h3

/-- **C26**: a text read as a metric begins like the name of that metric; every other text is rejected. -/
theorem C26_names_rejected (v : Text.Str) :
    (∀ t, gofOfName v = .ok t → v.take 3 = (gofName t).take 3) ∧
    (∀ t, scoOfName v = .ok t → v.take 3 = (scoName t).take 3) ∧
    ((∀ t, v.take 3 ≠ (gofName t).take 3) → gofOfName v = .throws) ∧
    ((∀ t, v.take 3 ≠ (scoName t).take 3) → scoOfName v = .throws) := by
  have key : ∀ p : Text.Str, startsWith p v = true → 3 ≤ p.length → v.take 3 = p.take 3 := by
    intro p h hp
    unfold startsWith at h
    rw [List.isPrefixOf_iff_prefix] at h
    obtain ⟨r, rfl⟩ := h
    rw [List.take_append_of_le_length hp]
  have h1 : ∀ t, gofOfName v = .ok t → v.take 3 = (gofName t).take 3 := by
    intro t h
    unfold gofOfName at h
    split_ifs at h with h1 h2 h3 h4 h5 <;> simp only [Outcome.ok.injEq, reduceCtorEq] at h <;> subst h <;>
      (rw [key _ (by assumption) (by decide)]; decide)
  have h2 : ∀ t, scoOfName v = .ok t → v.take 3 = (scoName t).take 3 := by
    intro t h
    unfold scoOfName at h
    split_ifs at h with h1 h2 h3 h4 h5 h6 h7 h8 h9 h10 <;> simp only [Outcome.ok.injEq, reduceCtorEq] at h <;> subst h <;>
      (rw [key _ (by assumption) (by decide)]; decide)
  refine ⟨h1, h2, fun h => ?_, fun h => ?_⟩
  · have : ∀ t, gofOfName v ≠ .ok t := fun t e => h t (h1 t e)
    have hx : gofOfName v ≠ .ub ∧ gofOfName v ≠ .diverges := by
      unfold gofOfName; constructor <;> (intro hh; split_ifs at hh)
    exact only_throws _ this hx.1 hx.2
  · have : ∀ t, scoOfName v ≠ .ok t := fun t e => h t (h2 t e)
    have hx : scoOfName v ≠ .ub ∧ scoOfName v ≠ .diverges := by
      have step : ∀ (b : Prop) [Decidable b] (x : Sco) (e : Outcome Sco), (e ≠ .ub ∧ e ≠ .diverges) →
          ((if b then .ok x else e) ≠ .ub ∧ (if b then .ok x else e) ≠ .diverges) := by
        intro b _ x e he; split_ifs
        · constructor <;> (intro hh; cases hh)
        · exact he
      unfold scoOfName
      iterate 10 refine step _ _ _ ?_
      constructor <;> (intro hh; cases hh)
    exact only_throws _ this hx.1 hx.2

/-- Distinct metrics have distinct names. -/
theorem C26_names_injective : (∀ s t : Gof, gofName s = gofName t → s = t) ∧
    (∀ s t : Sco, scoName s = scoName t → s = t) := by
  constructor <;> intro s t <;> cases s <;> cases t <;> decide +kernel

/-! ## C21 with the weights the code computes (searcher_reg.cpp:124-139) -/

/-- **C21**, in-sample metrics: each summary belongs to one metric and one target, so that all weights in it come
from the same metric type and the same minimum.  Then combining the best lists gives the `k` best of all models, for
every distribution of models over searchers. -/
theorem C21_combine_gof (t : Gof) (minMetric : ℝ) (k : Nat) (hk : 0 < k)
    (searchers : List (Bool × List (Keep ℝ))) (hne : searchers ≠ [])
    (hw : ∀ a ∈ inScope searchers, a.weight = gofToWeight t a.metric minMetric) :
    ∃ r, combineBests heavier (k : Int) (searchers.map fun s =>
        (s.1, s.2.foldl (pushBest (keepBefore (gofPositive t)) (k : Int)) [])) = .ok r ∧
      IsTopK (fun a b : Keep ℝ => GofBetter t a.metric b.metric) k (inScope searchers) r := by
  have e : (fun a b : Keep ℝ => GofBetter t a.metric b.metric) = Better (gofPositive t) := by
    funext a b
    exact propext (C25_gof_orientation t a.metric b.metric)
  rw [e]
  refine Srch.C21_combine_partial (gofPositive t) k hk searchers hne (fun a ha b hb => ?_)
  rw [hw a ha, hw b hb, ← C25_gof_monotone, ← e]

/-- **C21**, out-of-sample metrics. -/
theorem C21_combine_sco (t : Sco) (minMetric : ℝ) (k : Nat) (hk : 0 < k)
    (searchers : List (Bool × List (Keep ℝ))) (hne : searchers ≠ [])
    (hw : ∀ a ∈ inScope searchers, a.weight = scoToWeight t a.metric minMetric) :
    ∃ r, combineBests heavier (k : Int) (searchers.map fun s =>
        (s.1, s.2.foldl (pushBest (keepBefore (scoPositive t)) (k : Int)) [])) = .ok r ∧
      IsTopK (fun a b : Keep ℝ => ScoBetter t a.metric b.metric) k (inScope searchers) r := by
  have e : (fun a b : Keep ℝ => ScoBetter t a.metric b.metric) = Better (scoPositive t) := by
    funext a b
    exact propext (C25_sco_orientation t a.metric b.metric)
  rw [e]
  refine Srch.C21_combine_partial (scoPositive t) k hk searchers hne (fun a ha b hb => ?_)
  rw [hw a ha, hw b hb, ← C25_sco_monotone, ← e]

/-- The hypotheses are met by two searchers with three models. -/
example : ∃ r, combineBests heavier 1 (([(true, [⟨3, 3, 0, 0, 1⟩, ⟨5, 5, 0, 0, 2⟩]), (true, [⟨4, 4, 0, 0, 3⟩])] :
      List (Bool × List (Keep ℝ))).map fun s =>
        (s.1, s.2.foldl (pushBest (keepBefore (gofPositive .auc)) 1) [])) = .ok r ∧
      IsTopK (fun a b : Keep ℝ => GofBetter .auc a.metric b.metric) 1
        [⟨3, 3, 0, 0, 1⟩, ⟨5, 5, 0, 0, 2⟩, ⟨4, 4, 0, 0, 3⟩] r :=
  C21_combine_gof .auc 0 1 (by decide) _ (by simp) (by simp [inScope, gofToWeight])

end Score
end LDT
