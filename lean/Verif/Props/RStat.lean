import Verif.Model.RStat
import Verif.Props.Scoring
import Mathlib.Tactic.Linarith
import Mathlib.Tactic.NormNum
import Mathlib.Tactic.Ring
/-!
# C143: weights and metrics called from R
-/
namespace LDT
namespace RStat
open Text (Str)

/-- What the accepted names begin with, in small letters. -/
def metricHeads : List Str :=
  ["aic", "sic", "freq", "auc", "bri", "dir", "sig", "mae", "map", "rms", "crp"].map String.toList

/-- The name is accepted: it begins with one of the words, in small or capital letters. -/
def IsMetricName (name : Str) : Prop := ∃ h ∈ metricHeads, h <+: name.map Char.toLower

theorem gof_cases (v : Str) : (∃ t, Score.gofOfName v = .ok t) ∨ Score.gofOfName v = .throws := by
  unfold Score.gofOfName
  repeat' split
  all_goals first | exact .inl ⟨_, rfl⟩ | exact .inr rfl

theorem sco_cases (v : Str) : (∃ t, Score.scoOfName v = .ok t) ∨ Score.scoOfName v = .throws := by
  unfold Score.scoOfName
  repeat' split
  all_goals first | exact .inl ⟨_, rfl⟩ | exact .inr rfl

/-- Which of the two conversions a name selects. -/
theorem weight_cases (name : Str) :
    (∃ t, ∀ x m, getWeightFromMetric x name m = .ok (Score.gofToWeight t x m) ∧
      getMetricFromWeight x name m = .ok (Score.gofFromWeight t x m)) ∨
    (∃ t, ∀ x m, getWeightFromMetric x name m = .ok (Score.scoToWeight t x m) ∧
      getMetricFromWeight x name m = .ok (Score.scoFromWeight t x m)) ∨
    (∀ x m, getWeightFromMetric x name m = .throws ∧ getMetricFromWeight x name m = .throws) := by
  rcases gof_cases (lowerName name) with ⟨t, h⟩ | h
  · refine .inl ⟨t, fun x m => ⟨?_, ?_⟩⟩ <;> simp only [getWeightFromMetric, getMetricFromWeight, h]
  · right
    rcases sco_cases (lowerName name) with ⟨t, h'⟩ | h'
    · refine .inl ⟨t, fun x m => ⟨?_, ?_⟩⟩ <;>
        simp only [getWeightFromMetric, getMetricFromWeight, h, weightOfScoring, metricOfScoring, h']
    · refine .inr fun x m => ⟨?_, ?_⟩ <;>
        simp only [getWeightFromMetric, getMetricFromWeight, h, weightOfScoring, metricOfScoring, h']

theorem accepted_aux (v : Str) :
    (Score.gofOfName v = .throws ∧ Score.scoOfName v = .throws) ↔ ¬ ∃ h ∈ metricHeads, h <+: v := by
  simp only [metricHeads, List.map_cons, List.map_nil, List.mem_cons, List.not_mem_nil, or_false, exists_eq_or_imp,
    exists_eq_left, ← List.isPrefixOf_iff_prefix]
  unfold Score.gofOfName Score.scoOfName Score.startsWith
  constructor
  · rintro ⟨h1, h2⟩
    split_ifs at h1 h2
    simp_all
  · intro h
    simp only [not_or] at h
    obtain ⟨a1, a2, a3, a4, a5, a6, a7, a8, a9, a10, a11⟩ := h
    have a12 : ("rmsp".toList.isPrefixOf v) ≠ true := by
      intro h
      apply a10
      rw [List.isPrefixOf_iff_prefix] at h ⊢
      exact List.IsPrefix.trans (by decide) h
    rw [if_neg a1, if_neg a2, if_neg a3, if_neg a4, if_neg a5, if_neg a6, if_neg a7, if_neg a8, if_neg a9, if_neg a10, if_neg a12,
      if_neg a11, if_neg a3, if_neg a4, if_neg a5]
    exact ⟨rfl, rfl⟩

/-- **C143**. Both functions accept exactly the names that begin with one of eleven words, in small or capital letters, and
throw for every other name. -/
theorem C143_accepted (name : Str) (x m : ℝ) :
    ((∃ w, getWeightFromMetric x name m = .ok w) ↔ IsMetricName name) ∧
    ((∃ v, getMetricFromWeight x name m = .ok v) ↔ IsMetricName name) ∧
    (¬ IsMetricName name → getWeightFromMetric x name m = .throws ∧ getMetricFromWeight x name m = .throws) := by
  have key := accepted_aux (lowerName name)
  change _ ↔ ¬ IsMetricName name at key
  have a : ¬ IsMetricName name → getWeightFromMetric x name m = .throws ∧ getMetricFromWeight x name m = .throws := by
    intro h
    obtain ⟨h1, h2⟩ := key.2 h
    constructor <;> simp only [getWeightFromMetric, getMetricFromWeight, h1, h2, weightOfScoring, metricOfScoring]
  have b : IsMetricName name → (∃ w, getWeightFromMetric x name m = .ok w) ∧ ∃ v, getMetricFromWeight x name m = .ok v := by
    intro h
    rcases weight_cases name with ⟨t, ht⟩ | ⟨t, ht⟩ | ht
    · exact ⟨⟨_, (ht x m).1⟩, ⟨_, (ht x m).2⟩⟩
    · exact ⟨⟨_, (ht x m).1⟩, ⟨_, (ht x m).2⟩⟩
    · exfalso
      refine (key.1 ⟨?_, ?_⟩) h
      · rcases gof_cases (lowerName name) with ⟨t, h1⟩ | h1
        · have := (ht x m).1
          simp [getWeightFromMetric, h1] at this
        · exact h1
      · rcases gof_cases (lowerName name) with ⟨t, h1⟩ | h1
        · have := (ht x m).1
          simp [getWeightFromMetric, h1] at this
        · rcases sco_cases (lowerName name) with ⟨t, h2⟩ | h2
          · have := (ht x m).1
            simp [getWeightFromMetric, h1, weightOfScoring, h2] at this
          · exact h2
  refine ⟨⟨fun ⟨w, hw⟩ => ?_, fun h => (b h).1⟩, ⟨fun ⟨w, hw⟩ => ?_, fun h => (b h).2⟩, a⟩
  · by_contra hn
    rw [(a hn).1] at hw; cases hw
  · by_contra hn
    rw [(a hn).2] at hw; cases hw

/-- **C143**. A metric converted to a weight and back with the same name and minimum is the metric. -/
theorem C143_metric_roundtrip (name : Str) (x m w : ℝ) (h : getWeightFromMetric x name m = .ok w) :
    getMetricFromWeight w name m = .ok x := by
  rcases weight_cases name with ⟨t, ht⟩ | ⟨t, ht⟩ | ht
  · rw [(ht x m).1] at h; cases h
    rw [(ht _ m).2, Score.C25_gof_roundtrip]
  · rw [(ht x m).1] at h; cases h
    rw [(ht _ m).2, Score.C25_sco_roundtrip]
  · rw [(ht x m).1] at h; cases h

/-- **C143**. A positive weight converted to a metric and back is the weight. -/
theorem C143_weight_roundtrip (name : Str) (x m w : ℝ) (hw : 0 < w) (h : getMetricFromWeight w name m = .ok x) :
    getWeightFromMetric x name m = .ok w := by
  rcases weight_cases name with ⟨t, ht⟩ | ⟨t, ht⟩ | ht
  · rw [(ht w m).2] at h; cases h
    rw [(ht _ m).1, Score.C25_gof_weight_roundtrip _ _ _ hw]
  · rw [(ht w m).2] at h; cases h
    rw [(ht _ m).1, Score.C25_sco_weight_roundtrip _ _ _ hw]
  · rw [(ht w m).2] at h; cases h

/-- **C143**. Capital letters make no difference. -/
theorem C143_letter_case (name name' : Str) (h : name.map Char.toLower = name'.map Char.toLower) (x m : ℝ) :
    getWeightFromMetric x name m = getWeightFromMetric x name' m ∧
    getMetricFromWeight x name m = getMetricFromWeight x name' m := by
  have e : lowerName name = lowerName name' := h
  constructor <;> simp only [getWeightFromMetric, getMetricFromWeight, e]

/-- **C143**. Names known to both kinds of metrics: it makes no difference that they are looked up in-sample, the weight out of
sample is the same. -/
theorem C143_same_in_both (name : Str) (t : Score.Gof) (s : Score.Sco) (ht : Score.gofOfName (name.map Char.toLower) = .ok t)
    (hs : Score.scoOfName (name.map Char.toLower) = .ok s) (x m : ℝ) :
    getWeightFromMetric x name m = .ok (Score.scoToWeight s x m) ∧
    getMetricFromWeight x name m = .ok (Score.scoFromWeight s x m) := by
  have e : (∀ y, Score.gofToWeight t y m = Score.scoToWeight s y m) ∧
      ∀ y, Score.gofFromWeight t y m = Score.scoFromWeight s y m := by
    have h1 := (Score.C26_names_rejected (name.map Char.toLower)).1 t ht
    have h2 := (Score.C26_names_rejected (name.map Char.toLower)).2.1 s hs
    rw [h1] at h2
    revert h2
    cases t <;> cases s <;> intro h2 <;> first
      | (exfalso; revert h2; decide)
      | (constructor <;> intro y <;> simp only [Score.gofToWeight, Score.scoToWeight, Score.gofFromWeight, Score.scoFromWeight] <;>
          norm_num)
  constructor
  · simp only [getWeightFromMetric, lowerName, ht, e.1]
  · simp only [getMetricFromWeight, lowerName, ht, e.2]

/-- **C143**. With every accepted name the weight orders values one way: either more is better for all values and minima, or less
is. -/
theorem C143_monotone (name : Str) (hn : IsMetricName name) :
    (∀ m a b wa wb, getWeightFromMetric a name m = .ok wa → getWeightFromMetric b name m = .ok wb → (a < b ↔ wa < wb)) ∨
    (∀ m a b wa wb, getWeightFromMetric a name m = .ok wa → getWeightFromMetric b name m = .ok wb → (a < b ↔ wb < wa)) := by
  rcases weight_cases name with ⟨t, ht⟩ | ⟨t, ht⟩ | ht
  · have key := fun m a b => Score.C25_gof_monotone t m a b
    by_cases hp : Score.gofPositive t = true
    · left
      intro m a b wa wb ha hb
      rw [(ht _ m).1] at ha hb; cases ha; cases hb
      rw [← key m b a, Score.C25_gof_orientation, if_pos hp]
    · right
      intro m a b wa wb ha hb
      rw [(ht _ m).1] at ha hb; cases ha; cases hb
      rw [← key m a b, Score.C25_gof_orientation, if_neg hp]
  · have key := fun m a b => Score.C25_sco_monotone t m a b
    by_cases hp : Score.scoPositive t = true
    · left
      intro m a b wa wb ha hb
      rw [(ht _ m).1] at ha hb; cases ha; cases hb
      rw [← key m b a, Score.C25_sco_orientation, if_pos hp]
    · right
      intro m a b wa wb ha hb
      rw [(ht _ m).1] at ha hb; cases ha; cases hb
      rw [← key m a b, Score.C25_sco_orientation, if_neg hp]
  · exfalso
    obtain ⟨w, hw⟩ := (C143_accepted name 0 0).1.2 hn
    rw [(ht 0 0).1] at hw; cases hw

/-- **C143**. The printed name of an in-sample metric selects the formula of that metric. -/
theorem C143_formula_in_sample (t : Score.Gof) (x m : ℝ) :
    getWeightFromMetric x (Score.gofName t) m = .ok (Score.gofToWeight t x m) ∧
    getMetricFromWeight x (Score.gofName t) m = .ok (Score.gofFromWeight t x m) := by
  have e : Score.gofOfName (lowerName (Score.gofName t)) = .ok t := by cases t <;> decide +kernel
  constructor
  · unfold getWeightFromMetric; rw [e]
  · unfold getMetricFromWeight; rw [e]

/-- **C143**. The printed name of an out-of-sample metric selects the formula of that metric. Partial: not for `rmspe`
(`C143_violated_rmspe`). -/
theorem C143_formula_out_of_sample_partial (t : Score.Sco) (ht : t ≠ .rmspe) (x m : ℝ) :
    getWeightFromMetric x (Score.scoName t) m = .ok (Score.scoToWeight t x m) ∧
    getMetricFromWeight x (Score.scoName t) m = .ok (Score.scoFromWeight t x m) := by
  have e : Score.scoOfName (lowerName (Score.scoName t)) = .ok t := by
    cases t <;> first | exact absurd rfl ht | decide +kernel
  rcases gof_cases (lowerName (Score.scoName t)) with ⟨g, hg⟩ | hg
  · exact C143_same_in_both _ g t hg e x m
  · constructor
    · unfold getWeightFromMetric; rw [hg]; unfold weightOfScoring; rw [e]
    · unfold getMetricFromWeight; rw [hg]; unfold metricOfScoring; rw [e]

/-- **C143**, violated: `rmspe` is converted like `rmse`: the percentage metric is not divided by 100, although that is what the
conversion of the metric itself does. -/
theorem C143_violated_rmspe (x m : ℝ) :
    getWeightFromMetric x "rmspe".toList m = .ok (Real.exp (-0.5 * (x - m))) ∧
    Score.scoToWeight .rmspe x m = Real.exp (-0.5 * (x - m) / 100) ∧
    getWeightFromMetric x "mape".toList m = .ok (Real.exp (-0.5 * (x - m) / 100)) := by
  have e1 : Score.gofOfName (lowerName "rmspe".toList) = .throws := by decide +kernel
  have e2 : Score.scoOfName (lowerName "rmspe".toList) = .ok .rmse := by decide +kernel
  have e3 : Score.gofOfName (lowerName "mape".toList) = .throws := by decide +kernel
  have e4 : Score.scoOfName (lowerName "mape".toList) = .ok .mape := by decide +kernel
  refine ⟨?_, rfl, ?_⟩
  · simp only [getWeightFromMetric, e1, weightOfScoring, e2, Score.scoToWeight]
  · simp only [getWeightFromMetric, e3, weightOfScoring, e4, Score.scoToWeight]

/-- The name that R passes for the area, with capitals, is accepted; an unknown one is not. -/
example : IsMetricName "AUC".toList ∧ ¬ IsMetricName "xyz".toList := by
  refine ⟨⟨"auc".toList, by simp [metricHeads], by decide⟩, ?_⟩
  rintro ⟨h, hm, hp⟩
  revert hp
  revert hm
  revert h
  decide

/-- The value with the minimum has the weight 1. -/
example (m : ℝ) : getWeightFromMetric m "SIC".toList m = .ok 1 := by
  have e : Score.gofOfName (lowerName "SIC".toList) = .ok .sic := by decide +kernel
  unfold getWeightFromMetric
  rw [e]
  simp [Score.gofToWeight]

end RStat
end LDT
