import Verif.Spec.SearchOptions
import Verif.Lemmas.Convert
/-!
# C120: the options of a search
-/
namespace LDT
namespace SOpt
open Score Op Text

theorem indexOf_position {α : Type} [DecidableEq α] (l : List α) (x : α) : Position l x (indexOf l x) := by
  induction l with
  | nil => left; simp [indexOf]
  | cons y ys ih =>
    by_cases h : y = x
    · right; exact ⟨0, by simp [indexOf, h], by simp [h], by simp⟩
    · rcases ih with ⟨h1, h2⟩ | ⟨k, h1, h2, h3⟩
      · left; exact ⟨by simp [h1, Ne.symm h], by simp [indexOf, h, h2]⟩
      · right
        refine ⟨k + 1, ?_, by simpa using h2, ?_⟩
        · simp only [indexOf, h, if_false]
          rw [if_neg (by omega), h1]; push_cast; rfl
        · intro j hj
          cases j with
          | zero => simpa using h
          | succ j => simpa using h3 j (by omega)

theorem insertIn_get (l : List Gof) (ms : List Gof) (f : Gof → Option Int) (x : Gof) :
    insertIn l ms f x = if f x = none ∧ x ∈ ms then some (indexOf l x) else f x := by
  induction ms generalizing f with
  | nil => simp [insertIn]
  | cons m ms ih =>
    rw [insertIn, ih]
    by_cases hm : x = m
    · subst hm; cases hf : f x <;> simp [insert, hf]
    · simp [insert, hm]

theorem insertOut_get (l : List Sco) (ms : List Sco) (f : Sco → Option Int) (x : Sco) :
    insertOut l ms f x = if f x = none ∧ x ∈ ms then some (indexOf l x) else f x := by
  induction ms generalizing f with
  | nil => simp [insertOut]
  | cons m ms ih =>
    rw [insertOut, ih]
    by_cases hm : x = m
    · subst hm; cases hf : f x <;> simp [insert, hf]
    · simp [insert, hm]

theorem allIn (x : Gof) : x ∈ [Gof.aic, .auc, .brier, .frequencyCost, .sic] := by cases x <;> simp
theorem allOut (x : Sco) : x ∈ [Sco.auc, .brier, .crps, .direction, .frequencyCost, .mae, .mape, .rmse, .rmspe, .sign] := by
  cases x <;> simp

variable {K : Type} [DecidableEq K] [Zero K]

/-- The result of an update that is not refused. -/
theorem update_ok (o o' : Metrics K) (r t : Bool) (h : o.update r t = .ok o') :
    o' = { o with
      isTimeSeries := t
      seed := if r = false then 0 else o.seed
      horizons := if t = false then [] else o.horizons
      trainRatio := if o.trainFix > 0 then .num 0 else o.trainRatio
      orient := o.metricsIn.map gofPositive ++ o.metricsOut.map scoPositive
      indexIn := insertIn o.metricsIn [.aic, .auc, .brier, .frequencyCost, .sic] o.indexIn
      indexOut := insertOut o.metricsOut
        [.auc, .brier, .crps, .direction, .frequencyCost, .mae, .mape, .rmse, .rmspe, .sign] o.indexOut } := by
  unfold Metrics.update at h
  dsimp only at h
  cases r <;> cases t <;> by_cases hf : o.trainFix > 0 <;> simp only [hf, if_true, if_false, reduceCtorEq] at h ⊢ <;>
    split_ifs at h <;> first | exact (Outcome.ok.inj h).symm | cases h

theorem update_eq (o : Metrics K) (r t : Bool) : ∃ o', o.update r t =
    if ¬ 0 < o.simFix ∧ o.metricsOut ≠ [] then .throws
    else if 0 < o.simFix ∧ t = false ∧ o.trainFix = 0 ∧ o.trainRatio = .num 0 then .throws
    else if t = true ∧ ((o.horizons = [] ∧ o.metricsOut ≠ []) ∨ (o.horizons ≠ [] ∧ o.metricsOut = [])) then .throws
    else .ok o' := by
  unfold Metrics.update
  dsimp only
  have hcond : ∀ x : Dbl K, (o.trainFix = 0 ∧ (if o.trainFix > 0 then Dbl.num 0 else x) = .num 0) ↔
      (o.trainFix = 0 ∧ x = .num 0) := by
    intro x; constructor <;> rintro ⟨h1, h2⟩ <;> refine ⟨h1, ?_⟩ <;> simpa [h1] using h2
  by_cases hf : o.trainFix > 0
  · have hne : o.trainFix ≠ 0 := by omega
    cases r <;> cases t <;> simp only [hf, hne, if_true, if_false, reduceCtorEq, decide_eq_true_eq, decide_eq_false_iff_not,
      false_and, and_false, true_and, List.length_pos_iff, List.length_eq_zero_iff, gt_iff_lt] <;> exact ⟨_, rfl⟩
  · cases r <;> cases t <;> simp only [hf, if_true, if_false, reduceCtorEq, decide_eq_true_eq, decide_eq_false_iff_not,
      false_and, and_false, true_and, List.length_pos_iff, List.length_eq_zero_iff, gt_iff_lt] <;> exact ⟨_, rfl⟩

/-- **C120 (refusals).** The metric options are refused if and only if they contradict themselves, and the update never
ends in another way. -/
theorem C120_refused (o : Metrics K) (r t : Bool) :
    (o.update r t = .throws ↔ Contradiction o t) ∧ (¬ Contradiction o t → ∃ o', o.update r t = .ok o') := by
  have key : (Contradiction o t → o.update r t = .throws) ∧ (¬ Contradiction o t → ∃ o', o.update r t = .ok o') := by
    have hc : Contradiction o t ↔ (o.metricsOut ≠ [] ∧ o.simFix ≤ 0) ∨
        (0 < o.simFix ∧ t = false ∧ o.trainFix = 0 ∧ o.trainRatio = .num 0) ∨ (t = true ∧ o.horizons ≠ [] ∧ o.metricsOut = [])
        ∨ (t = true ∧ o.horizons = [] ∧ o.metricsOut ≠ []) := by
      constructor
      · rintro (⟨a, b⟩ | ⟨a, b, c, d⟩ | ⟨a, b, c⟩ | ⟨a, b, c⟩)
        · exact Or.inl ⟨a, b⟩
        · exact Or.inr (Or.inl ⟨a, b, c, d⟩)
        · exact Or.inr (Or.inr (Or.inl ⟨a, b, c⟩))
        · exact Or.inr (Or.inr (Or.inr ⟨a, b, c⟩))
      · rintro (⟨a, b⟩ | ⟨a, b, c, d⟩ | ⟨a, b, c⟩ | ⟨a, b, c⟩)
        · exact .noSimulation a b
        · exact .noTraining a b c d
        · exact .noMetric a b c
        · exact .noHorizon a b c
    rw [hc]
    obtain ⟨o', ho⟩ := update_eq o r t
    rw [ho]
    by_cases h1 : ¬ 0 < o.simFix ∧ o.metricsOut ≠ []
    · rw [if_pos h1]; exact ⟨fun _ => rfl, fun h => absurd (Or.inl ⟨h1.2, by omega⟩) h⟩
    · rw [if_neg h1]
      by_cases h2 : 0 < o.simFix ∧ t = false ∧ o.trainFix = 0 ∧ o.trainRatio = .num 0
      · rw [if_pos h2]; exact ⟨fun _ => rfl, fun h => absurd (Or.inr (Or.inl h2)) h⟩
      · rw [if_neg h2]
        by_cases h3 : t = true ∧ ((o.horizons = [] ∧ o.metricsOut ≠ []) ∨ (o.horizons ≠ [] ∧ o.metricsOut = []))
        · rw [if_pos h3]; refine ⟨fun _ => rfl, fun h => absurd ?_ h⟩
          rcases h3.2 with h | h
          · exact Or.inr (Or.inr (Or.inr ⟨h3.1, h⟩))
          · exact Or.inr (Or.inr (Or.inl ⟨h3.1, h⟩))
        · rw [if_neg h3]
          refine ⟨fun h => ?_, fun _ => ⟨o', rfl⟩⟩
          exfalso
          rcases h with ⟨a, b⟩ | h | h | h
          · exact h1 ⟨by omega, a⟩
          · exact h2 h
          · exact h3 ⟨h.1, Or.inr h.2⟩
          · exact h3 ⟨h.1, Or.inl h.2⟩
  refine ⟨⟨fun h => ?_, key.1⟩, key.2⟩
  by_contra hn
  obtain ⟨o', ho⟩ := key.2 hn
  rw [ho] at h; cases h

/-- **C120 (what stays and what changes).** -/
theorem C120_updated (o o' : Metrics K) (r t : Bool) (h : o.update r t = .ok o') :
    o'.metricsIn = o.metricsIn ∧ o'.metricsOut = o.metricsOut ∧ o'.simFix = o.simFix ∧ o'.trainFix = o.trainFix ∧
    o'.isTimeSeries = t ∧ (o'.seed = if r then o.seed else 0) ∧ (o'.horizons = if t then o.horizons else []) ∧
    (0 < o.trainFix → o'.trainRatio = .num 0) ∧ (o.trainFix ≤ 0 → o'.trainRatio = o.trainRatio) := by
  rw [update_ok o o' r t h]
  refine ⟨rfl, rfl, rfl, rfl, rfl, ?_, ?_, ?_, ?_⟩
  · cases r <;> rfl
  · cases t <;> rfl
  · intro hp; exact if_pos hp
  · intro hp; exact if_neg (by omega)

/-- **C120 (orientation).** After an update the `k`-th metric (the in-sample ones first) is marked as "larger is better" exactly
if it is; whatever was marked before. -/
theorem C120_orientation (o o' : Metrics K) (r t : Bool) (h : o.update r t = .ok o') :
    o'.orient.length = o.metricsIn.length + o.metricsOut.length ∧
    (∀ (k : Nat) m, o.metricsIn[k]? = some m → ∃ b : Bool, o'.orient[k]? = some b ∧ (b = true ↔ inPositive m)) ∧
    (∀ (k : Nat) m, o.metricsOut[k]? = some m →
      ∃ b : Bool, o'.orient[o.metricsIn.length + k]? = some b ∧ (b = true ↔ outPositive m)) := by
  rw [update_ok o o' r t h]
  dsimp only
  refine ⟨by simp, ?_, ?_⟩
  · intro k m hm
    have hk : k < o.metricsIn.length := (List.getElem?_eq_some_iff.mp hm).1
    refine ⟨gofPositive m, ?_, ?_⟩
    · rw [List.getElem?_append_left (by simpa using hk)]; simp [hm]
    · cases m <;> simp [gofPositive, inPositive]
  · intro k m hm
    refine ⟨scoPositive m, ?_, ?_⟩
    · rw [List.getElem?_append_right (by simp)]; simp [hm]
    · cases m <;> simp [scoPositive, outPositive]

/-- **C120 (positions).** If the tables of positions were never filled (or only for the same metrics), then after an update
they hold, for every metric that exists, its position among the chosen metrics. -/
theorem C120_positions_partial (o o' : Metrics K) (r t : Bool) (h : o.update r t = .ok o')
    (hin : Fresh o.metricsIn o.indexIn) (hout : Fresh o.metricsOut o.indexOut) :
    (∀ m, ∃ i, o'.indexIn m = some i ∧ Position o.metricsIn m i) ∧
    (∀ m, ∃ i, o'.indexOut m = some i ∧ Position o.metricsOut m i) := by
  rw [update_ok o o' r t h]
  dsimp only
  refine ⟨fun m => ?_, fun m => ?_⟩
  · rw [insertIn_get]
    cases hf : o.indexIn m with
    | none => exact ⟨_, by simp [allIn m], indexOf_position _ _⟩
    | some i => exact ⟨i, by simp, hin m i hf⟩
  · rw [insertOut_get]
    cases hf : o.indexOut m with
    | none => exact ⟨_, by simp [allOut m], indexOf_position _ _⟩
    | some i => exact ⟨i, by simp, hout m i hf⟩

/-- The positions of the metrics are unique. -/
theorem C120_position_unique {α : Type} (l : List α) (x : α) (i j : Int) (hi : Position l x i) (hj : Position l x j) : i = j := by
  rcases hi with ⟨a, b⟩ | ⟨k, a, b, c⟩ <;> rcases hj with ⟨a', b'⟩ | ⟨k', a', b', c'⟩
  · omega
  · exact absurd (List.mem_of_getElem? b') a
  · exact absurd (List.mem_of_getElem? b) a'
  · rcases Nat.lt_trichotomy k k' with h | h | h
    · exact absurd b (c' k h)
    · omega
    · exact absurd b' (c k' h)

/-- **C120 (again).** Updating twice is the same as updating once. -/
theorem C120_again (o o' : Metrics K) (r t : Bool) (h : o.update r t = .ok o') : o'.update r t = .ok o' := by
  have hnc : ¬ Contradiction o t := by
    intro hc
    have := (C120_refused o r t).1.mpr hc
    rw [h] at this; cases this
  obtain ⟨h1, h2, h3, h4, h5, h6, h7, h8, h9⟩ := C120_updated o o' r t h
  have hnc' : ¬ Contradiction o' t := by
    rintro (⟨a, b⟩ | ⟨a, b, c, d⟩ | ⟨a, b, c⟩ | ⟨a, b, c⟩)
    · exact hnc (.noSimulation (h2 ▸ a) (h3 ▸ b))
    · rw [h4] at c
      refine hnc (.noTraining (h3 ▸ a) b c ?_)
      rw [← h9 (by omega)]; exact d
    · subst a
      exact hnc (.noMetric rfl (by simpa [h7] using b) (h2 ▸ c))
    · subst a
      exact hnc (.noHorizon rfl (by simpa [h7] using b) (h2 ▸ c))
  obtain ⟨o'', ho⟩ := (C120_refused o' r t).2 hnc'
  rw [ho]
  congr 1
  rw [update_ok o' o'' r t ho, update_ok o o' r t h]
  have e1 : insertIn o.metricsIn [.aic, .auc, .brier, .frequencyCost, .sic]
      (insertIn o.metricsIn [.aic, .auc, .brier, .frequencyCost, .sic] o.indexIn)
      = insertIn o.metricsIn [.aic, .auc, .brier, .frequencyCost, .sic] o.indexIn := by
    funext x; rw [insertIn_get, insertIn_get]; cases hf : o.indexIn x <;> simp [allIn x]
  have e2 : insertOut o.metricsOut [.auc, .brier, .crps, .direction, .frequencyCost, .mae, .mape, .rmse, .rmspe, .sign]
      (insertOut o.metricsOut [.auc, .brier, .crps, .direction, .frequencyCost, .mae, .mape, .rmse, .rmspe, .sign] o.indexOut)
      = insertOut o.metricsOut [.auc, .brier, .crps, .direction, .frequencyCost, .mae, .mape, .rmse, .rmspe, .sign] o.indexOut := by
    funext x; rw [insertOut_get, insertOut_get]; cases hf : o.indexOut x <;> simp [allOut x]
  dsimp only
  rw [e1, e2]
  cases r <;> cases t <;> by_cases hf : o.trainFix > 0 <;> simp [hf]

/-- **C120 (violated: other metrics).** The full claim on positions fails for options that are used for a second search with
other metrics: `Update` keeps the old positions.  Here AIC is replaced by SIC, and the update still says that AIC is at
position 0 and SIC is not chosen. -/
theorem C120_violated_other_metrics :
    ∃ o o' o'' : Metrics Rat, o.update true false = .ok o' ∧
      ({ o' with metricsIn := [.sic] } : Metrics Rat).update true false = .ok o'' ∧
      o''.metricsIn = [.sic] ∧ o''.indexIn .aic = some 0 ∧ o''.indexIn .sic = some (-1) ∧
      ¬ Position o''.metricsIn .aic 0 ∧ ¬ Position o''.metricsIn .sic (-1) := by
  refine ⟨{ metricsIn := [.aic], metricsOut := [], trainRatio := .num 0, seed := 0 }, _, _, rfl, rfl, rfl, rfl, rfl, ?_, ?_⟩
  · rintro (⟨_, h⟩ | ⟨k, hk, h, _⟩)
    · simp at h
    · obtain rfl : k = 0 := by omega
      simp [insertIn] at h
  · rintro (⟨h, _⟩ | ⟨k, hk, _⟩)
    · simp at h
    · omega

omit [DecidableEq K] [Zero K] in
/-- **C120 (items).** The number of metrics and of targets; no target is refused. -/
theorem C120_items (m : Metrics K) (n : Int) :
    (n ≤ 0 → itemsUpdate m n = .throws) ∧
    (0 < n → itemsUpdate m n = .ok (m.metricsIn.length + m.metricsOut.length, n)) := by
  refine ⟨fun h => if_pos h, fun h => ?_⟩
  rw [itemsUpdate, if_neg (by omega)]; simp

omit [DecidableEq K] [Zero K] in
theorem limits_iff (x : Dbl K) : (isInf x == false) = true ↔ Limits x := by
  cases x <;> simp [isInf, Limits]

variable [Neg K]

omit [DecidableEq K] [Zero K] in
theorem limits_neg (x : Dbl K) : (isInf (neg x) == false) = true ↔ Limits x := by
  cases x <;> simp [isInf, neg, Limits]

omit [DecidableEq K] [Zero K] in
/-- **C120 (checks refused).** The checks are refused exactly if more valid simulations are demanded than there are. -/
theorem C120_checks_refused (c : Checks K) (m : Metrics K) :
    (c.update m = .throws ↔ 0 < m.simFix ∧ m.simFix < c.minOutSim) ∧
    (¬ (0 < m.simFix ∧ m.simFix < c.minOutSim) → ∃ c', c.update m = .ok c') := by
  unfold Checks.update
  dsimp only
  cases hts : m.isTimeSeries <;> by_cases h : m.simFix > 0 ∧ c.minOutSim > m.simFix <;> simp [h]

omit [DecidableEq K] [Zero K] in
/-- **C120 (checks).** After an update: the limits are the given ones; a prediction is demanded only for time series; the
model is estimated exactly if that was asked for, or an in-sample metric was chosen, or one of the limits (other than that of
the condition number) is active; the condition number is limited in the simulations exactly if there is a limit and an
out-of-sample metric. -/
theorem C120_checks (c c' : Checks K) (m : Metrics K) (h : c.update m = .ok c') :
    c'.minObs = c.minObs ∧ c'.minDof = c.minDof ∧ c'.minOutSim = c.minOutSim ∧ c'.minR2 = c.minR2 ∧ c'.maxAic = c.maxAic ∧
    c'.maxSic = c.maxSic ∧ c'.maxCondition = c.maxCondition ∧
    (c'.prediction = true ↔ c.prediction = true ∧ m.isTimeSeries = true) ∧
    (c'.estimation = true ↔ c.estimation = true ∨ WantsEstimation c m) ∧
    (c'.checkCN = true ↔ m.metricsOut ≠ [] ∧ Limits c.maxCondition) := by
  have hw : WantsEstimation c m ↔ (m.metricsIn.length > 0 ∨ decide (c.minObs > 0) = true ∨ decide (c.minDof > 0) = true ∨
      (isInf c.maxAic == false) = true ∨ (isInf c.maxSic == false) = true ∨ (isInf (neg c.minR2) == false) = true) := by
    rw [limits_iff, limits_iff, limits_neg]; simp [WantsEstimation, List.length_pos_iff]
  unfold Checks.update at h
  dsimp only at h
  cases hts : m.isTimeSeries <;> rw [hts] at h <;> simp only [if_true, reduceCtorEq, if_false] at h <;>
    (by_cases hb : m.simFix > 0 ∧ c.minOutSim > m.simFix
     · rw [if_pos hb] at h; cases h
     · rw [if_neg hb] at h
       have h := (Outcome.ok.inj h).symm
       cases he : c.estimation <;> rw [he] at h <;> by_cases hq : WantsEstimation c m <;> have hq' := hq <;> rw [hw] at hq' <;>
         simp only [hq', true_and, and_true, reduceCtorEq, false_and, and_false, if_true, if_false] at h <;> subst h <;>
         refine ⟨rfl, rfl, rfl, rfl, rfl, rfl, rfl, ?_, ?_, ?_⟩ <;>
         simp [hq, ← limits_iff, List.length_pos_iff])

omit [DecidableEq K] [Zero K] in
/-- **C120 (condition number of the estimated model).** If the estimation is asked for, the limit of the condition number is
in force exactly if there is one.  (In general the code looks at the flag before it switches it on, see
`C120_violated_condition`.) -/
theorem C120_condition_partial (c c' : Checks K) (m : Metrics K) (h : c.update m = .ok c') (he : c.estimation = true) :
    c'.checkCNAll = true ↔ Limits c.maxCondition := by
  unfold Checks.update at h
  dsimp only at h
  cases hts : m.isTimeSeries <;> rw [hts] at h <;> simp only [if_true, reduceCtorEq, if_false] at h <;>
    (by_cases hb : m.simFix > 0 ∧ c.minOutSim > m.simFix
     · rw [if_pos hb] at h; cases h
     · rw [if_neg hb] at h
       have h := (Outcome.ok.inj h).symm
       rw [he] at h
       simp only [reduceCtorEq, false_and, if_false] at h
       subst h
       simp [← limits_iff])

/-- **C120 (violated: condition number).** Every model is estimated because of an in-sample metric, the condition number has
a finite limit, and yet the limit is not in force. A second update puts it in force. -/
theorem C120_violated_condition :
    ∃ (c c' c'' : Checks Rat) (m : Metrics Rat), m.metricsIn = [.aic] ∧ c.maxCondition = .num 10 ∧
      c.update m = .ok c' ∧ c'.estimation = true ∧ c'.checkCNAll = false ∧
      c'.update m = .ok c'' ∧ c''.checkCNAll = true := by
  refine ⟨{ maxCondition := .num 10 }, _, _,
    { metricsIn := [.aic], metricsOut := [], trainRatio := .num 0, seed := 0 }, rfl, rfl, rfl, rfl, rfl, rfl, rfl⟩

/-- The hypotheses are met: options with in-sample and out-of-sample metrics are accepted and fully updated. -/
theorem C120_example :
    ∃ o' : Metrics Rat,
      ({ metricsIn := [.sic, .auc], metricsOut := [.mae, .sign], trainFix := 3, trainRatio := .num 1, simFix := 5, seed := 7,
         horizons := [1] } : Metrics Rat).update true false = .ok o' ∧
      o'.orient = [false, true, false, true] ∧ o'.trainRatio = .num 0 ∧ o'.seed = 7 ∧ o'.horizons = [] ∧
      o'.indexIn .auc = some 1 ∧ o'.indexIn .aic = some (-1) ∧ o'.indexOut .sign = some 1 ∧
      Fresh [Gof.sic, .auc] (fun _ => none) ∧
      ∃ c', ({ maxAic := .num 3, minOutSim := 5, maxCondition := .num 2 } : Checks Rat).update o' = .ok c' ∧
        c'.estimation = true ∧ c'.checkCN = true := by
  refine ⟨_, rfl, rfl, rfl, rfl, rfl, rfl, rfl, rfl, ?_, _, rfl, rfl, rfl⟩
  intro x i h; cases h

end SOpt
end LDT
