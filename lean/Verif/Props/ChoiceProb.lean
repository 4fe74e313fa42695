import Verif.Lemmas.ChoiceCode
import Mathlib.MeasureTheory.Measure.Stieltjes
/-!
# C111: predicted probabilities of a discrete choice model

`GetProbabilities` gives, for each row of regressors, the probability of each choice in the model with the fitted coefficients: the error
falls between the cutoffs.
-/
namespace LDT
namespace Dc
open Di Op Set MeasureTheory

variable {S : Fns} (hS : S.Good) (law : Law)

theorem chance_lt {G : ℝ → ℝ} {J k0 : ℕ} {β : ℕ → ℝ} {xb : ℝ} {j : ℕ} (h0 : j ≠ 0) (hJ : j ≠ J) :
    chance G J k0 β xb j = G (cut k0 β j - xb) - G (cut k0 β (j - 1) - xb) := by
  unfold chance; rw [if_neg hJ, if_neg h0]

include hS in
theorem orderedLoop_eq {J k0 : ℕ} (β : ℕ → ℝ) (xib : ℝ) :
    ∀ fuel j row, j < J → J ≤ fuel + j → ∀ l,
      orderedLoop S law J (ordermu k0 β) xib fuel j (cut k0 β j) (if j = 0 then 0 else law.cdf (cut k0 β (j - 1) - xib)) row l =
        if l < j then row l else if l ≤ J then chance law.cdf J k0 β xib l else row l := by
  intro fuel
  induction fuel with
  | zero => intro j row h1 h2; omega
  | succ fuel ih =>
    intro j row h1 h2 l
    have here : cdfAt S law (cut k0 β j) xib - (if j = 0 then 0 else law.cdf (cut k0 β (j - 1) - xib)) = chance law.cdf J k0 β xib j := by
      rw [cdfAt_eq hS]; unfold chance; rw [if_neg (show ¬ j = J by omega)]
    rw [orderedLoop]
    rw [here]
    by_cases hj : j + 1 = J
    · rw [if_pos hj]
      unfold setAt
      by_cases a : l = j + 1
      · rw [if_pos a, if_neg (by omega), if_pos (by omega), cdfAt_eq hS]
        unfold chance
        rw [if_pos (by omega), if_neg (by omega), a]; simp
      · rw [if_neg a]
        by_cases b : l = j
        · rw [if_pos b, if_neg (by omega), if_pos (by omega), b]
        · rw [if_neg b]
          split_ifs with c1 c2
          · rfl
          · omega
          · rfl
    · rw [if_neg hj]
      have e : ordermu k0 β j = cut k0 β (j + 1) := by
        have := cut_ordermu k0 β (j := j + 1) (by omega)
        simpa using this
      rw [e, cdfAt_eq hS]
      have h3 := ih (j + 1) (setAt row j (chance law.cdf J k0 β xib j)) (by omega) (by omega) l
      rw [if_neg (by omega), show j + 1 - 1 = j by omega] at h3
      rw [h3]
      unfold setAt
      split_ifs <;> first | rfl | omega | (subst_vars; rfl)

include hS in
/-- **C111.** More than two choices: each entry of a row is the probability of that choice; the row has an entry for each choice and nothing
else is written. -/
theorem C111_ordered {J k0 : ℕ} (hJ : 1 ≤ J) (β : ℕ → ℝ) (xib : ℝ) (row : ℕ → ℝ) (j : ℕ) :
    orderedRow S law J k0 β xib row j = if j ≤ J then chance law.cdf J k0 β xib j else row j := by
  have h := orderedLoop_eq hS law (J := J) (k0 := k0) β xib (J + 1) 0 row (by omega) (by omega) j
  simp only [Nat.not_lt_zero, if_false, if_true] at h
  rw [show cut k0 β 0 = 0 by simp [cut]] at h
  exact h

include hS in
/-- **C111.** Two choices: the cutoff is zero. -/
theorem C111_binary (k0 : ℕ) (β : ℕ → ℝ) (xib : ℝ) (j : ℕ) (hj : j ≤ 1) : binaryRow S law xib j = chance law.cdf 1 k0 β xib j := by
  have e : binaryRow S law xib = fun j => if j = 0 then 1 - law.cdf xib else if j = 1 then law.cdf xib else 0 := by
    cases law
    · rfl
    · unfold binaryRow
      simp only [normalCdf_eq hS]
      rfl
  have c0 : cut k0 β 0 = 0 := by simp [cut]
  rw [e]
  unfold chance
  rcases Nat.le_one_iff_eq_zero_or_eq_one.1 hj with rfl | rfl
  · simp only [if_true, c0, zero_sub, sub_zero]
    rw [law.link.symm]; simp
  · simp only [one_ne_zero, if_false, if_true, Nat.sub_self, c0, zero_sub]
    rw [law.link.symm]; ring

include hS in
/-- **C111.** The probabilities of the choices up to `j` sum to the distribution function at the cutoff `j`, and those of all choices to one. -/
theorem C111_cumulative {J k0 : ℕ} (hJ : 1 ≤ J) (β : ℕ → ℝ) (xib : ℝ) (row : ℕ → ℝ) :
    (∀ j < J, ∑ l ∈ Finset.range (j + 1), orderedRow S law J k0 β xib row l = law.cdf (cut k0 β j - xib)) ∧
      ∑ l ∈ Finset.range (J + 1), orderedRow S law J k0 β xib row l = 1 := by
  have h1 : ∀ j < J, ∑ l ∈ Finset.range (j + 1), orderedRow S law J k0 β xib row l = law.cdf (cut k0 β j - xib) := by
    intro j
    induction j with
    | zero =>
      intro hj
      rw [Finset.sum_range_one, C111_ordered hS law hJ, if_pos (by omega)]
      unfold chance; rw [if_neg (by omega)]; simp
    | succ j ih =>
      intro hj
      rw [Finset.sum_range_succ, ih (by omega), C111_ordered hS law hJ, if_pos (by omega), chance_lt (by omega) (by omega)]
      simp
  refine ⟨h1, ?_⟩
  obtain ⟨m, rfl⟩ : ∃ m, J = m + 1 := ⟨J - 1, by omega⟩
  rw [Finset.sum_range_succ, h1 m (by omega), C111_ordered hS law hJ, if_pos (by omega)]
  unfold chance; simp

include hS in
/-- **C111.** With increasing cutoffs all probabilities are positive. -/
theorem C111_positive {J k0 : ℕ} (hJ : 1 ≤ J) {β : ℕ → ℝ} (h : Increasing J k0 β) (xib : ℝ) (row : ℕ → ℝ) {j : ℕ} (hj : j ≤ J) :
    0 < orderedRow S law J k0 β xib row j := by
  rw [C111_ordered hS law hJ, if_pos hj]
  exact chance_pos law.link h hJ xib hj

include hS in
/-- **C111.** After a fit: if each choice was observed and each observed choice has a positive probability in the fitted model (its
logarithm is a number), the probabilities are positive for all regressors, also for new ones. -/
theorem C111_fitted {J : ℕ} (hJ : 1 ≤ J) (D : Data) {β : ℕ → ℝ} (hc : ∀ j, 1 ≤ j → j < J → ∃ i < D.n, D.cat i = j)
    (hp : ∀ i < D.n, 0 < chance law.cdf J D.k0 β (index D.k0 D.x β i) (D.cat i)) (xib : ℝ) (row : ℕ → ℝ) {j : ℕ} (hj : j ≤ J) :
    0 < orderedRow S law J D.k0 β xib row j := by
  refine C111_positive hS law hJ (fun l hl => ?_) xib row hj
  obtain ⟨i, hi, hci⟩ := hc (l + 1) (by omega) hl
  have h := hp i hi
  rw [hci, chance_lt (by omega) (by omega)] at h
  have := law.link.strictMono.lt_iff_lt.1 (sub_pos.1 h)
  simp only [Nat.add_sub_cancel] at this
  linarith

include hS in
/-- **C111.** A larger index moves probability upwards: the probability of the choices up to `j` falls. -/
theorem C111_shift {J k0 : ℕ} (hJ : 1 ≤ J) (β : ℕ → ℝ) {xib xib' : ℝ} (hx : xib < xib') (row : ℕ → ℝ) {j : ℕ} (hj : j < J) :
    ∑ l ∈ Finset.range (j + 1), orderedRow S law J k0 β xib' row l < ∑ l ∈ Finset.range (j + 1), orderedRow S law J k0 β xib row l := by
  rw [(C111_cumulative hS law hJ β xib' row).1 j hj, (C111_cumulative hS law hJ β xib row).1 j hj]
  exact law.link.strictMono (by linarith)

/-! ## The latent variable -/

theorem law_bot : Filter.Tendsto law.cdf Filter.atBot (nhds 0) := by
  cases law
  · show Filter.Tendsto (fun z => Real.exp z / (1 + Real.exp z)) Filter.atBot (nhds 0)
    have h := Real.tendsto_exp_atBot.div (Real.tendsto_exp_atBot.const_add 1) (by norm_num)
    rw [zero_div] at h
    exact h
  · refine tendsto_of_tendsto_of_tendsto_of_le_of_le' tendsto_const_nhds gaussPdf_tendsto
      (Filter.Eventually.of_forall fun z => (gaussian_pos z).le) ?_
    filter_upwards [Filter.eventually_le_atBot (-1 : ℝ)] with z hz
    have h1 := mills z
    have h2 := gaussian_pos z
    show gaussian z ≤ gaussPdf z
    nlinarith

theorem law_top : Filter.Tendsto law.cdf Filter.atTop (nhds 1) := by
  have h := ((law_bot law).comp Filter.tendsto_neg_atTop_atBot).const_sub 1
  rw [sub_zero] at h
  refine h.congr fun z => ?_
  show 1 - law.cdf (-z) = law.cdf z
  rw [law.link.symm]; ring

/-- There is a distribution with the distribution function of each law. -/
theorem law_exists : ∃ μ : Measure ℝ, IsProbabilityMeasure μ ∧ ∀ z, μ.real (Iio z) = law.cdf z := by
  let f : StieltjesFunction ℝ := ⟨law.cdf, law.link.strictMono.monotone, fun z => (law.link.dG z).continuousAt.continuousWithinAt⟩
  have hb : Filter.Tendsto f Filter.atBot (nhds 0) := law_bot law
  have ht : Filter.Tendsto f Filter.atTop (nhds 1) := law_top law
  refine ⟨f.measure, f.isProbabilityMeasure hb ht, fun z => ?_⟩
  have hl : Function.leftLim f z = f z := leftLim_eq_of_tendsto (((law.link.dG z).continuousAt).tendsto.mono_left nhdsWithin_le_nhds)
  have h := f.measure_Iio hb z
  rw [hl, sub_zero] at h
  show (f.measure (Iio z)).toReal = _
  rw [h]
  exact ENNReal.toReal_ofReal (law.link.pos z).le

include hS in
/-- **C111.** An error with the distribution of the law falls where the choice is `j` with the probability that is reported. -/
theorem C111_latent {J k0 : ℕ} (hJ : 1 ≤ J) {β : ℕ → ℝ} (h : Increasing J k0 β) (xib : ℝ) (row : ℕ → ℝ) {j : ℕ} (hj : j ≤ J) (μ : Measure ℝ)
    [IsProbabilityMeasure μ] (hμ : ∀ z, μ.real (Iio z) = law.cdf z) :
    orderedRow S law J k0 β xib row j = μ.real (chosen J k0 β xib j) := by
  rw [C111_ordered hS law hJ, if_pos hj]
  by_cases h0 : j = 0
  · have e : chosen J k0 β xib j = Iio (cut k0 β j - xib) := by
      ext t
      simp only [chosen, mem_setOf_eq, mem_Iio]
      constructor
      · intro h; have := h.2 (by omega); linarith
      · intro h; exact ⟨fun a => absurd h0 a, fun _ => by linarith⟩
    rw [e, hμ]
    unfold chance
    rw [if_neg (by omega), if_pos h0, sub_zero]
  · by_cases hJ' : j = J
    · have e : chosen J k0 β xib j = (Iio (cut k0 β (j - 1) - xib))ᶜ := by
        ext t
        simp only [chosen, mem_setOf_eq, mem_compl_iff, mem_Iio, not_lt]
        constructor
        · intro h; have := h.1 h0; linarith
        · intro h; exact ⟨fun _ => by linarith, fun a => absurd hJ' a⟩
      rw [e, probReal_compl_eq_one_sub measurableSet_Iio, hμ]
      unfold chance
      rw [if_pos hJ', if_neg h0]
    · have e : chosen J k0 β xib j = Iio (cut k0 β j - xib) \ Iio (cut k0 β (j - 1) - xib) := by
        ext t
        simp only [chosen, mem_setOf_eq, mem_diff, mem_Iio, not_lt]
        constructor
        · intro h
          have h1 := h.1 h0
          have h2 := h.2 hJ'
          exact ⟨by linarith, by linarith⟩
        · intro h
          exact ⟨fun _ => by linarith [h.2], fun _ => by linarith [h.1]⟩
      have hlt := h (j - 1) (by omega)
      rw [show j - 1 + 1 = j by omega] at hlt
      rw [e, measureReal_diff (Iio_subset_Iio (by linarith)) measurableSet_Iio, hμ, hμ, chance_lt h0 hJ']

/-! ## Examples -/

/-- Three choices, one regressor, the free cutoff 2: the cutoffs increase. -/
example : Increasing 2 1 (fun l => if l = 0 then 1 else 2) := by
  intro j hj
  obtain rfl : j = 0 := by omega
  simp [cut]

/-- An index of zero splits the logistic law in half. -/
example {S : Fns} (hS : S.Good) : binaryRow S .logit 0 0 = 1 / 2 ∧ binaryRow S .logit 0 1 = 1 / 2 := by
  rw [C111_binary hS .logit 0 (fun _ => 0) 0 0 (by norm_num), C111_binary hS .logit 0 (fun _ => 0) 0 1 (by norm_num)]
  simp [chance, cut, Law.cdf, logistic]
  norm_num

end Dc
end LDT
