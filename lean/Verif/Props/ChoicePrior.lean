import Verif.Lemmas.ChoicePrior
/-! # C115: starting values for models of discrete choice -/
namespace LDT
namespace Dc
open Op Di

theorem independent_congr {n k0 : ℕ} {v v' : ℕ → ℝ} {x : ℕ → ℕ → ℝ} (h : ∀ i < n, 0 < v i ↔ 0 < v' i) :
    Independent n k0 v x ↔ Independent n k0 v' x := by
  constructor
  · intro hI b hb; exact hI b fun i hi hp => hb i hi ((h i hi).1 hp)
  · intro hI b hb; exact hI b fun i hi hp => hb i hi ((h i hi).2 hp)

theorem priorP_eq {S : Fns} (hS : S.Good) (law : Law) (z : ℝ) : priorP S law z = 1 - law.cdf z := by
  cases law
  · show 1 / (1 + Real.exp z) = 1 - logistic z
    unfold logistic
    have : 1 + Real.exp z ≠ 0 := by positivity
    field_simp; ring
  · show normalCdf S (-z) = 1 - gaussian z
    rw [normalCdf_eq hS]; exact Law.probit.link.symm z

section
variable {S : Fns} (hS : S.Good) (law : Law) (D : Data) (hw : ∀ i < D.n, 0 ≤ D.wt i)
include hS hw

/-- **C115.** The start for two choices: least squares, and then least squares weighted with the inverse variances of the choices that follow from
the first. -/
theorem C115_binary (h0 : 0 < D.k0) (hn : D.k0 ≤ D.n) (hI : Independent D.n D.k0 D.wt D.x) : ∃ b0 b, priorBinary S law D = .ok b ∧
    WeightedBest D.n D.k0 D.wt D.y D.x b0 ∧
    WeightedBest D.n D.k0 (fun i => D.wt i / (law.cdf (index D.k0 D.x b0 i) * (1 - law.cdf (index D.k0 D.x b0 i)))) D.y D.x b := by
  obtain ⟨s, hs, e⟩ := firstOls_eq D D.k0
  obtain ⟨b0, e0, best0⟩ := (fitOls_spec (y := D.y) (x := D.x) hw (hs hw) h0 hn (le_refl _)).1 hI
  have P : ∀ i, 0 < law.cdf (index D.k0 D.x b0 i) * (1 - law.cdf (index D.k0 D.x b0 i)) := fun i =>
    mul_pos (law.link.pos _) (by linarith [law.link.lt_one (index D.k0 D.x b0 i)])
  have v0 : ∀ i < D.n, 0 ≤ D.wt i / (law.cdf (index D.k0 D.x b0 i) * (1 - law.cdf (index D.k0 D.x b0 i))) := fun i hi =>
    div_nonneg (hw i hi) (P i).le
  have hsq : ∀ i < D.n, Real.sqrt (D.wt i / (priorP S law (dot D.k0 D.x b0 i) * (1 - priorP S law (dot D.k0 D.x b0 i)))) ^ 2 =
      D.wt i / (law.cdf (index D.k0 D.x b0 i) * (1 - law.cdf (index D.k0 D.x b0 i))) := fun i hi => by
    rw [priorP_eq hS, dot_eq, show (1 - law.cdf (index D.k0 D.x b0 i)) * (1 - (1 - law.cdf (index D.k0 D.x b0 i))) =
      law.cdf (index D.k0 D.x b0 i) * (1 - law.cdf (index D.k0 D.x b0 i)) by ring]
    exact Real.sq_sqrt (v0 i hi)
  obtain ⟨b, e1, best1⟩ := (fitOls_spec (y := D.y) (x := D.x) v0 hsq h0 hn (le_refl _)).1
    ((independent_congr fun i hi => by
      constructor
      · intro h; exact div_pos h (P i)
      · intro h; by_contra hc; rw [show D.wt i = 0 from le_antisymm (not_lt.1 hc) (hw i hi), zero_div] at h; exact lt_irrefl _ h).1 hI)
  refine ⟨b0, b, ?_, best0, best1⟩
  unfold priorBinary
  rw [e]
  show (_ >>= _) = _
  rw [e0]
  exact e1

omit hS in
/-- **C115.** Fewer observations than regressors, and regressors that depend on each other, are refused. -/
theorem C115_binary_refused (h0 : 0 < D.k0) (h : D.n < D.k0 ∨ ¬ Independent D.n D.k0 D.wt D.x) : priorBinary S law D = .throws := by
  obtain ⟨s, hs, e⟩ := firstOls_eq D D.k0
  unfold priorBinary
  rw [e]
  show (_ >>= _) = _
  by_cases hn : D.n < D.k0
  · rw [fitOls_few _ _ hn]; rfl
  · rw [(fitOls_spec (y := D.y) (x := D.x) hw (hs hw) h0 (not_lt.1 hn) (le_refl _)).2 (h.resolve_left hn)]; rfl

end

theorem chance_lt_one {law : Law} {J k0 : ℕ} {β : ℕ → ℝ} (hJ : 1 ≤ J) (xb : ℝ) (j : ℕ) : chance law.cdf J k0 β xb j < 1 := by
  unfold chance
  by_cases h1 : j = J
  · rw [if_pos h1, if_neg (by omega)]; linarith [law.link.pos (cut k0 β (j - 1) - xb)]
  · rw [if_neg h1]
    have := law.link.lt_one (cut k0 β j - xb)
    split_ifs
    · linarith
    · linarith [law.link.pos (cut k0 β (j - 1) - xb)]

section
variable {S : Fns} (hS : S.Good) (law : Law) {J : ℕ} (hJ : 2 ≤ J) (D : Data) (hc : ∀ i < D.n, D.cat i ≤ J)
  {counts : ℕ → ℝ} (hcount : ∀ j ≤ J, counts j = total D.n D.wt D.cat j) (hpos : ∀ j ≤ J, 0 < counts j)
include hS hJ hc hcount hpos

omit hS hJ in
theorem weights_sum : sumWeights D = ∑ j ∈ Finset.range (J + 1), counts j := by
  rw [sumWeights_eq, ← totals hc]
  exact Finset.sum_congr rfl fun j hj => (hcount j (by have := Finset.mem_range.1 hj; omega)).symm

/-- The coefficients `b` scaled, with cutoffs from the shares. -/
theorem start_shape {b β : ℕ → ℝ} (hb : b 0 ≠ 0) (h0 : 0 < D.k0)
    (hβ : ∀ j, β j = if j < D.k0 then b j / (-b 0 / (muLoop S law counts (sumWeights D) J).2 0)
      else (muLoop S law counts (sumWeights D) J).2 (j - D.k0 + 1) + -(muLoop S law counts (sumWeights D) J).2 0) :
    Increasing J D.k0 β ∧ Shares law.cdf D.n J D.k0 D.wt D.cat β ∧ ∀ j < D.k0, β j * b 0 = β 0 * b j := by
  have hW := weights_sum D hc hcount hpos
  have mu := (muLoop_spec S law counts (sumWeights D) J).2
  have hcut : ∀ j < J, cut D.k0 β j = quantileOf S law (share counts (sumWeights D) j) - quantileOf S law (share counts (sumWeights D) 0) := fun j hj => by
    unfold cut
    split_ifs with hj0
    · rw [hj0, sub_self]
    · rw [hβ, if_neg (by omega), show D.k0 + j - 1 - D.k0 + 1 = j by omega, mu j hj, mu 0 (by omega)]; ring
  obtain ⟨h1, h2⟩ := start_facts hpos hW hS law (by omega) hcut
  refine ⟨h1, fun j hj => ?_, fun j hj => ?_⟩
  · rw [h2 ?_ j hj, hcount j hj, sumWeights_eq]
    rw [hβ, if_pos h0, ← mu 0 (by omega)]
    by_cases hm : (muLoop S law counts (sumWeights D) J).2 0 = 0
    · rw [hm]; simp
    · field_simp
  · rw [hβ j, hβ 0, if_pos hj, if_pos h0]
    by_cases hm : (muLoop S law counts (sumWeights D) J).2 0 = 0
    · rw [hm]; simp
    · field_simp

/-- **C115.** The start for more choices: the coefficients are proportional to those of least squares weighted with the inverse variances that
follow from a first least squares, the cutoffs increase, and where the first regressor is 1 and the others are 0 the probabilities are the
shares of the choices in the sample. If the first coefficient of one of the regressions is zero, there is no start that is made of numbers. -/
theorem C115_ordered (hw : ∀ i < D.n, 0 ≤ D.wt i) (h0 : 0 < D.k0) (hn : D.k0 ≤ D.n) (hI : Independent D.n D.k0 D.wt D.x) :
    ∃ b, WeightedBest D.n D.k0 D.wt D.y D.x b ∧ (b 0 = 0 → priorOrdered S law J D counts = .ok none) ∧ (b 0 ≠ 0 → ∃ β1 g,
      (Increasing J D.k0 β1 ∧ Shares law.cdf D.n J D.k0 D.wt D.cat β1 ∧ ∀ j < D.k0, β1 j * b 0 = β1 0 * b j) ∧
      WeightedBest D.n D.k0 (fun i => D.wt i / (chance law.cdf J D.k0 β1 (index D.k0 D.x β1 i) (D.cat i) *
        (1 - chance law.cdf J D.k0 β1 (index D.k0 D.x β1 i) (D.cat i)))) D.y D.x g ∧
      (g 0 = 0 → priorOrdered S law J D counts = .ok none) ∧ (g 0 ≠ 0 → ∃ β, priorOrdered S law J D counts = .ok (some β) ∧
        Increasing J D.k0 β ∧ Shares law.cdf D.n J D.k0 D.wt D.cat β ∧ ∀ j < D.k0, β j * g 0 = β 0 * g j)) := by
  obtain ⟨s, hs, e⟩ := firstOls_eq D (D.k0 + J - 1)
  obtain ⟨b, e0, best0⟩ := (fitOls_spec (y := D.y) (x := D.x) hw (hs hw) h0 hn (k := D.k0 + J - 1) (by omega)).1 hI
  refine ⟨b, best0, fun hb => ?_, fun hb => ?_⟩
  · unfold priorOrdered
    dsimp only
    rw [e, e0]
    show (if b 0 = 0 then _ else _) = _
    rw [if_pos hb]; rfl
  · set mu := (muLoop S law counts (sumWeights D) J).2 with hmu
    set β1 : ℕ → ℝ := fun j => if j < D.k0 then b j / (-b 0 / mu 0) else mu (j - D.k0 + 1) + -mu 0 with hβ1
    have f1 := start_shape hS law hJ D hc hcount hpos hb h0 (β := β1) fun j => rfl
    have cpos : ∀ i < D.n, 0 < chance law.cdf J D.k0 β1 (index D.k0 D.x β1 i) (D.cat i) := fun i hi =>
      chance_pos law.link f1.1 (by omega) _ (hc i hi)
    have P : ∀ i < D.n, 0 < chance law.cdf J D.k0 β1 (index D.k0 D.x β1 i) (D.cat i) *
        (1 - chance law.cdf J D.k0 β1 (index D.k0 D.x β1 i) (D.cat i)) := fun i hi =>
      mul_pos (cpos i hi) (by linarith [chance_lt_one (law := law) (J := J) (k0 := D.k0) (β := β1) (by omega) (index D.k0 D.x β1 i) (D.cat i)])
    have v0 := fun i (hi : i < D.n) => div_nonneg (hw i hi) (P i hi).le
    have hsq : ∀ i < D.n, Real.sqrt (D.wt i / ((D.parts S law J β1 i).P * (1 - (D.parts S law J β1 i).P))) ^ 2 =
        D.wt i / (chance law.cdf J D.k0 β1 (index D.k0 D.x β1 i) (D.cat i) *
        (1 - chance law.cdf J D.k0 β1 (index D.k0 D.x β1 i) (D.cat i))) := fun i hi => by
      rw [parts_P hS law D β1 i hJ (hc i hi), chanceAt_eq]
      exact Real.sq_sqrt (v0 i hi)
    obtain ⟨g, e1, best1⟩ := (fitOls_spec (y := D.y) (x := D.x) v0 hsq h0 hn (k := D.k0 + J - 1) (by omega)).1
      ((independent_congr fun i hi => by
        constructor
        · intro h; exact div_pos h (P i hi)
        · intro h; by_contra hc; rw [show D.wt i = 0 from le_antisymm (not_lt.1 hc) (hw i hi), zero_div] at h; exact lt_irrefl _ h).1 hI)
    have step : priorOrdered S law J D counts = if g 0 = 0 then pure none else pure (some fun j => if j < D.k0 then g j / (-g 0 / mu 0) else β1 j) := by
      unfold priorOrdered
      dsimp only
      rw [e, e0]
      show (if b 0 = 0 then _ else _) = _
      rw [if_neg hb]
      show (fitOls D.n D.k0 (D.k0 + J - 1) _ _ >>= _) = _
      unfold scaled
      dsimp only
      rw [e1]
      rfl
    refine ⟨β1, g, f1, best1, fun hg => by rw [step, if_pos hg]; rfl, fun hg => ?_⟩
    refine ⟨_, by rw [step, if_neg hg]; rfl, start_shape hS law hJ D hc hcount hpos hg h0 fun j => ?_⟩
    by_cases hj : j < D.k0
    · simp only [hj, if_true]; rfl
    · simp only [hj, if_false]; rw [hβ1]; simp only [hj, if_false]; rfl

/-- **C115.** Whatever the regressions give: a start that is made of numbers has increasing cutoffs. -/
theorem C115_increasing {β : ℕ → ℝ} (h : priorOrdered S law J D counts = .ok (some β)) : Increasing J D.k0 β := by
  have hW := weights_sum D hc hcount hpos
  have mu := (muLoop_spec S law counts (sumWeights D) J).2
  unfold priorOrdered at h
  cases e : firstOls D (D.k0 + J - 1) with
  | ok b =>
    simp only [e, bind, Outcome.bind] at h
    split_ifs at h
    · cases h
    · revert h
      cases e1 : fitOls D.n D.k0 (D.k0 + J - 1) _ _ with
      | ok g =>
        intro h
        simp only [] at h
        split_ifs at h
        · cases h
        · obtain rfl := Option.some.inj (Outcome.ok.inj h)
          refine (start_facts hpos hW hS law (by omega) fun j hj => ?_).1
          unfold cut
          by_cases hj0 : j = 0
          · rw [if_pos hj0, hj0, sub_self]
          · rw [if_neg hj0]
            simp only [show ¬ (D.k0 + j - 1 < D.k0) by omega, if_false]
            rw [show D.k0 + j - 1 - D.k0 + 1 = j by omega, mu j hj, mu 0 (by omega)]; ring
      | throws => intro h; cases h
      | ub => intro h; cases h
      | diverges => intro h; cases h
  | throws => simp only [e, bind, Outcome.bind] at h; cases h
  | ub => simp only [e, bind, Outcome.bind] at h; cases h
  | diverges => simp only [e, bind, Outcome.bind] at h; cases h

end

/-! ## Examples and a violation -/

/-- Three observations with the choices 0, 1, 2 and one regressor with the values 1, 2, -1. -/
def exOrtho : Data := ⟨3, 1, fun i => i, fun i _ => if i = 0 then 1 else if i = 1 then 2 else -1, none⟩

theorem exOrtho_cat (i : ℕ) : exOrtho.cat i = i := by unfold Data.cat exOrtho; simp

theorem exOrtho_total {j : ℕ} (hj : j ≤ 2) : total 3 exOrtho.wt exOrtho.cat j = 1 := by
  unfold total
  have : (Finset.range 3).filter (fun i => exOrtho.cat i = j) = {j} := by
    ext i; simp only [Finset.mem_filter, Finset.mem_range, exOrtho_cat, Finset.mem_singleton]; omega
  rw [this]; simp [Data.wt, exOrtho]

theorem exOrtho_independent : Independent 3 1 exOrtho.wt exOrtho.x := fun b hb l hl => by
  have := hb 0 (by norm_num) (by simp [Data.wt, exOrtho])
  obtain rfl : l = 0 := by omega
  simpa [index, exOrtho] using this

/-- **C115, violated.** Data from which the model can be estimated - each choice is observed, and the regressor is not zero - but the regression
of the choices on the regressor has the coefficient zero, by which the code divides: there is no start. -/
theorem C115_start_violated {S : Fns} (hS : S.Good) (law : Law) :
    (∀ i < 3, exOrtho.cat i ≤ 2) ∧ (∀ j ≤ 2, total 3 exOrtho.wt exOrtho.cat j = 1) ∧ Independent 3 1 exOrtho.wt exOrtho.x ∧
    priorOrdered S law 2 exOrtho (total 3 exOrtho.wt exOrtho.cat) = .ok none := by
  refine ⟨fun i hi => by rw [exOrtho_cat]; omega, fun j hj => exOrtho_total hj, exOrtho_independent, ?_⟩
  obtain ⟨b, hb, h, -⟩ := C115_ordered hS law (le_refl 2) exOrtho (fun i hi => by rw [exOrtho_cat]; have : i < 3 := hi; omega)
    (counts := total 3 exOrtho.wt exOrtho.cat) (fun j _ => rfl) (fun j hj => by rw [exOrtho_total hj]; norm_num)
    (fun i _ => by simp [Data.wt, exOrtho]) (by decide) (by decide) exOrtho_independent
  refine h ?_
  have := (hb fun _ => 0).1
  simp only [exOrtho, index, Data.wt, Finset.sum_range_succ, Finset.sum_range_zero] at this
  norm_num at this
  nlinarith [sq_nonneg (b 0)]

/-- The hypotheses of `C115_binary` are met by two observations and a constant. -/
example {S : Fns} (hS : S.Good) (law : Law) : ∃ b, priorBinary S law exTwo = .ok b := by
  obtain ⟨_, b, h, _⟩ := C115_binary hS law exTwo (fun i _ => by simp [Data.wt, exTwo]) (by decide) (by decide) fun b hb l hl => by
    have := hb 0 (by decide) (by simp [Data.wt, exTwo])
    obtain rfl : l = 0 := by simp [exTwo] at hl; omega
    simpa [index, exTwo] using this
  exact ⟨b, h⟩

end Dc
end LDT
