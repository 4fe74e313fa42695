import Verif.Props.ChoicePrior
/-! # C114: estimation of models of discrete choice -/
namespace LDT
namespace Dc
open Op Di

/-! ## What follows from a definite Hessian -/

theorem le_foldl_max (l : List ℝ) (a : ℝ) : a ≤ l.foldl max a ∧ ∀ b ∈ l, b ≤ l.foldl max a := by
  induction l generalizing a with
  | nil => exact ⟨le_refl _, by simp⟩
  | cons c l ih =>
    obtain ⟨h1, h2⟩ := ih (max a c)
    refine ⟨le_trans (le_max_left _ _) h1, fun b hb => ?_⟩
    rcases List.mem_cons.1 hb with rfl | hb
    · exact le_trans (le_max_right _ _) h1
    · exact h2 b hb

theorem col_le_norm1 {k : ℕ} (H : Matrix (Fin k) (Fin k) ℝ) (b : Fin k) : ∑ a, |H a b| ≤ norm1 H :=
  (le_foldl_max _ 0).2 _ (List.mem_ofFn.2 ⟨b, rfl⟩)

theorem norm1_nonneg {k : ℕ} (H : Matrix (Fin k) (Fin k) ℝ) : 0 ≤ norm1 H := (le_foldl_max _ 0).1

theorem one_le_condition {k : ℕ} (pk : 0 < k) {H V : Matrix (Fin k) (Fin k) ℝ} (h : H * V = 1) : 1 ≤ norm1 H * norm1 V := by
  have e : (∑ c, H ⟨0, pk⟩ c * V c ⟨0, pk⟩) = 1 := by
    have := congrFun (congrFun h ⟨0, pk⟩) ⟨0, pk⟩
    rw [Matrix.mul_apply, Matrix.one_apply_eq] at this; exact this
  calc (1 : ℝ) = |∑ c, H ⟨0, pk⟩ c * V c ⟨0, pk⟩| := by rw [e, abs_one]
    _ ≤ ∑ c, |H ⟨0, pk⟩ c * V c ⟨0, pk⟩| := Finset.abs_sum_le_sum_abs _ _
    _ ≤ ∑ c, norm1 H * |V c ⟨0, pk⟩| := Finset.sum_le_sum fun c _ => by
        rw [abs_mul]
        refine mul_le_mul_of_nonneg_right ?_ (abs_nonneg _)
        exact le_trans (Finset.single_le_sum (f := fun a => |H a c|) (fun a _ => abs_nonneg _) (Finset.mem_univ _)) (col_le_norm1 H c)
    _ = norm1 H * ∑ c, |V c ⟨0, pk⟩| := by rw [Finset.mul_sum]
    _ ≤ norm1 H * norm1 V := mul_le_mul_of_nonneg_left (col_le_norm1 V _) (norm1_nonneg H)

theorem posDef_diag {k : ℕ} {V : Matrix (Fin k) (Fin k) ℝ} (h : Ls.PosDef V) (j : Fin k) : 0 < V j j := by
  have := h.2 (Pi.single j 1) (by intro e; have := congrFun e j; simp at this)
  unfold Ls.weighted at this
  simpa [Pi.single_apply] using this

/-- The hypotheses of a test of a coefficient: standard error, the ratio, and the probability of a ratio that is as far from zero. -/
def Tested {k : ℕ} (beta : Fin k → ℝ) (var : Matrix (Fin k) (Fin k) ℝ) (std z prob : Option (Fin k → Dbl ℝ)) : Prop :=
  ∃ s t p : Fin k → ℝ, std = some (fun j => .num (s j)) ∧ z = some (fun j => .num (t j)) ∧ prob = some (fun j => .num (p j)) ∧
    ∀ j, 0 < s j ∧ s j ^ 2 = var j j ∧ t j * s j = beta j ∧ TwoSided (t j) (p j) ∧ 0 < p j ∧ p j ≤ 1

theorem details_spec {k : ℕ} {S : Fns} (hS : S.Good) (beta : Fin k → ℝ) {V : Matrix (Fin k) (Fin k) ℝ} (hV : Ls.PosDef V) :
    Tested beta V (some (details S beta V).1) (some (details S beta V).2.1) (some (details S beta V).2.2) := by
  have pos := posDef_diag hV
  have e1 : ∀ j, sqrtD (V j j) = .num (Real.sqrt (V j j)) := fun j => by unfold sqrtD; rw [if_neg (not_lt.2 (pos j).le)]
  have sp : ∀ j, 0 < Real.sqrt (V j j) := fun j => Real.sqrt_pos.2 (pos j)
  have e2 : ∀ j, (exact : Ops ℝ).div (.num (beta j)) (.num (Real.sqrt (V j j))) = .num (beta j / Real.sqrt (V j j)) := fun j => by
    simp [exact, (sp j).ne']
  refine ⟨fun j => Real.sqrt (V j j), fun j => beta j / Real.sqrt (V j j), fun j => 2 * (1 - normalCdf S |beta j / Real.sqrt (V j j)|), ?_, ?_, ?_,
    fun j => ⟨sp j, Real.sq_sqrt (pos j).le, div_mul_cancel₀ _ (sp j).ne', ?_, ?_, ?_⟩⟩
  · congr 1; funext j; exact e1 j
  · congr 1; funext j
    show (exact : Ops ℝ).div (.num (beta j)) (sqrtD (V j j)) = _
    rw [e1, e2]
  · congr 1; funext j
    show pValue S ((exact : Ops ℝ).div (.num (beta j)) (sqrtD (V j j))) = _
    rw [e1, e2]; rfl
  · unfold TwoSided
    dsimp only
    rw [normalCdf_eq hS]
    have := Law.probit.link.symm |beta j / Real.sqrt (V j j)|
    change gaussian (-_) = 1 - gaussian _ at this
    rw [this]; ring
  · dsimp only
    rw [normalCdf_eq hS]
    have := Law.probit.link.lt_one |beta j / Real.sqrt (V j j)|
    change gaussian _ < 1 at this
    linarith
  · dsimp only
    rw [normalCdf_eq hS]
    have h0 := Law.probit.link.symm 0
    have h1 := Law.probit.link.strictMono.monotone (abs_nonneg (beta j / Real.sqrt (V j j)))
    change gaussian (-0) = 1 - gaussian 0 at h0
    change gaussian 0 ≤ gaussian _ at h1
    rw [neg_zero] at h0
    linarith

theorem posDef_mat {k : ℕ} {h : ℕ → ℕ → ℝ} (hs : ∀ l < k, ∀ m < k, h l m = h m l)
    (hp : ∀ d : ℕ → ℝ, (∃ l < k, d l ≠ 0) → 0 < ∑ l ∈ Finset.range k, ∑ m ∈ Finset.range k, d l * h l m * d m) : Ls.PosDef (mat k h) := by
  refine ⟨fun i j => hs i i.2 j j.2, fun v hv => ?_⟩
  obtain ⟨j, hj⟩ := Function.ne_iff.1 hv
  have := hp (ext v) ⟨j, j.2, by rw [ext_lt]; exact hj⟩
  rw [← mat_sum] at this
  unfold Ls.weighted
  simpa [ext_lt] using this

theorem invert_spec {k : ℕ} (lu : Matrix (Fin k) (Fin k) ℝ → Matrix (Fin k) (Fin k) ℝ) {H : Matrix (Fin k) (Fin k) ℝ} (h : Ls.PosDef H) :
    H * invert lu H = 1 ∧ invert lu H * H = 1 ∧ Ls.PosDef (invert lu H) := by
  have e : invert lu H = H⁻¹ := by unfold invert; rw [if_pos h.det_ne]
  rw [e]
  have u := isUnit_iff_ne_zero.2 h.det_ne
  exact ⟨Matrix.mul_nonsing_inv _ u, Matrix.nonsing_inv_mul _ u, h.inv⟩

/-! ## Two choices -/

section
variable {S : Fns} (hS : S.Good) (law : Law) (D : Data) (hy : ∀ i < D.n, D.y i = 0 ∨ D.y i = 1) {E : Env D.k0} {dd ols : Bool}
  {start : Option (Fin D.k0 → ℝ)} {r : Est D.k0}

include hy in
theorem countBinary_eq {c : ℕ → ℝ} (h : countBinary D = .ok c) : c 0 = total D.n D.wt D.cat 0 ∧ c 1 = total D.n D.wt D.cat 1 := by
  unfold countBinary at h
  cases hw : D.w with
  | some w =>
    simp only [hw] at h
    exact ⟨counts_total (J := 1) h 0, counts_total (J := 1) h 1⟩
  | none =>
    simp only [hw] at h
    obtain rfl := Outcome.ok.inj h
    have w1 : ∀ i, D.wt i = 1 := fun i => by unfold Data.wt; rw [hw]
    have s1 : ∑ i ∈ Finset.range D.n, D.y i = total D.n D.wt D.cat 1 := by
      unfold total
      rw [Finset.sum_filter]
      refine Finset.sum_congr rfl fun i hi => ?_
      rcases cat_binary (hy i (Finset.mem_range.1 hi)) with ⟨a, b⟩ | ⟨a, b⟩ <;> rw [a, b, w1] <;> simp
    have s0 : (D.n : ℝ) - ∑ i ∈ Finset.range D.n, D.y i = total D.n D.wt D.cat 0 := by
      unfold total
      rw [Finset.sum_filter]
      have : (D.n : ℝ) = ∑ i ∈ Finset.range D.n, (1 : ℝ) := by simp
      rw [this, ← Finset.sum_sub_distrib]
      refine Finset.sum_congr rfl fun i hi => ?_
      rcases cat_binary (hy i (Finset.mem_range.1 hi)) with ⟨a, b⟩ | ⟨a, b⟩ <;> rw [a, b, w1] <;> simp
    rw [foldl_sum, zero_add]
    exact ⟨by simpa using s0, by simpa using s1⟩

include hy in
theorem countBinary_ok : ∃ c, countBinary D = .ok c := by
  unfold countBinary
  cases hw : D.w with
  | some w =>
    refine countLoop_ok (J := 1) _ _ fun i hi => ?_
    rcases cat_binary (hy i (List.mem_range.1 hi)) with ⟨a, b⟩ | ⟨a, b⟩ <;> rw [a, b] <;> norm_num
  | none => exact ⟨_, rfl⟩

theorem binary_ended (hl : E.opts.useLineSearch = true) (h : estimateBinary S law D E dd ols start = .ok r) :
    1 ≤ D.n ∧ 1 ≤ D.k0 ∧ ∃ counts b, countBinary D = .ok counts ∧ counts 0 ≠ 0 ∧ counts 1 ≠ 0 ∧
      Ended S E .binary dd D.n counts (fun β => .num (funBinary S law D β)) (gfunBinary S law D) (hfunBinary S law D) b r ∧
      ((ols = false ∧ start = some b) ∨ ((ols = true ∨ start = none) ∧ ∃ p, priorBinary S law D = .ok p ∧ b = vec D.k0 p)) := by
  unfold estimateBinary at h
  split_ifs at h with h1
  push Not at h1
  refine ⟨h1.1, h1.2, ?_⟩
  cases hc : countBinary D with
  | ok counts =>
    rw [hc] at h
    change (if counts 0 = 0 ∨ counts 1 = 0 then _ else _) = _ at h
    split_ifs at h with h2
    push Not at h2
    rcases fromStart_spec h with ⟨b, hf, hb⟩ | ⟨_, hp⟩
    · refine ⟨counts, b, rfl, h2.1, h2.2, finish_spec hl hf, ?_⟩
      rcases hb with hb | ⟨hb, p, hp, e⟩
      · exact Or.inl hb
      · refine Or.inr ⟨hb, p, ?_, e⟩
        cases hq : priorBinary S law D with
        | ok q =>
          rw [hq] at hp
          obtain rfl := Option.some.inj (Outcome.ok.inj hp)
          rfl
        | throws => rw [hq] at hp; cases hp
        | ub => rw [hq] at hp; cases hp
        | diverges => rw [hq] at hp; cases hp
    · cases hq : priorBinary S law D with
      | ok q => rw [hq] at hp; cases (Outcome.ok.inj hp)
      | throws => rw [hq] at hp; cases hp
      | ub => rw [hq] at hp; cases hp
      | diverges => rw [hq] at hp; cases hp
  | throws => rw [hc] at h; cases h
  | ub => rw [hc] at h; cases h
  | diverges => rw [hc] at h; cases h

include hy in
/-- **C114**, two choices: no observations, no regressors, and a choice that has no weight are refused. -/
theorem C114_binary_refused (h : D.n = 0 ∨ D.k0 = 0 ∨ total D.n D.wt D.cat 0 = 0 ∨ total D.n D.wt D.cat 1 = 0) :
    estimateBinary S law D E dd ols start = .throws := by
  unfold estimateBinary
  by_cases h1 : D.n < 1 ∨ D.k0 < 1
  · rw [if_pos h1]
  · rw [if_neg h1]
    obtain ⟨c, hc⟩ := countBinary_ok D hy
    obtain ⟨c0, c1⟩ := countBinary_eq D hy hc
    rw [hc]
    change (if c 0 = 0 ∨ c 1 = 0 then _ else _) = _
    rw [if_pos]
    rw [c0, c1]
    push Not at h1
    rcases h with h | h | h
    · omega
    · omega
    · exact h

section
variable (hl : E.opts.useLineSearch = true) (h : estimateBinary S law D E dd ols start = .ok r)
include hy hl h

/-- **C114**, two choices: `Counts` are the sums of the weights, and `NumObs` the number of observations. -/
theorem C114_binary_counts : r.counts 0 = total D.n D.wt D.cat 0 ∧ r.counts 1 = total D.n D.wt D.cat 1 ∧ r.numObs = D.n := by
  obtain ⟨_, _, c, b, hc, _, _, e, _⟩ := binary_ended law D hl h
  rw [e.counts, e.numObs]
  obtain ⟨a, b⟩ := countBinary_eq D hy hc
  exact ⟨a, b, rfl⟩

include hS in
/-- **C114**, two choices: `LogL` is the log-likelihood at the estimates, not below that at the start; `Aic` and `Sic` follow from it. -/
theorem C114_binary_likelihood : ∃ L, L = logLik law.cdf D.n 1 D.k0 D.wt D.cat D.x (ext r.beta) ∧ r.logL = .num L ∧
    r.aic = .num (2 * (D.k0 : ℝ) - 2 * L) ∧ r.sic = .num ((D.k0 : ℝ) * Real.log D.n - 2 * L) ∧
    (∀ b, ols = false → start = some b → logLik law.cdf D.n 1 D.k0 D.wt D.cat D.x (ext b) ≤ L) ∧
    ((ols = true ∨ start = none) → ∃ p, priorBinary S law D = .ok p ∧ logLik law.cdf D.n 1 D.k0 D.wt D.cat D.x (ext (vec D.k0 p)) ≤ L) := by
  obtain ⟨_, _, c, b, hc, _, _, e, hb⟩ := binary_ended law D hl h
  have el : r.logL = .num (logLik law.cdf D.n 1 D.k0 D.wt D.cat D.x (ext r.beta)) := by
    rw [e.logL, C112_likelihood hS law D hy]; simp [negD]
  have low : logLik law.cdf D.n 1 D.k0 D.wt D.cat D.x (ext b) ≤ logLik law.cdf D.n 1 D.k0 D.wt D.cat D.x (ext r.beta) := by
    have := e.better
    rw [C112_likelihood hS law D hy, C112_likelihood hS law D hy] at this
    rcases le_num this with h | ⟨c, h, hc⟩
    · cases h
    · obtain rfl := Dbl.num.inj h
      linarith
  refine ⟨_, rfl, el, ?_, ?_, fun b' ho hs => ?_, fun ho => ?_⟩
  · rw [e.aic, el]; rfl
  · rw [e.sic, el, mul_comm (D.k0 : ℝ)]; rfl
  · rcases hb with ⟨_, hb⟩ | ⟨hb, _⟩
    · rw [hs] at hb; rw [Option.some.inj hb]; exact low
    · rw [ho, hs] at hb; simp at hb
  · rcases hb with ⟨h1, h2⟩ | ⟨_, p, hp, rfl⟩
    · rw [h1, h2] at ho; simp at ho
    · exact ⟨p, hp, low⟩

include hS in
/-- **C114**, two choices: where the search ended with the gradient zero, the estimates have the largest likelihood, and no others have it if
the regressors are independent. -/
theorem C114_binary_maximum (hw : ∀ i < D.n, 0 ≤ D.wt i) (hg : r.gradient = 0) (β' : ℕ → ℝ) :
    logLik law.cdf D.n 1 D.k0 D.wt D.cat D.x β' ≤ logLik law.cdf D.n 1 D.k0 D.wt D.cat D.x (ext r.beta) ∧
      (Independent D.n D.k0 D.wt D.x → (∃ l : Fin D.k0, β' l ≠ r.beta l) →
        logLik law.cdf D.n 1 D.k0 D.wt D.cat D.x β' < logLik law.cdf D.n 1 D.k0 D.wt D.cat D.x (ext r.beta)) := by
  obtain ⟨_, _, c, b, hc, _, _, e, hb⟩ := binary_ended law D hl h
  rw [e.gradient] at hg
  obtain ⟨h1, h2⟩ := C112_maximum hS law D hy hw (β := ext r.beta) (fun l hl => congrFun hg ⟨l, hl⟩) β'
  exact ⟨h1, fun hI ⟨l, hl⟩ => h2 hI ⟨l, l.2, by rwa [ext_lt]⟩⟩

include hS in
/-- **C114**, two choices: with independent regressors `BetaVar` is the inverse of the matrix of the second derivatives of minus the
log-likelihood at the estimates, it is positive definite, the condition number is at least 1, and the tests follow from it. -/
theorem C114_binary_variance (hw : ∀ i < D.n, 0 ≤ D.wt i) (hI : Independent D.n D.k0 D.wt D.x) :
    (∃ H : Matrix (Fin D.k0) (Fin D.k0) ℝ, Information law.cdf D.n 1 D.k0 D.wt D.cat D.x (ext r.beta) H ∧ H * r.betaVar = 1 ∧
      r.betaVar * H = 1) ∧ Ls.PosDef r.betaVar ∧ (∃ c, r.condition = some c ∧ 1 ≤ c) ∧
    (dd = true → Tested r.beta r.betaVar r.std r.z r.prob) := by
  obtain ⟨_, hk, c, b, hc, _, _, e, hb⟩ := binary_ended law D hl h
  have def' := C112_definite hS law D hy hw (ext r.beta)
  have pd : Ls.PosDef (mat D.k0 (hfunBinary S law D (ext r.beta))) := posDef_mat (def' 0).1 fun d hd => (def' d).2.2 hI hd
  obtain ⟨i1, i2, i3⟩ := invert_spec E.lu pd
  rw [← e.betaVar] at i1 i2 i3
  refine ⟨⟨_, ⟨pd.1, fun d => ?_⟩, i1, i2⟩, i3, ⟨_, by rw [e.condition]; rfl, one_le_condition hk i1⟩, fun hd => ?_⟩
  · have hp : ∀ t, ∀ i < D.n, 0 < chanceAt law.cdf 1 D.k0 D.x D.cat i (move (ext r.beta) d t) := fun t => pos_binary law D hy _
    refine ⟨fun t => grad law.cdf law.pdf 1 D.k0 D.n D.wt D.cat D.x (move (ext r.beta) d t) d, Filter.Eventually.of_forall fun t =>
      logLik_deriv (w := D.wt) law.link (ext r.beta) d t (hp t), ?_⟩
    have := grad_deriv (w := D.wt) law.link (ext r.beta) d d 0 (hp 0)
    refine this.congr_deriv ?_
    rw [move_zero, mat_sum]
    exact (quad_sum (k := D.k0) (hfunBinary S law D (ext r.beta)) (hess law.cdf law.pdf law.slope 1 D.k0 D.n D.wt D.cat D.x (ext r.beta))
      (hess_comm _) (fun d e => by
        have := hess_sum (G := law.cdf) (g := law.pdf) (s := law.slope) (w := D.wt) (x := D.x) (k0 := D.k0) (cat_le D hy) (ext r.beta) d e
        rwa [Nat.add_sub_cancel] at this)
      (fun l hl m hm => hfunBinary_eq hS law D hy (ext r.beta) l m hl hm) d).symm
  · rw [e.std, e.z, e.prob, hd]
    exact details_spec hS r.beta i3

end
end

/-! ## More choices -/

theorem foldl_add_pinf (f : ℕ → Dbl ℝ) (l : List ℕ) (hf : ∀ i ∈ l, f i ≠ .pinf) (a : Dbl ℝ) (ha : a ≠ .pinf) :
    l.foldl (fun s i => (exact : Ops ℝ).add s (f i)) a ≠ .pinf ∧
      ∀ c, l.foldl (fun s i => (exact : Ops ℝ).add s (f i)) a = .num c → (∃ a', a = .num a') ∧ ∀ i ∈ l, ∃ c, f i = .num c := by
  induction l generalizing a with
  | nil => exact ⟨ha, fun c hc => ⟨⟨c, hc⟩, by simp⟩⟩
  | cons i l ih =>
    have hi := hf i (by simp)
    have hadd : (exact : Ops ℝ).add a (f i) ≠ .pinf ∧ ((∃ c, (exact : Ops ℝ).add a (f i) = .num c) → (∃ a', a = .num a') ∧ ∃ c, f i = .num c) := by
      generalize f i = v at hi
      cases a <;> cases v <;> simp_all [exact]
    obtain ⟨h1, h2⟩ := ih (fun j hj => hf j (by simp [hj])) _ hadd.1
    refine ⟨h1, fun c hc => ?_⟩
    obtain ⟨p, q⟩ := h2 c hc
    obtain ⟨p1, p2⟩ := hadd.2 p
    refine ⟨p1, fun j hj => ?_⟩
    rcases List.mem_cons.1 hj with rfl | hj
    · exact p2
    · exact q j hj

section
variable {S : Fns} (hS : S.Good) (law : Law) {J : ℕ} (hJ : 2 ≤ J) (D : Data)

include hS hJ in
/-- Where the function is not above a number, each observation has a positive probability. -/
theorem ordered_chances (hc : ∀ i < D.n, D.cat i ≤ J) (hw : ∀ i < D.n, 0 ≤ D.wt i) {β : ℕ → ℝ} {a : ℝ}
    (h : NotWorse (funOrdered S law J D β) (.num a)) : ∀ i < D.n, 0 < chance law.cdf J D.k0 β (index D.k0 D.x β i) (D.cat i) := by
  have term : ∀ i < D.n, (exact : Ops ℝ).mul (.num (D.wt i)) (logD (D.parts S law J β i).P) ≠ .pinf ∧
      ((∃ c, (exact : Ops ℝ).mul (.num (D.wt i)) (logD (D.parts S law J β i).P) = .num c) → 0 < (D.parts S law J β i).P) := fun i hi => by
    have := hw i hi
    unfold logD
    split_ifs with h1 h2
    · simp [exact]
    · simp only [exact, not_lt.2 this, if_false]
      split_ifs <;> simp
    · exact ⟨by simp [exact], fun _ => lt_of_le_of_ne (not_lt.1 h1) (Ne.symm h2)⟩
  obtain ⟨f1, f2⟩ := foldl_add_pinf (fun i => (exact : Ops ℝ).mul (.num (D.wt i)) (logD (D.parts S law J β i).P)) (List.range D.n)
    (fun i hi => (term i (List.mem_range.1 hi)).1) (.num 0) (by simp)
  intro i hi
  rw [← chanceAt_eq, ← parts_P hS law D β i hJ (hc i hi)]
  refine (term i hi).2 ?_
  unfold funOrdered at h
  rcases le_num h with h | ⟨c, h, _⟩
  · generalize hX : (List.range D.n).foldl _ _ = X at h f1
    cases X <;> simp_all [negD]
  · generalize hX : (List.range D.n).foldl _ _ = X at h
    cases X with
    | num c => exact (f2 c hX).2 i (List.mem_range.2 hi)
    | pinf => simp [negD] at h
    | ninf => simp [negD] at h
    | nan => simp [negD] at h

theorem present {J : ℕ} {D : Data} {j : ℕ} (hw : ∀ i < D.n, 0 ≤ D.wt i) (h : 0 < total D.n D.wt D.cat j) : ∃ i < D.n, 0 < D.wt i ∧ D.cat i = j := by
  by_contra hn
  push Not at hn
  refine absurd h (not_lt.2 ?_)
  unfold total
  refine Finset.sum_nonpos fun i hi => ?_
  obtain ⟨h1, h2⟩ := Finset.mem_filter.1 hi
  by_contra hp
  exact hn i (Finset.mem_range.1 h1) (not_le.1 hp) h2

theorem increasing_of_chances {k0 : ℕ} {β : ℕ → ℝ} (hp : ∀ i < D.n, 0 < chance law.cdf J k0 β (index D.k0 D.x β i) (D.cat i))
    (hm : ∀ j, 1 ≤ j → j < J → ∃ i < D.n, 0 < D.wt i ∧ D.cat i = j) : Increasing J k0 β := fun j hj => by
  obtain ⟨i, hi, _, hci⟩ := hm (j + 1) (by omega) hj
  have := hp i hi
  rw [hci] at this
  unfold chance at this
  rw [if_neg (by omega), if_neg (by omega), Nat.add_sub_cancel, sub_pos, law.link.strictMono.lt_iff_lt] at this
  linarith

variable {E : Env (D.k0 + J - 1)} {dd ols : Bool} {start : Option (Fin (D.k0 + J - 1) → ℝ)} {r : Est (D.k0 + J - 1)}

theorem ordered_ended (hl : E.opts.useLineSearch = true) (h : estimateOrdered S law J D E dd ols start = .ok r) (hE : E.other ≠ .ok r) :
    1 ≤ D.n ∧ 1 ≤ D.k0 + J - 1 ∧ ∃ counts b, countLoop J D (List.range D.n) (fun _ => 0) = .ok counts ∧ (∀ j ≤ J, 1 / 10 ^ 16 ≤ counts j) ∧
      Ended S E .ordered dd D.n counts (funOrdered S law J D) (gfunOrdered S law J D) (hfunOrdered S law J D) b r ∧
      ((ols = false ∧ start = some b) ∨ ((ols = true ∨ start = none) ∧ ∃ p, priorOrdered S law J D counts = .ok (some p) ∧ b = vec (D.k0 + J - 1) p)) := by
  unfold estimateOrdered at h
  split_ifs at h with h1
  push Not at h1
  refine ⟨h1.1, h1.2, ?_⟩
  cases hc : countLoop J D (List.range D.n) (fun _ => 0) with
  | ok counts =>
    rw [hc] at h
    simp only [bind, Outcome.bind] at h
    split_ifs at h with h2
    unfold someSmall at h2
    push Not at h2
    rcases fromStart_spec h with ⟨b, hf, hb⟩ | ⟨ho, _⟩
    · exact ⟨counts, b, rfl, h2, finish_spec hl hf, hb⟩
    · exact absurd ho hE
  | throws => rw [hc] at h; cases h
  | ub => rw [hc] at h; cases h
  | diverges => rw [hc] at h; cases h

theorem increasing_ext {k0 : ℕ} {β : ℕ → ℝ} (h : Increasing J k0 β) : Increasing J k0 (ext (vec (k0 + J - 1) β)) := fun j hj => by
  have := h j hj
  have e : ∀ a < J, cut k0 (ext (vec (k0 + J - 1) β)) a = cut k0 β a := fun a ha => by
    unfold cut
    split_ifs with h0
    · rfl
    · exact ext_vec β (by omega)
  rw [e j (by omega), e (j + 1) hj]; exact this

/-- **C114**, violated for more choices: a choice that is not one of `0, …, NumCutoff` is not refused, it is counted outside of `Counts`. -/
theorem C114_ordered_outside_violated (hn : 1 ≤ D.n) (hk : 1 ≤ D.k0 + J - 1) (h : ∃ i < D.n, D.y i ≤ -1 ∨ J + 1 ≤ D.y i) :
    estimateOrdered S law J D E dd ols start = .ub := by
  unfold estimateOrdered
  rw [if_neg (by omega)]
  obtain ⟨i, hi, hy⟩ := h
  have hub : countLoop J D (List.range D.n) (fun _ => 0) = .ub := countLoop_ub _ _ ⟨i, List.mem_range.2 hi, fun ⟨h1, h2⟩ => by
    rcases hy with hy | hy
    · linarith
    · unfold Data.cat at h2
      have : (J + 1 : ℕ) ≤ ⌊D.y i⌋₊ := Nat.le_floor (by push_cast; exact hy)
      omega⟩
  rw [hub]; rfl

/-- **C114**, more choices: no observations, nothing to estimate, and a choice that has (nearly) no weight are refused. -/
theorem C114_ordered_refused (hr : ∀ i < D.n, -1 < D.y i ∧ D.cat i ≤ J)
    (h : D.n = 0 ∨ D.k0 + J - 1 = 0 ∨ ∃ j ≤ J, total D.n D.wt D.cat j < 1 / 10 ^ 16) : estimateOrdered S law J D E dd ols start = .throws := by
  unfold estimateOrdered
  by_cases h1 : D.n < 1 ∨ D.k0 + J - 1 < 1
  · rw [if_pos h1]
  · rw [if_neg h1]
    obtain ⟨c, hc⟩ := countLoop_ok (J := J) (D := D) (List.range D.n) (fun _ => 0) fun i hi => hr i (List.mem_range.1 hi)
    rw [hc]
    simp only [bind, Outcome.bind]
    rw [if_pos]
    push Not at h1
    rcases h with h | h | ⟨j, hj, h⟩
    · omega
    · omega
    · exact ⟨j, hj, by rw [counts_total hc]; exact h⟩

section
variable (hl : E.opts.useLineSearch = true) (h : estimateOrdered S law J D E dd ols start = .ok r) (hE : E.other ≠ .ok r)
include hl h hE

/-- **C114**, more choices: `Counts` are the sums of the weights, none of them is zero, and `NumObs` is the number of observations. -/
theorem C114_ordered_counts : (∀ i < D.n, -1 < D.y i ∧ D.cat i ≤ J) ∧
    (∀ j ≤ J, r.counts j = total D.n D.wt D.cat j ∧ 0 < r.counts j) ∧ r.numObs = D.n := by
  obtain ⟨_, _, c, b, hc, hp, e, _⟩ := ordered_ended law D hl h hE
  rw [e.counts, e.numObs]
  exact ⟨fun i hi => (countLoop_spec _ hc).1 i (List.mem_range.2 hi), fun j hj => ⟨counts_total hc j, lt_of_lt_of_le (by norm_num) (hp j hj)⟩, rfl⟩

variable (hw : ∀ i < D.n, 0 ≤ D.wt i) (hs : ∀ b, ols = false → start = some b → Increasing J D.k0 (ext b))
include hS hJ hw hs

theorem ordered_start : ∃ counts b, Ended S E .ordered dd D.n counts (funOrdered S law J D) (gfunOrdered S law J D) (hfunOrdered S law J D) b r ∧
    Increasing J D.k0 (ext b) ∧ Increasing J D.k0 (ext r.beta) ∧
    ((ols = false ∧ start = some b) ∨ ((ols = true ∨ start = none) ∧ ∃ p, priorOrdered S law J D counts = .ok (some p) ∧ b = vec (D.k0 + J - 1) p)) := by
  obtain ⟨hr, hcc, _⟩ := C114_ordered_counts law D hl h hE
  have hc : ∀ i < D.n, D.cat i ≤ J := fun i hi => (hr i hi).2
  obtain ⟨_, _, c, b, hcount, hp, e, hb⟩ := ordered_ended law D hl h hE
  have hpos : ∀ j ≤ J, 0 < c j := fun j hj => lt_of_lt_of_le (by norm_num) (hp j hj)
  have hib : Increasing J D.k0 (ext b) := by
    rcases hb with ⟨h1, h2⟩ | ⟨_, p, hp, rfl⟩
    · exact hs b h1 h2
    · exact increasing_ext (C115_increasing hS law hJ D hc (fun j _ => counts_total hcount j) hpos hp)
  have better := e.better
  rw [C113_likelihood hS law hJ D hc (fun i hi => chance_pos law.link hib (by omega) _ (hc i hi)) (β := ext b)] at better
  have hp' := ordered_chances hS law hJ D hc hw better
  refine ⟨c, b, e, hib, increasing_of_chances law D hp' fun j h1 h2 => present (J := J) hw ?_, hb⟩
  rw [← counts_total hcount]; exact hpos j (by omega)

/-- **C114**, more choices: the estimated cutoffs increase. -/
theorem C114_ordered_cutoffs : Increasing J D.k0 (ext r.beta) := by
  obtain ⟨_, _, _, _, h, _⟩ := ordered_start hS law hJ D hl h hE hw hs
  exact h

/-- **C114**, more choices: `LogL` is the log-likelihood at the estimates, not below that at the start; `Aic` and `Sic` follow from it. -/
theorem C114_ordered_likelihood : ∃ L, L = logLik law.cdf D.n J D.k0 D.wt D.cat D.x (ext r.beta) ∧ r.logL = .num L ∧
    r.aic = .num (2 * ((D.k0 + J - 1 : ℕ) : ℝ) - 2 * L) ∧ r.sic = .num (((D.k0 + J - 1 : ℕ) : ℝ) * Real.log D.n - 2 * L) ∧
    (∀ b, ols = false → start = some b → logLik law.cdf D.n J D.k0 D.wt D.cat D.x (ext b) ≤ L) ∧
    ((ols = true ∨ start = none) → ∃ p, priorOrdered S law J D r.counts = .ok (some p) ∧
      logLik law.cdf D.n J D.k0 D.wt D.cat D.x (ext (vec (D.k0 + J - 1) p)) ≤ L) := by
  obtain ⟨hr, _, _⟩ := C114_ordered_counts law D hl h hE
  have hc : ∀ i < D.n, D.cat i ≤ J := fun i hi => (hr i hi).2
  obtain ⟨c, b, e, hib, hir, hb⟩ := ordered_start hS law hJ D hl h hE hw hs
  have lik : ∀ β, Increasing J D.k0 β → funOrdered S law J D β = .num (-logLik law.cdf D.n J D.k0 D.wt D.cat D.x β) := fun β hβ =>
    C113_likelihood hS law hJ D hc fun i hi => chance_pos law.link hβ (by omega) _ (hc i hi)
  have el : r.logL = .num (logLik law.cdf D.n J D.k0 D.wt D.cat D.x (ext r.beta)) := by
    rw [e.logL, lik _ hir]; simp [negD]
  have low : logLik law.cdf D.n J D.k0 D.wt D.cat D.x (ext b) ≤ logLik law.cdf D.n J D.k0 D.wt D.cat D.x (ext r.beta) := by
    have := e.better
    rw [lik _ hib, lik _ hir] at this
    rcases le_num this with h | ⟨c, h, hc⟩
    · cases h
    · obtain rfl := Dbl.num.inj h
      linarith
  refine ⟨_, rfl, el, ?_, ?_, fun b' ho hs => ?_, fun ho => ?_⟩
  · rw [e.aic, el]; rfl
  · rw [e.sic, el, mul_comm ((D.k0 + J - 1 : ℕ) : ℝ)]; rfl
  · rcases hb with ⟨_, hb⟩ | ⟨hb, _⟩
    · rw [hs] at hb; rw [Option.some.inj hb]; exact low
    · rw [ho, hs] at hb; simp at hb
  · rcases hb with ⟨h1, h2⟩ | ⟨_, p, hp, rfl⟩
    · rw [h1, h2] at ho; simp at ho
    · exact ⟨p, by rw [e.counts]; exact hp, low⟩

/-- **C114**, more choices: where the search ended with the gradient zero, the estimates have the largest likelihood among all with increasing
cutoffs, and no others have it if the regressors are independent. -/
theorem C114_ordered_maximum (hg : r.gradient = 0) {β' : ℕ → ℝ} (h' : Increasing J D.k0 β') :
    logLik law.cdf D.n J D.k0 D.wt D.cat D.x β' ≤ logLik law.cdf D.n J D.k0 D.wt D.cat D.x (ext r.beta) ∧
      (Independent D.n D.k0 D.wt D.x → (∃ l : Fin (D.k0 + J - 1), β' l ≠ r.beta l) →
        logLik law.cdf D.n J D.k0 D.wt D.cat D.x β' < logLik law.cdf D.n J D.k0 D.wt D.cat D.x (ext r.beta)) := by
  obtain ⟨hr, hcc, _⟩ := C114_ordered_counts law D hl h hE
  have hc : ∀ i < D.n, D.cat i ≤ J := fun i hi => (hr i hi).2
  obtain ⟨c, b, e, hib, hir, hb⟩ := ordered_start hS law hJ D hl h hE hw hs
  rw [e.gradient] at hg
  obtain ⟨h1, h2⟩ := C113_maximum hS law hJ D hc hw hir h' fun l hl => congrFun hg ⟨l, hl⟩
  refine ⟨h1, fun hI ⟨l, hl⟩ => h2 hI (fun j h1 h2 => present (J := J) hw ?_) ⟨l, l.2, by rwa [ext_lt]⟩⟩
  rw [← (hcc j (by omega)).1]; exact (hcc j (by omega)).2

/-- **C114**, more choices: with independent regressors `BetaVar` is the inverse of the matrix of the second derivatives of minus the
log-likelihood at the estimates, it is positive definite, and the tests follow from it. -/
theorem C114_ordered_variance (hI : Independent D.n D.k0 D.wt D.x) :
    (∃ H : Matrix (Fin (D.k0 + J - 1)) (Fin (D.k0 + J - 1)) ℝ, Information law.cdf D.n J D.k0 D.wt D.cat D.x (ext r.beta) H ∧ H * r.betaVar = 1 ∧
      r.betaVar * H = 1) ∧ Ls.PosDef r.betaVar ∧ (dd = true → Tested r.beta r.betaVar r.std r.z r.prob) := by
  obtain ⟨hr, hcc, _⟩ := C114_ordered_counts law D hl h hE
  have hc : ∀ i < D.n, D.cat i ≤ J := fun i hi => (hr i hi).2
  obtain ⟨c, b, e, hib, hir, hb⟩ := ordered_start hS law hJ D hl h hE hw hs
  have hm : ∀ j, 1 ≤ j → j < J → ∃ i < D.n, 0 < D.wt i ∧ D.cat i = j := fun j h1 h2 => present (J := J) hw (by
    rw [← (hcc j (by omega)).1]; exact (hcc j (by omega)).2)
  have hp0 : ∀ i < D.n, 0 < chance law.cdf J D.k0 (ext r.beta) (index D.k0 D.x (ext r.beta) i) (D.cat i) := fun i hi =>
    chance_pos law.link hir (by omega) _ (hc i hi)
  have def' := C113_definite hS law hJ D hc hp0 hw
  have pd : Ls.PosDef (mat (D.k0 + J - 1) (hfunOrdered S law J D (ext r.beta))) := posDef_mat (def' 0).1 fun d hd => (def' d).2.2 hI hm hd
  obtain ⟨i1, i2, i3⟩ := invert_spec E.lu pd
  rw [← e.betaVar] at i1 i2 i3
  refine ⟨⟨_, ⟨pd.1, fun d => ?_⟩, i1, i2⟩, i3, fun hd => ?_⟩
  · refine ⟨fun t => grad law.cdf law.pdf J D.k0 D.n D.wt D.cat D.x (move (ext r.beta) d t) d, ?_, ?_⟩
    · have ev : ∀ i ∈ Finset.range D.n, ∀ᶠ t in nhds (0 : ℝ), 0 < chanceAt law.cdf J D.k0 D.x D.cat i (move (ext r.beta) d t) := fun i hi => by
        have cont := (chanceAt_deriv (J := J) (k0 := D.k0) (x := D.x) (c := D.cat) law.link i (ext r.beta) d 0).continuousAt
        refine cont.eventually (lt_mem_nhds ?_)
        dsimp only
        rw [move_zero]; exact hp0 i (Finset.mem_range.1 hi)
      filter_upwards [(Filter.eventually_all_finset (Finset.range D.n)).2 ev] with t ht
      exact logLik_deriv (w := D.wt) law.link (ext r.beta) d t fun i hi => ht i (Finset.mem_range.2 hi)
    · have := grad_deriv (w := D.wt) (J := J) (k0 := D.k0) (c := D.cat) (x := D.x) (n := D.n) law.link (ext r.beta) d d 0
        (by rw [move_zero]; exact hp0)
      refine this.congr_deriv ?_
      rw [move_zero, mat_sum]
      exact (quad_sum (k := D.k0 + J - 1) (hfunOrdered S law J D (ext r.beta))
        (hess law.cdf law.pdf law.slope J D.k0 D.n D.wt D.cat D.x (ext r.beta)) (hess_comm _) (hess_sum hc (ext r.beta))
        (fun l hl m _ => hfunOrdered_eq hS law D hJ hc (ext r.beta) l m hl) d).symm
  · rw [e.std, e.z, e.prob, hd]
    exact details_spec hS r.beta i3

end
end

end Dc
end LDT
