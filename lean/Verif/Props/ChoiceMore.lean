import Verif.Lemmas.ChoiceMore
/-! # C114, more on estimated models of discrete choice: the memory used, the checks of the arguments, where a search stays, repeated observations -/
namespace LDT
namespace Dc
open Op Di

/-! ## Memory and checks -/

theorem cutoffs_ok {form : Form} {self : Sizes} {dd : Bool} {n rowsX k0 numChoices J : ℤ} {rowsW : Option ℤ} {top : ℝ}
    (h : cutoffs form self dd n rowsX rowsW k0 top numChoices = .ok J) : (form = .binary → J = 1) ∧
      ∃ s, construct form n k0 (J + 1) dd = .ok s ∧ s.work ≤ self.work ∧ s.storage ≤ self.storage := by
  unfold cutoffs at h
  by_cases h1 : rowsX ≠ n
  · rw [if_pos h1] at h; cases h
  rw [if_neg h1] at h
  by_cases h2 : rowsW.isSome ∧ rowsW ≠ some n
  · rw [if_pos h2] at h; cases h
  rw [if_neg h2] at h
  dsimp only at h
  generalize hch : (if form = .binary then (2 : ℤ) else if numChoices ≤ 0 then trunc top + 1 else numChoices) = ch at h
  by_cases h3 : form = .ordered ∧ ch - 1 ≤ 0
  · rw [if_pos h3] at h; cases h
  rw [if_neg h3] at h
  cases hs : construct form n k0 ch dd with
  | ok s =>
    rw [hs] at h
    simp only [bind, Outcome.bind] at h
    split_ifs at h with h4
    obtain rfl := Outcome.ok.inj h
    push Not at h4
    refine ⟨fun hb => by rw [if_pos hb] at hch; omega, s, by rw [sub_add_cancel]; exact hs, h4⟩
  | throws => rw [hs] at h; cases h
  | ub => rw [hs] at h; cases h
  | diverges => rw [hs] at h; cases h

/-- **C114**: where `Calculate` goes on to estimate, everything it and the estimation lay over the storage and the work array fits. -/
theorem C114_memory {form : Form} {self : Sizes} {dd : Bool} {n rowsX k0 numChoices J : ℤ} {rowsW : Option ℤ} {top : ℝ}
    (h : cutoffs form self dd n rowsX rowsW k0 top numChoices = .ok J) (hn : 0 ≤ n) :
    (storageBlocks k0 J dd).sum ≤ self.storage ∧
    (form = .binary → (binaryBlocks n (k0 + J - 1)).sum ≤ self.work ∧ (binaryPriorBlocks n k0).sum ≤ self.work) ∧
    (form = .ordered → (orderedBlocks n k0 J).sum ≤ self.work ∧ (orderedPriorBlocks n k0 J).sum ≤ self.work) := by
  obtain ⟨hb, s, hs, hw, hst⟩ := cutoffs_ok h
  have ej : J + 1 - 2 = J - 1 := by ring
  unfold construct at hs
  by_cases c1 : J + 1 < 1
  · rw [if_pos c1] at hs; cases hs
  by_cases c2 : J + 1 = 2 ∧ form = .ordered
  · rw [if_neg c1, if_pos c2] at hs; cases hs
  by_cases c3 : J + 1 > 2 ∧ form = .binary
  · rw [if_neg c1, if_neg c2, if_pos c3] at hs; cases hs
  rw [if_neg c1, if_neg c2, if_neg c3] at hs
  obtain rfl := Outcome.ok.inj hs
  obtain ⟨p1, p2⟩ := max_le_iff.1 hw
  unfold newtonWork at p2
  unfold storageBlocks binaryBlocks binaryPriorBlocks orderedBlocks orderedPriorBlocks newtonWork
  dsimp only at hst
  refine ⟨?_, fun hf => ⟨?_, ?_⟩, fun hf => ⟨?_, ?_⟩⟩
  · cases dd <;> simp only [List.sum_cons, List.sum_nil, List.cons_append, List.nil_append, if_true, Bool.false_eq_true, if_false] at hst ⊢ <;>
      nlinarith
  · have := hb hf
    subst this
    simp only [List.sum_cons, List.sum_nil]
    nlinarith
  · have := hb hf
    subst this
    simp only [List.sum_cons, List.sum_nil]
    nlinarith
  · simp only [List.sum_cons, List.sum_nil]
    nlinarith
  · simp only [List.sum_cons, List.sum_nil]
    nlinarith

/-- **C114**: the arguments `Calculate` refuses: other numbers of rows, a single choice or two choices for the ordered model, and an object
made for fewer observations, regressors or choices than given (in the sense that it has less memory). -/
theorem C114_refused {form : Form} {self : Sizes} {dd : Bool} {n rowsX k0 numChoices : ℤ} {rowsW : Option ℤ} {top : ℝ}
    (h : rowsX ≠ n ∨ (∃ m, rowsW = some m ∧ m ≠ n) ∨
      form = .ordered ∧ (0 < numChoices ∧ numChoices ≤ 2 ∨ numChoices ≤ 0 ∧ top < 2)) :
    cutoffs form self dd n rowsX rowsW k0 top numChoices = .throws := by
  unfold cutoffs
  by_cases h1 : rowsX ≠ n
  · rw [if_pos h1]
  rw [if_neg h1]
  by_cases h2 : rowsW.isSome ∧ rowsW ≠ some n
  · rw [if_pos h2]
  rw [if_neg h2]
  rcases h with h | ⟨m, hm, hn⟩ | ⟨rfl, h⟩
  · exact absurd h h1
  · exact absurd ⟨by rw [hm]; rfl, by rw [hm]; simpa using hn⟩ h2
  · dsimp only
    rw [if_neg (show ¬(Form.ordered = Form.binary) by simp)]
    have hle : (if numChoices ≤ 0 then trunc top + 1 else numChoices) ≤ 2 := by
      rcases h with ⟨a, b⟩ | ⟨a, b⟩
      · rw [if_neg (by omega)]; exact b
      · rw [if_pos a]
        have : trunc top ≤ 1 := by
          unfold trunc
          split_ifs with h0
          · have : ⌊top⌋ < 2 := Int.floor_lt.2 (by exact_mod_cast b)
            omega
          · have : ⌈top⌉ ≤ 0 := Int.ceil_le.2 (by push_cast; linarith)
            omega
        omega
    generalize (if numChoices ≤ 0 then trunc top + 1 else numChoices) = ch at hle
    by_cases h3 : Form.ordered = Form.ordered ∧ ch - 1 ≤ 0
    · rw [if_pos h3]
    · rw [if_neg h3]
      have : ch = 2 := by push Not at h3; have := h3 rfl; omega
      subst this
      rfl

/-- An object made for as many observations, regressors and choices as the data have (or for more observations) is accepted. -/
theorem C114_accepted {form : Form} {self : Sizes} {dd : Bool} {n n0 k0 k1 numChoices choices : ℤ} {top : ℝ} {w : Option ℤ}
    (hw : w = none ∨ w = some n) (h0 : construct form n0 k1 choices dd = .ok self) (hn : 0 ≤ n) (hnn : n ≤ n0) (hk : 1 ≤ k0) (hkk : k0 ≤ k1)
    (hc : choices = if form = .binary then 2 else if numChoices ≤ 0 then trunc top + 1 else numChoices) (ho : form = .ordered → 3 ≤ choices) :
    cutoffs form self dd n n w k0 top numChoices = .ok (choices - 1) := by
  unfold cutoffs
  rw [if_neg (by simp), if_neg (by rcases hw with rfl | rfl <;> simp)]
  dsimp only
  rw [← hc]
  have hch : 2 ≤ choices := by
    cases form
    · rw [hc]; simp
    · have := ho rfl; omega
  rw [if_neg (by omega)]
  unfold construct at h0 ⊢
  by_cases c2 : choices = 2 ∧ form = .ordered
  · have := ho c2.2; omega
  by_cases c3 : choices > 2 ∧ form = .binary
  · rw [c3.2] at hc; simp at hc; omega
  rw [if_neg (by omega), if_neg c2, if_neg c3] at h0 ⊢
  obtain rfl := Outcome.ok.inj h0
  simp only [bind, Outcome.bind]
  have a1 : n * k0 ≤ n0 * k1 := mul_le_mul hnn hkk (by omega) (by omega)
  have a2 : (k0 + choices - 2) * (k0 + choices - 2) ≤ (k1 + choices - 2) * (k1 + choices - 2) :=
    mul_le_mul (by omega) (by omega) (by omega) (by omega)
  have a3 : k0 * k0 ≤ k1 * k1 := mul_le_mul hkk hkk (by omega) (by omega)
  rw [if_neg]
  · rfl
  · push Not
    constructor
    · unfold newtonWork priorOls Ls.olsWork
      refine max_le_max ?_ ?_ <;> nlinarith
    · cases dd <;> simp <;> nlinarith

example : ∃ s, construct .ordered 10 2 3 true = .ok s ∧ cutoffs .ordered s true 8 8 none 2 2 0 = .ok 2 := by
  refine ⟨_, rfl, C114_accepted (n := 8) (k0 := 2) (n0 := 10) (k1 := 2) (choices := 3) (Or.inl rfl) rfl (by norm_num) (by norm_num) (by norm_num)
    (by norm_num) ?_ (fun _ => le_refl _)⟩
  simp [trunc]

/-! ## A search that stays -/

section
variable {S : Fns} (hS : S.Good) (law : Law) (D : Data) (hy : ∀ i < D.n, D.y i = 0 ∨ D.y i = 1) {E : Env D.k0} {dd : Bool}

include hS hy in
/-- **C114**, two choices: if the regressors are independent, both choices occur and the given start is a maximum (the gradient is zero),
the estimation succeeds and the estimate is that start. -/
theorem C114_stays (hn : 1 ≤ D.n) (hk : 1 ≤ D.k0) (h0 : total D.n D.wt D.cat 0 ≠ 0) (h1 : total D.n D.wt D.cat 1 ≠ 0) (hv : D.k0 ≤ E.vars)
    (hl : E.opts.useLineSearch = true) (hw : ∀ i < D.n, 0 ≤ D.wt i) (hI : Independent D.n D.k0 D.wt D.x) {b : Fin D.k0 → ℝ}
    (hmax : ∀ β' : ℕ → ℝ, logLik law.cdf D.n 1 D.k0 D.wt D.cat D.x β' ≤ logLik law.cdf D.n 1 D.k0 D.wt D.cat D.x (ext b)) :
    ∃ r, estimateBinary S law D E dd false (some b) = .ok r ∧ r.beta = b := by
  have hp : ∀ t d, ∀ i < D.n, 0 < chanceAt law.cdf 1 D.k0 D.x D.cat i (move (ext b) d t) := fun t d => pos_binary law D hy _
  have hG : ∀ l < D.k0, gfunBinary S law D (ext b) l = 0 := fun l hl => by
    rw [gfunBinary_eq hS law D hy (ext b) l hl]
    have hd := logLik_deriv (w := D.wt) law.link (ext b) (unit l) 0 (hp 0 (unit l))
    rw [move_zero] at hd
    have hmin : IsLocalMin (fun t => -logLik law.cdf D.n 1 D.k0 D.wt D.cat D.x (move (ext b) (unit l) t)) 0 := by
      refine Filter.Eventually.of_forall fun t => ?_
      dsimp only
      rw [move_zero]
      linarith [hmax (move (ext b) (unit l) t)]
    exact hmin.hasDerivAt_eq_zero hd
  have def' := C112_definite hS law D hy hw (ext b)
  have pd : Ls.PosDef (mat D.k0 (hfunBinary S law D (ext b))) := posDef_mat (def' 0).1 fun d hd => (def' d).2.2 hI hd
  obtain ⟨c, hc⟩ := countBinary_ok D hy
  obtain ⟨c0, c1⟩ := countBinary_eq D hy hc
  obtain ⟨r, e, hb, _⟩ := finish_stays (S := S) (E := E) (form := .binary) (dd := dd) (n := D.n) (counts := c)
    (F := fun β => .num (funBinary S law D β)) hk hv hl rfl hG pd
  refine ⟨r, ?_, hb⟩
  unfold estimateBinary
  rw [if_neg (by omega), hc]
  change (if c 0 = 0 ∨ c 1 = 0 then _ else _) = _
  rw [if_neg (by rw [c0, c1]; tauto)]
  exact e

end

/-- The estimation of `exTwo` started at zero succeeds: the hypotheses of the theorems on two choices can be met. -/
example {S : Fns} (hS : S.Good) (E : Env exTwo.k0) (hv : 1 ≤ E.vars) (hl : E.opts.useLineSearch = true) :
    ∃ r, estimateBinary S .logit exTwo E true false (some 0) = .ok r ∧ r.beta = 0 := by
  have hI : Independent exTwo.n exTwo.k0 exTwo.wt exTwo.x := fun c hcz l hl => by
    have h := hcz 0 (by simp [exTwo]) (by simp [Data.wt, exTwo])
    have hl' : l < 1 := hl
    obtain rfl : l = 0 := by omega
    simpa [index, exTwo] using h
  have e0 : ext (0 : Fin exTwo.k0 → ℝ) = fun _ => 0 := by funext j; unfold ext; split_ifs <;> rfl
  have tot : ∀ j, j = 0 ∨ j = 1 → total exTwo.n exTwo.wt exTwo.cat j ≠ 0 := by
    intro j hj
    unfold total
    rw [Finset.sum_filter]
    rcases hj with rfl | rfl <;> simp [exTwo, Finset.sum_range_succ, Data.cat, Data.wt]
  refine C114_stays hS .logit exTwo exTwo_binary (by simp [exTwo]) (by simp [exTwo]) (tot 0 (Or.inl rfl)) (tot 1 (Or.inr rfl)) hv hl
    (fun i _ => by simp [Data.wt, exTwo]) hI fun β' => ?_
  rw [e0]
  refine (C112_maximum hS .logit exTwo exTwo_binary (fun i _ => by simp [Data.wt, exTwo]) (β := fun _ => 0) (fun l hl => ?_) β').1
  have hl' : l < 1 := hl
  obtain rfl : l = 0 := by omega
  show gfunLogit exTwo _ 0 = 0
  unfold gfunLogit
  simp [exTwo, dot, Data.wt, List.range_succ]
  norm_num

/-! ## Choices that are neither 0 nor 1 -/

/-- **C114**: observations that are neither 0 nor 1 are not noticed without weights: of the three observations 0, 0 and 2 none has choice 1,
but two are said to have it and the estimation goes on. -/
theorem C114_binary_outside_violated : let D : Data := ⟨3, 1, fun i => if i = 2 then 2 else 0, fun _ _ => 1, none⟩
    ∃ c, countBinary D = .ok c ∧ c 0 = 1 ∧ c 1 = 2 ∧ total D.n D.wt D.cat 0 = 2 ∧ total D.n D.wt D.cat 1 = 0 := by
  intro D
  refine ⟨_, rfl, ?_, ?_, ?_, ?_⟩
  · simp [D, List.range_succ]; norm_num
  · simp [D, List.range_succ]
  · unfold total; rw [Finset.sum_filter]
    show ∑ i ∈ Finset.range 3, (if ⌊(if i = 2 then (2 : ℝ) else 0)⌋₊ = 0 then (1 : ℝ) else 0) = 2
    rw [Finset.sum_range_succ, Finset.sum_range_succ, Finset.sum_range_succ]
    norm_num
  · unfold total; rw [Finset.sum_filter]; simp [D, Finset.sum_range_succ, Data.cat, Data.wt]

/-! ## Repeated observations -/

section
variable {S : Fns} (hS : S.Good) (law : Law) (D : Data) (hy : ∀ i < D.n, D.y i = 0 ∨ D.y i = 1) {E : Env D.k0} {dd : Bool}

/-- Without weights, observation `r a` of `D` in row `a`. -/
def repeated (D : Data) (n' : ℕ) (r : ℕ → ℕ) : Data := ⟨n', D.k0, fun a => D.y (r a), fun a => D.x (r a), none⟩

include hS hy in
/-- **C114**, two choices: weighting an observation by the number of times it was made is the same as repeating it, from the same start:
except for the number of observations and `Sic`, which uses it, all results are the same. -/
theorem C114_repeated {n' : ℕ} {r m : ℕ → ℕ} (hr : Repeats D.n n' r m) (hw : D.w = some fun i => (m i : ℝ)) (b : Fin D.k0 → ℝ) {e : Est D.k0}
    (h : estimateBinary S law D E dd false (some b) = .ok e) (hl : E.opts.useLineSearch = true) :
    ∃ e' : Est D.k0, estimateBinary S law (repeated D n' r) E dd false (some b) = .ok e' ∧ e'.beta = e.beta ∧ e'.betaVar = e.betaVar ∧
      e'.condition = e.condition ∧ e'.gradient = e.gradient ∧ e'.iteration = e.iteration ∧ e'.logL = e.logL ∧ e'.aic = e.aic ∧ e'.std = e.std ∧
      e'.z = e.z ∧ e'.prob = e.prob ∧ e'.numObs = n' ∧ e'.counts 0 = e.counts 0 ∧ e'.counts 1 = e.counts 1 := by
  obtain ⟨k1, k2, c, b', hc, n0, n1, _, _⟩ := binary_ended law D hl h
  have hy' : ∀ a < (repeated D n' r).n, (repeated D n' r).y a = 0 ∨ (repeated D n' r).y a = 1 := fun a ha => hy _ (hr.1 a ha)
  have w1 : ∀ i, D.wt i = m i := fun i => by unfold Data.wt; rw [hw]
  have w2 : ∀ i, (repeated D n' r).wt i = 1 := fun i => rfl
  obtain ⟨c', hc'⟩ := countBinary_ok (repeated D n' r) hy'
  obtain ⟨c0, c1⟩ := countBinary_eq D hy hc
  obtain ⟨d0, d1⟩ := countBinary_eq (repeated D n' r) hy' hc'
  have same : ∀ j, total (repeated D n' r).n (repeated D n' r).wt (repeated D n' r).cat j = total D.n D.wt D.cat j := fun j => by
    unfold total
    rw [Finset.sum_filter, Finset.sum_filter]
    have := sum_repeats hr fun i => if D.cat i = j then (1 : ℝ) else 0
    simp only [w1, w2]
    refine Eq.trans ?_ (this.trans ?_)
    · rfl
    · exact Finset.sum_congr rfl fun i _ => by split_ifs <;> simp
  have pn : 1 ≤ n' := by
    by_contra h0
    obtain rfl : n' = 0 := by omega
    have := same 0
    rw [← c0] at this
    apply n0
    rw [← this]
    unfold total
    rw [show (repeated D 0 r).n = 0 from rfl, Finset.range_zero, Finset.filter_empty, Finset.sum_empty]
  unfold estimateBinary at h
  rw [if_neg (by omega), hc] at h
  change (if c 0 = 0 ∨ c 1 = 0 then _ else _) = _ at h
  rw [if_neg (by tauto)] at h
  unfold fromStart at h
  dsimp only at h
  have key := finish_congr (n' := n') (counts' := c') (F' := fun β => .num (funBinary S law (repeated D n' r) β))
    (G' := gfunBinary S law (repeated D n' r)) (H' := hfunBinary S law (repeated D n' r))
    (fun β => by rw [C112_repeated law D (repeated D n' r) hr hw rfl rfl (fun _ _ => rfl) (fun _ _ => rfl) β])
    (fun β l hl => by
      rw [gfunBinary_eq hS law D hy β l hl, gfunBinary_eq hS law (repeated D n' r) hy' β l hl]
      unfold grad
      simp only [w1, w2, one_mul]
      have := sum_repeats hr fun i => -(first law.pdf 1 D.k0 D.x D.cat i β (unit l) / chanceAt law.cdf 1 D.k0 D.x D.cat i β)
      simp only [mul_neg] at this
      exact this)
    (fun β l hl q hq => by
      rw [hfunBinary_eq hS law D hy β l q hl hq, hfunBinary_eq hS law (repeated D n' r) hy' β l q hl hq]
      unfold hess
      simp only [w1, w2, one_mul]
      have := sum_repeats hr fun i => -(second law.slope 1 D.k0 D.x D.cat i β (unit l) (unit q) / chanceAt law.cdf 1 D.k0 D.x D.cat i β -
        first law.pdf 1 D.k0 D.x D.cat i β (unit l) * first law.pdf 1 D.k0 D.x D.cat i β (unit q) / chanceAt law.cdf 1 D.k0 D.x D.cat i β ^ 2)
      simp only [mul_neg] at this
      exact this) h
  have e0 : c' 0 = c 0 := by rw [d0, c0, same]
  have e1 : c' 1 = c 1 := by rw [d1, c1, same]
  have hcnt : e.counts = c := by
    cases hs : newton E.vars E.opts Real.sqrt E.chol (fun b => Dbl.num (funBinary S law D (ext b))) (fun b => vec D.k0 (gfunBinary S law D (ext b)))
        (fun b => mat D.k0 (hfunBinary S law D (ext b))) b 0 .nan .nan with
    | ok s => unfold finish at h; rw [hs] at h; rw [← Outcome.ok.inj h]
    | throws => unfold finish at h; rw [hs] at h; cases h
    | ub => unfold finish at h; rw [hs] at h; cases h
    | diverges => unfold finish at h; rw [hs] at h; cases h
  have run : estimateBinary S law (repeated D n' r) E dd false (some b) =
      .ok { e with numObs := n', counts := c', sic := sicOf n' D.k0 e.logL } := by
    unfold estimateBinary
    rw [if_neg (by show ¬(n' < 1 ∨ D.k0 < 1); omega), hc']
    change (if c' 0 = 0 ∨ c' 1 = 0 then _ else _) = _
    rw [if_neg (by rw [e0, e1]; tauto)]
    unfold fromStart
    exact key
  exact ⟨_, run, rfl, rfl, rfl, rfl, rfl, rfl, rfl, rfl, rfl, rfl, rfl, by rw [hcnt]; exact e0, by rw [hcnt]; exact e1⟩

end

end Dc
end LDT
