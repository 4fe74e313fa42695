import Verif.Props.DistCdf
/-!
# C103: logarithms of densities and mass functions

`GetPdfOrPmfLog(x)` is the logarithm of `GetPdfOrPmf(x)`: minus infinity where that is zero, infinity where it is infinite.
-/
namespace LDT
namespace Di
open Op

/-- The natural logarithm of a number, of zero and of infinity. -/
inductive IsLog : Dbl ℝ → Dbl ℝ → Prop where
  | pos (x : ℝ) : 0 < x → IsLog (.num x) (.num (Real.log x))
  | zero : IsLog (.num 0) .ninf
  | inf : IsLog .pinf .pinf

/-- The reported logarithm is that of the reported value. -/
def Dist.LogAt (d : Dist) (x : ℝ) : Prop := IsLog (d.pdf x) (d.logPdf x)

theorem IsLog.of {x y : ℝ} (h : 0 < x) (e : y = Real.log x) : IsLog (.num x) (.num y) := by subst e; exact .pos x h

theorem logAt_impossible {d : Dist} {x : ℝ} (h : d.impossible x = true) : d.LogAt x := by
  simp only [Dist.LogAt, Dist.pdf, Dist.logPdf, h, if_true]; exact .zero

theorem logAt_possible {d : Dist} {x : ℝ} (h : d.impossible x = false) (hl : IsLog (d.density x) (d.logDensity x)) : d.LogAt x := by
  simp only [Dist.LogAt, Dist.pdf, Dist.logPdf, h]; exact hl

theorem logAt_positive {d : Dist} {x : ℝ} (hmin : d.minimum = .num 0) (hmax : d.maximum = .pinf)
    (h : 0 ≤ x → IsLog (d.density x) (d.logDensity x)) : d.LogAt x := by
  rcases lt_or_ge x 0 with hx | hx
  · exact logAt_impossible (by simp [Dist.impossible, hmin, Dbl.lt, hx])
  · exact logAt_possible (by simp [Dist.impossible, hmin, hmax, Dbl.lt, not_lt.mpr hx]) (h hx)

theorem lgamma_pos {x : ℝ} (h : 0 < x) : lgamma x = Real.log (Real.Gamma x) := by
  rw [lgamma, abs_of_pos (Real.Gamma_pos_of_pos h)]

/-- Normal. -/
theorem C103_normal (m s : ℝ) (hs : 0 < s) (d : Dist) (hd : make .normal m s = .ok d) (x : ℝ) : d.LogAt x := by
  have := made hd; subst this
  refine logAt_possible (by simp [Dist.impossible, Dist.minimum, Dist.maximum, Dbl.lt]) ?_
  simp only [Dist.density, Dist.logDensity, hs.ne', if_false]
  have h2 : 0 < Real.sqrt (2 * Real.pi) := Real.sqrt_pos.mpr (by positivity)
  refine IsLog.of (by positivity) ?_
  rw [Real.log_div (by positivity) (by positivity), Real.log_exp, Real.log_mul h2.ne' hs.ne']; ring

/-- Log-normal, but at zero. -/
theorem C103_lognormal (m s : ℝ) (hs : 0 < s) (d : Dist) (hd : make .logNormal m s = .ok d) (x : ℝ) (hx : x ≠ 0) : d.LogAt x := by
  have := made hd; subst this
  refine logAt_positive rfl rfl fun h => ?_
  have h0 : 0 < x := lt_of_le_of_ne h hx.symm
  simp only [Dist.density, Dist.logDensity, hs.ne', hx, or_self, if_false]
  have h2 : 0 < Real.sqrt (2 * Real.pi) := Real.sqrt_pos.mpr (by positivity)
  refine IsLog.of (by positivity) ?_
  rw [Real.log_div (by positivity) (by positivity), Real.log_exp, Real.log_mul (show x * Real.sqrt (2 * Real.pi) ≠ 0 by positivity) hs.ne', Real.log_mul h0.ne' h2.ne', Real.log_mul h0.ne' hs.ne']; ring

/-- Student's t. -/
theorem C103_t (n q : ℝ) (d : Dist) (hd : make .t n q = .ok d) (x : ℝ) : d.LogAt x := by
  have hn := pos_of_make1 (Or.inl rfl) hd
  have := made hd; subst this
  refine logAt_possible (by simp [Dist.impossible, Dist.minimum, Dist.maximum, Dbl.lt]) ?_
  simp only [Dist.density, Dist.logDensity]
  have g1 := Real.Gamma_pos_of_pos (half_pos hn)
  have g2 := Real.Gamma_pos_of_pos (show 0 < (n + 1) / 2 by positivity)
  have hw : 0 < 1 + x * x / n := by have := mul_self_nonneg x; positivity
  have hr := Real.rpow_pos_of_pos hw (-((n + 1) / 2))
  have hnp : 0 < n * Real.pi := by positivity
  have hsq := Real.sqrt_pos.mpr hnp
  refine IsLog.of (by positivity) ?_
  rw [lgamma_pos (half_pos hn), lgamma_pos (by positivity), Real.log_div (by positivity) (by positivity), Real.log_mul g2.ne' hr.ne', Real.log_rpow hw,
    Real.log_mul g1.ne' hsq.ne', Real.log_sqrt hnp.le]; ring

theorem gamma_log {a s x : ℝ} (ha : 0 < a) (hs : 0 < s) (hx : 0 < x) :
    Real.log (s ^ (-a) * x ^ (a - 1) * Real.exp (-x / s) / Real.Gamma a) = -a * Real.log s + ((a - 1) * Real.log x + (-(x / s) - lgamma a)) := by
  have g := Real.Gamma_pos_of_pos ha
  have h1 := Real.rpow_pos_of_pos hs (-a)
  have h2 := Real.rpow_pos_of_pos hx (a - 1)
  rw [lgamma_pos ha, Real.log_div (by positivity) g.ne', Real.log_mul (by positivity) (Real.exp_pos _).ne', Real.log_exp, Real.log_mul h1.ne' h2.ne',
    Real.log_rpow hs, Real.log_rpow hx]; ring

/-- Gamma, but at zero with a shape of one. -/
theorem C103_gamma (a s : ℝ) (d : Dist) (hd : make .gamma a s = .ok d) (x : ℝ) (hx : x ≠ 0 ∨ a ≠ 1) : d.LogAt x := by
  obtain ⟨ha, hs⟩ := pos_of_make (Or.inl rfl) hd
  have := made hd; subst this
  refine logAt_positive rfl rfl fun h => ?_
  have g := Real.Gamma_pos_of_pos ha
  simp only [Dist.density, Dist.logDensity, orInf]
  rcases h.eq_or_lt with h0 | h0
  · subst h0
    have ha1 : a ≠ 1 := hx.resolve_left (by simp)
    rcases lt_or_gt_of_ne ha1 with h1 | h1
    · have c1 : ¬ (0 < a - 1) := by linarith
      have c2 : a - 1 < 0 := by linarith
      simp [logD, scaleD, addD, c1, c2, h1]
      exact .inf
    · have c1 : 0 < a - 1 := by linarith
      have c2 : ¬ (a - 1 < 0) := by linarith
      simp [logD, scaleD, addD, c2, h1, Real.zero_rpow c1.ne', h1.not_gt]
      exact .zero
  · rw [if_neg (fun hc => h0.ne' hc.1)]
    simp only [logD, h0, if_true, scaleD, addD]
    have h1 := Real.rpow_pos_of_pos hs (-a)
    have h2 := Real.rpow_pos_of_pos h0 (a - 1)
    exact IsLog.of (by positivity) (gamma_log ha hs h0).symm

/-- Chi-squared, but at zero with two degrees of freedom. -/
theorem C103_chi2 (k q : ℝ) (d : Dist) (hd : make .chi2 k q = .ok d) (x : ℝ) (hx : x ≠ 0 ∨ k ≠ 2) : d.LogAt x := by
  have hk := pos_of_make1 (Or.inr (Or.inl rfl)) hd
  have := made hd; subst this
  refine logAt_positive rfl rfl fun h => ?_
  have g := Real.Gamma_pos_of_pos (half_pos hk)
  simp only [Dist.density, Dist.logDensity, orInf]
  rcases h.eq_or_lt with h0 | h0
  · subst h0
    have ha1 : k ≠ 2 := hx.resolve_left (by simp)
    rcases lt_or_gt_of_ne ha1 with h1 | h1
    · have c1 : ¬ (0 < k / 2 - 1) := by linarith
      have c2 : k / 2 - 1 < 0 := by linarith
      rw [if_pos ⟨rfl, c2⟩]
      simp only [logD, lt_irrefl, if_false, if_true, scaleD, c1, c2, addD]
      exact .inf
    · have c1 : 0 < k / 2 - 1 := by linarith
      have c2 : ¬ (k / 2 - 1 < 0) := by linarith
      rw [if_neg (fun hc => c2 hc.2)]
      simp only [logD, lt_irrefl, if_false, if_true, scaleD, c1, addD, Real.zero_rpow c1.ne', mul_zero, zero_div]
      exact .zero
  · rw [if_neg (fun hc => h0.ne' hc.1)]
    simp only [logD, h0, if_true, scaleD, addD]
    have h1 := Real.rpow_pos_of_pos (show (0 : ℝ) < 2 by norm_num) (k / 2)
    have h2 := Real.rpow_pos_of_pos h0 (k / 2 - 1)
    refine IsLog.of (by positivity) ?_
    rw [lgamma_pos (half_pos hk), Real.log_div (by positivity) (by positivity), Real.log_mul (Real.exp_pos _).ne' h2.ne', Real.log_exp,
      Real.log_mul h1.ne' g.ne', Real.log_rpow h0, Real.log_rpow (by norm_num)]; ring

/-- Exponential, but at zero. -/
theorem C103_exponential_partial (l q : ℝ) (d : Dist) (hd : make .exponential l q = .ok d) (x : ℝ) (hx : x ≠ 0) : d.LogAt x := by
  have hl := pos_of_make1 (Or.inr (Or.inr rfl)) hd
  have := made hd; subst this
  refine logAt_positive rfl rfl fun h => ?_
  simp only [Dist.density, Dist.logDensity, hx, if_false]
  refine IsLog.of (by positivity) ?_
  rw [Real.log_mul hl.ne' (Real.exp_pos _).ne', Real.log_exp]; ring

/-- Beta, but at an end where the exponent is zero. -/
theorem C103_beta (a b : ℝ) (d : Dist) (hd : make .beta a b = .ok d) (x : ℝ) (h0 : x ≠ 0 ∨ a ≠ 1) (h1 : x ≠ 1 ∨ b ≠ 1) : d.LogAt x := by
  obtain ⟨ha, hb⟩ := pos_of_make (Or.inr (Or.inl rfl)) hd
  have := made hd; subst this
  by_cases hn : x < 0
  · exact logAt_impossible (by simp [Dist.impossible, Dist.minimum, Dbl.lt, hn])
  by_cases hm : 1 < x
  · exact logAt_impossible (by simp [Dist.impossible, Dist.minimum, Dist.maximum, Dbl.lt, hm])
  refine logAt_possible (by simp [Dist.impossible, Dist.minimum, Dist.maximum, Dbl.lt, hn, hm]) ?_
  rw [not_lt] at hn hm
  have g1 := Real.Gamma_pos_of_pos ha
  have g2 := Real.Gamma_pos_of_pos hb
  have g3 := Real.Gamma_pos_of_pos (add_pos ha hb)
  simp only [Dist.density, Dist.logDensity]
  have z0 : logD 0 = .ninf := by simp [logD]
  have z1 : logD 1 = .num 0 := by simp [logD]
  rcases hn.eq_or_lt with e | e
  · subst e
    have ha1 : a ≠ 1 := h0.resolve_left (by simp)
    rw [sub_zero, z0, z1]
    rcases lt_or_gt_of_ne ha1 with h | h
    · have c1 : ¬ (0 < a - 1) := by linarith
      have c2 : a - 1 < 0 := by linarith
      rw [if_pos (Or.inl ⟨rfl, c2⟩)]
      simp only [scaleD, c1, c2, if_true, if_false, addD]
      exact .inf
    · have c1 : 0 < a - 1 := by linarith
      have c2 : ¬ (a - 1 < 0) := by linarith
      rw [if_neg (by rintro (hc | hc); exact c2 hc.2; exact one_ne_zero hc.1)]
      simp only [scaleD, c1, if_true, addD, Real.zero_rpow c1.ne', mul_zero, zero_mul]
      exact .zero
  · rcases hm.eq_or_lt with e1 | e1
    · subst e1
      have hb1 : b ≠ 1 := h1.resolve_left (by simp)
      rw [sub_self, z0, z1]
      rcases lt_or_gt_of_ne hb1 with h | h
      · have c1 : ¬ (0 < b - 1) := by linarith
        have c2 : b - 1 < 0 := by linarith
        rw [if_pos (Or.inr ⟨rfl, c2⟩)]
        simp only [scaleD, c1, c2, if_true, if_false, addD]
        exact .inf
      · have c1 : 0 < b - 1 := by linarith
        have c2 : ¬ (b - 1 < 0) := by linarith
        rw [if_neg (by rintro (hc | hc); exact one_ne_zero hc.1; exact c2 hc.2)]
        simp only [scaleD, c1, if_true, addD, Real.zero_rpow c1.ne', mul_zero]
        exact .zero
    · have hx1 : 0 < 1 - x := by linarith
      rw [if_neg (by rintro (hc | hc); exact e.ne' hc.1; exact hx1.ne' hc.1)]
      simp only [logD, e, hx1, if_true, scaleD, addD]
      have p1 := Real.rpow_pos_of_pos e (a - 1)
      have p2 := Real.rpow_pos_of_pos hx1 (b - 1)
      refine IsLog.of (by positivity) ?_
      rw [lgamma_pos ha, lgamma_pos hb, lgamma_pos (add_pos ha hb), Real.log_mul (by positivity) p2.ne', Real.log_mul (by positivity) p1.ne',
        Real.log_div g3.ne' (by positivity), Real.log_mul g1.ne' g2.ne', Real.log_rpow e, Real.log_rpow hx1]; ring

theorem logOf_log {v : Dbl ℝ} (h : v = .pinf ∨ ∃ x, v = .num x ∧ 0 ≤ x) : IsLog v (logOf v) := by
  rcases h with rfl | ⟨x, rfl, hx⟩
  · exact .inf
  · rcases hx.eq_or_lt with e | e
    · subst e; simp [logOf, logD]; exact .zero
    · simp only [logOf, logD, e, if_true]; exact .pos x e

/-- Continuous uniform on more than a point, and F but at zero. -/
theorem C103_uniform_f (k : Kind) (hk : k = .uniformCon ∨ k = .f) (a b : ℝ) (hab : k = .uniformCon → a < b) (d : Dist) (hd : make k a b = .ok d) (x : ℝ)
    (hx : k = .f → x ≠ 0) : d.LogAt x := by
  rcases hk with rfl | rfl
  · have := made hd; subst this
    have hp := uniformCon_pdf (hab rfl) x
    by_cases hi : (Dist.mk .uniformCon a b).impossible x = true
    · exact logAt_impossible hi
    · have e : (Dist.mk .uniformCon a b).logPdf x = logOf ((Dist.mk .uniformCon a b).pdf x) := by simp [Dist.logPdf, hi, Dist.logDensity]
      unfold Dist.LogAt
      rw [e]
      refine logOf_log (Or.inr ⟨_, hp, ?_⟩)
      unfold uniF
      split_ifs
      · have : 0 < b - a := by linarith [hab rfl]
        positivity
      · exact le_rfl
  · obtain ⟨ha, hb⟩ := pos_of_make (Or.inr (Or.inr rfl)) hd
    have := made hd; subst this
    have hp := fF_pdf (d1 := a) (d2 := b) x (hx rfl)
    by_cases hi : (Dist.mk .f a b).impossible x = true
    · exact logAt_impossible hi
    · have e : (Dist.mk .f a b).logPdf x = logOf ((Dist.mk .f a b).pdf x) := by simp [Dist.logPdf, hi, Dist.logDensity]
      unfold Dist.LogAt
      rw [e]
      exact logOf_log (Or.inr ⟨_, hp, fF_nonneg ha hb x⟩)

/-- Discrete uniform. -/
theorem C103_uniform_discrete (a b : ℝ) (d : Dist) (hd : make .uniformDis a b = .ok d) (x : ℝ) : d.LogAt x := by
  have hab : a ≤ b := by
    by_contra h
    simp [make, not_le.mp h] at hd
  have := made hd; subst this
  by_cases hx : x ≥ a ∧ x ≤ b
  · refine logAt_possible (by simp [Dist.impossible, Dist.minimum, Dist.maximum, Dbl.lt, not_lt.mpr hx.1, not_lt.mpr hx.2]) ?_
    simp only [Dist.density, Dist.logDensity]
    rw [if_pos hx, if_pos hx]
    have : 0 < b - a + 1 := by linarith
    refine IsLog.of (by positivity) ?_
    rw [one_div, Real.log_inv]
  · refine logAt_impossible ?_
    simp only [Dist.impossible, Dist.minimum, Dist.maximum, Dbl.lt, Bool.or_eq_true, decide_eq_true_eq]
    rw [not_and_or, ge_iff_le, not_le, not_le] at hx; exact hx

/-- Poisson with a positive rate. -/
theorem C103_poisson (l q : ℝ) (hl : 0 < l) (d : Dist) (hd : make .poisson l q = .ok d) (x : ℝ) : d.LogAt x := by
  have := made hd; subst this
  refine logAt_positive rfl rfl fun h => ?_
  simp only [Dist.density, Dist.logDensity, hl.ne', if_false, logD, hl, if_true, scaleD, addD]
  refine IsLog.of (Real.exp_pos _) ?_
  rw [Real.log_exp, lgamma]; ring

/-- Geometric, but at zero with probability one. -/
theorem C103_geometric (p q : ℝ) (d : Dist) (hd : make .geometric p q = .ok d) (x : ℝ) (hx : x ≠ 0 ∨ p ≠ 1) : d.LogAt x := by
  have hp : 0 ≤ p ∧ p ≤ 1 := by
    by_contra h
    have : p < 0 ∨ p > 1 := by rw [not_and_or, not_le, not_le] at h; exact h
    simp [make, this] at hd
  have := made hd; subst this
  refine logAt_positive rfl rfl fun h => ?_
  simp only [Dist.density, Dist.logDensity]
  rcases hp.1.eq_or_lt with e0 | e0
  · subst e0
    have : logD 0 = .ninf := by simp [logD]
    rw [this, sub_zero]
    simp [logD, scaleD, addD]
    exact .zero
  rcases hp.2.eq_or_lt with e1 | e1
  · subst e1
    have hx0 : x ≠ 0 := hx.resolve_right (by simp)
    have hpos : 0 < x := lt_of_le_of_ne h hx0.symm
    rw [sub_self, Real.zero_rpow hx0, zero_mul]
    simp only [logD, lt_irrefl, if_false, if_true, scaleD, hpos, addD, zero_lt_one]
    exact .zero
  · have hq : 0 < 1 - p := by linarith
    simp only [logD, hq, e0, if_true, scaleD, addD]
    have := Real.rpow_pos_of_pos hq x
    refine IsLog.of (by positivity) ?_
    rw [Real.log_mul this.ne' e0.ne', Real.log_rpow hq]

/-- Bernoulli. -/
theorem C103_bernoulli (p q : ℝ) (d : Dist) (hd : make .bernoulli p q = .ok d) (x : ℝ) : d.LogAt x := by
  have hp : 0 ≤ p ∧ p ≤ 1 := by
    by_contra h
    have : p < 0 ∨ p > 1 := by rw [not_and_or, not_le, not_le] at h; exact h
    simp [make, this] at hd
  have := made hd; subst this
  have hlog : ∀ y : ℝ, 0 ≤ y → IsLog (.num y) (logD y) := fun y hy => logOf_log (Or.inr ⟨y, rfl, hy⟩)
  by_cases hi : (Dist.mk .bernoulli p q).impossible x = true
  · exact logAt_impossible hi
  refine logAt_possible (by simpa using hi) ?_
  simp only [Dist.density, Dist.logDensity]
  split_ifs
  · exact hlog _ (by linarith)
  · exact hlog _ hp.1
  · exact .zero

/-- Binomial with a probability strictly between zero and one, at an integer. -/
theorem C103_binomial (p : ℝ) (h0 : 0 < p) (h1 : p < 1) (n : ℕ) (d : Dist) (hd : make .binomial p n = .ok d) (k : ℤ) : d.LogAt k := by
  have := made hd; subst this
  by_cases hi : (Dist.mk .binomial p n).impossible k = true
  · exact logAt_impossible hi
  refine logAt_possible (by simpa using hi) ?_
  have hkn : ¬ ((k : ℝ) > n) := by
    intro h; apply hi; simp only [Dist.impossible, Dist.minimum, Dist.maximum, Dbl.lt, Bool.or_eq_true, decide_eq_true_eq]; right; exact h
  have hk0 : ¬ ((k : ℝ) < 0) := by
    intro h; apply hi; simp only [Dist.impossible, Dist.minimum, Dist.maximum, Dbl.lt, Bool.or_eq_true, decide_eq_true_eq]; left; exact h
  simp only [Dist.density, Dist.logDensity, if_neg hkn]
  have hc : 0 < (Nat.choose ⌊(n : ℝ)⌋₊ ⌊(k : ℝ)⌋₊ : ℝ) := by
    have : ⌊(k : ℝ)⌋₊ ≤ ⌊(n : ℝ)⌋₊ := Nat.floor_mono (not_lt.mp hkn)
    exact_mod_cast Nat.choose_pos this
  have hq : 0 < 1 - p := by linarith
  simp only [logD, hc, h0, hq, if_true, scaleD, addD]
  have r1 := Real.rpow_pos_of_pos h0 (k : ℝ)
  have r2 := Real.rpow_pos_of_pos hq ((n : ℝ) - k)
  refine IsLog.of (by positivity) ?_
  rw [Real.log_mul (by positivity) r2.ne', Real.log_mul hc.ne' r1.ne', Real.log_rpow h0, Real.log_rpow hq]; ring

/-- Exponential at zero: the density is positive, its reported logarithm minus infinity. -/
theorem C103_exponential_violated : ∃ d, make .exponential 2 0 = .ok d ∧ d.pdf 0 = .num 2 ∧ d.logPdf 0 = .ninf := by
  refine ⟨⟨.exponential, 2, 0⟩, by simp only [make]; rw [if_neg (by norm_num)], ?_, ?_⟩
  · rw [exponential_pdf le_rfl]; simp
  · simp [Dist.logPdf, Dist.impossible, Dist.minimum, Dist.maximum, Dbl.lt, Dist.logDensity]

/-- Zero times the logarithm of zero: a positive density or mass whose reported logarithm is not a number. -/
theorem C103_zero_violated :
    (∃ d, make .gamma 1 2 = .ok d ∧ d.pdf 0 = .num (1 / 2) ∧ d.logPdf 0 = .nan) ∧
    (∃ d, make .geometric 1 0 = .ok d ∧ d.pdf 0 = .num 1 ∧ d.logPdf 0 = .nan) ∧
    (∃ d, make .binomial 0 (3 : ℕ) = .ok d ∧ d.pdf 0 = .num 1 ∧ d.logPdf 0 = .nan) := by
  refine ⟨⟨⟨.gamma, 1, 2⟩, by simp only [make]; rw [if_neg (by norm_num)], ?_, ?_⟩, ⟨⟨.geometric, 1, 0⟩, by simp only [make]; rw [if_neg (by norm_num)], ?_, ?_⟩,
    ⟨⟨.binomial, 0, (3 : ℕ)⟩, by simp only [make]; rw [if_neg (by norm_num), if_neg (by norm_num)], ?_, ?_⟩⟩
  · simp [Dist.pdf, Dist.impossible, Dist.minimum, Dist.maximum, Dbl.lt, Dist.density, orInf, Real.rpow_neg_one]
  · simp [Dist.logPdf, Dist.impossible, Dist.minimum, Dist.maximum, Dbl.lt, Dist.logDensity, logD, scaleD, addD]
  · simpa using geometric_pdf 1 0 0
  · simp [Dist.logPdf, Dist.impossible, Dist.minimum, Dist.maximum, Dbl.lt, Dist.logDensity, logD, scaleD, addD]
  · simpa using binomial_pdf 0 3 0
  · have : ¬ ((0 : ℝ) > ((3 : ℕ) : ℝ)) := by norm_num
    have hi : (Dist.mk .binomial 0 (3 : ℕ)).impossible 0 = false := by simp [Dist.impossible, Dist.minimum, Dist.maximum, Dbl.lt]
    simp only [Dist.logPdf, hi, Dist.logDensity, if_neg this]
    simp [logD, scaleD, addD]

/-- The hypotheses are met. -/
example : (∃ d, make .gamma 2 3 = .ok d ∧ d.LogAt 0 ∧ d.LogAt 5) ∧ (∃ d, make .binomial (1 / 2) (3 : ℕ) = .ok d ∧ d.LogAt (2 : ℤ)) := by
  have h1 : make .gamma 2 3 = .ok ⟨.gamma, 2, 3⟩ := by simp only [make]; rw [if_neg (by norm_num)]
  have h2 : make .binomial (1 / 2) (3 : ℕ) = .ok ⟨.binomial, 1 / 2, (3 : ℕ)⟩ := by simp only [make]; rw [if_neg (by norm_num), if_neg (by norm_num)]
  exact ⟨⟨_, h1, C103_gamma 2 3 _ h1 0 (Or.inr (by norm_num)), C103_gamma 2 3 _ h1 5 (Or.inl (by norm_num))⟩,
    ⟨_, h2, C103_binomial (1 / 2) (by norm_num) (by norm_num) 3 _ h2 2⟩⟩

end Di
end LDT
