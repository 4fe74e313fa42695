import Verif.Lemmas.DistQuantile
import Verif.Props.DistCdf
/-!
# C102: quantiles

For a probability strictly between zero and one, `GetQuantile(p)` of a continuous law is a number whose probability of not being exceeded
is `p`. For Poisson, geometric and binomial laws the result of the search, if there is one, is a quantile: at most `p` of the mass is
below it and at least `p` is not above it.
-/
namespace LDT
namespace Di
open Op MeasureTheory Set

/-- Every quantile is a number with probability `p` up to it, under the reported density. -/
def Dist.QuantilesOfDensity (S : Fns) (d : Dist) : Prop :=
  ∀ p, 0 < p → p < 1 → ∃ x, d.quantile S p = .num x ∧ IntUpTo (fun y => real (d.pdf y)) x p

/-- `x` is a `p`-quantile of the reported mass function: at most `p` of the mass is below `x`, at least `p` is not above `x`. -/
def Dist.IsQuantile (d : Dist) (p : ℝ) (x : ℤ) : Prop :=
  ∃ lo hi, SumUpTo d.mass ((x - 1 : ℤ) : ℝ) lo ∧ SumUpTo d.mass x hi ∧ lo ≤ p ∧ p ≤ hi

theorem quantile_in {S : Fns} {d : Dist} {p : ℝ} (h0 : 0 < p) (h1 : p < 1) : d.quantile S p = d.quantileInside S p := by
  simp [Dist.quantile, not_le.mpr h0, not_le.mpr h1]

theorem quantiles_of_cdf {S : Fns} {d : Dist} (C : d.CdfOfDensity S)
    (h : ∀ p, 0 < p → p < 1 → ∃ x, d.quantileInside S p = .num x ∧ d.cdf S x = .num p) : d.QuantilesOfDensity S := by
  intro p h0 h1
  obtain ⟨x, hx, hc⟩ := h p h0 h1
  obtain ⟨c, hc', hu⟩ := C x
  rw [hc] at hc'
  obtain rfl := Dbl.num.inj hc'
  exact ⟨x, by rw [quantile_in h0 h1, hx], hu⟩

/-- The quantiles at zero and one, and beyond, are the minimum and the maximum. -/
theorem C102_ends (S : Fns) (d : Dist) (p : ℝ) : (p ≤ 0 → d.quantile S p = d.minimum) ∧ (1 ≤ p → d.quantile S p = d.maximum) := by
  refine ⟨fun h => by simp [Dist.quantile, h], fun h => ?_⟩
  have : ¬ p ≤ 0 := by linarith
  simp [Dist.quantile, this, h]

/-- Normal. -/
theorem C102_normal (S : Fns) (hS : S.Good) (m s : ℝ) (hs : 0 < s) (d : Dist) (hd : make .normal m s = .ok d) : d.QuantilesOfDensity S := by
  have C := C101_normal S hS m s hs d hd
  have := made hd; subst this
  refine quantiles_of_cdf C fun p h0 h1 => ⟨_, rfl, ?_⟩
  have e : (m - normalQuantile S m s p) / (s * Real.sqrt 2) = -S.erfInv (2 * p - 1) := by
    have : Real.sqrt 2 ≠ 0 := by positivity
    unfold normalQuantile; field_simp; ring
  simp only [Dist.cdf, Dist.minimum, Dist.maximum, Dbl.lt, Dist.cdfInside, hs.ne', if_false, e, erfInv_neg hS h0 h1]
  rfl

/-- Log-normal. -/
theorem C102_lognormal (S : Fns) (hS : S.Good) (m s : ℝ) (hs : 0 < s) (d : Dist) (hd : make .logNormal m s = .ok d) : d.QuantilesOfDensity S := by
  have C := C101_lognormal S hS m s hs d hd
  have := made hd; subst this
  refine quantiles_of_cdf C fun p h0 h1 => ⟨_, rfl, ?_⟩
  have hpos := Real.exp_pos (m + s * Real.sqrt 2 * S.erfInv (2 * p - 1))
  have e : (m - (m + s * Real.sqrt 2 * S.erfInv (2 * p - 1))) / (s * Real.sqrt 2) = -S.erfInv (2 * p - 1) := by
    have : Real.sqrt 2 ≠ 0 := by positivity
    field_simp; ring
  rw [cdf_pos rfl rfl hpos.le]
  simp only [Dist.cdfInside, hpos.ne', hs.ne', if_false, Real.log_exp, e, erfInv_neg hS h0 h1]

/-- Chi-squared. -/
theorem C102_chi2 (S : Fns) (hS : S.Good) (k q : ℝ) (d : Dist) (hd : make .chi2 k q = .ok d) : d.QuantilesOfDensity S := by
  have C := C101_chi2 S hS k q d hd
  have hk := pos_of_make1 (Or.inr (Or.inl rfl)) hd
  have := made hd; subst this
  refine quantiles_of_cdf C fun p h0 h1 => ⟨_, rfl, ?_⟩
  obtain ⟨hp, e⟩ := hS.gammaPInv_def (k / 2) p (half_pos hk) h0 h1
  rw [cdf_pos rfl rfl (by positivity)]
  simp only [Dist.cdfInside]
  rw [mul_div_assoc, div_self two_ne_zero, mul_one, e]

/-- Gamma. -/
theorem C102_gamma (S : Fns) (hS : S.Good) (a s : ℝ) (d : Dist) (hd : make .gamma a s = .ok d) : d.QuantilesOfDensity S := by
  have C := C101_gamma S hS a s d hd
  obtain ⟨ha, hs⟩ := pos_of_make (Or.inl rfl) hd
  have := made hd; subst this
  refine quantiles_of_cdf C fun p h0 h1 => ⟨_, rfl, ?_⟩
  obtain ⟨hp, e⟩ := hS.gammaPInv_def a p ha h0 h1
  rw [cdf_pos rfl rfl (by positivity)]
  simp only [Dist.cdfInside]
  rw [mul_div_assoc, div_self hs.ne', mul_one, e]

/-- F. -/
theorem C102_f (S : Fns) (hS : S.Good) (d1 d2 : ℝ) (d : Dist) (hd : make .f d1 d2 = .ok d) : d.QuantilesOfDensity S := by
  have C := C101_f S hS d1 d2 d hd
  obtain ⟨ha, hb⟩ := pos_of_make (Or.inr (Or.inr rfl)) hd
  have := made hd; subst this
  refine quantiles_of_cdf C fun p h0 h1 => ⟨_, rfl, ?_⟩
  obtain ⟨hp, hp1, e⟩ := hS.iBetaInv_def (d1 / 2) (d2 / 2) p (half_pos ha) (half_pos hb) h0 h1
  dsimp only
  set x := S.iBetaInv (d1 / 2) (d2 / 2) p
  have hx1 : 0 < 1 - x := by linarith
  rw [cdf_pos rfl rfl (by positivity)]
  simp only [Dist.cdfInside]
  have e2 : d1 * (d2 * x / (d1 * (1 - x))) / (d1 * (d2 * x / (d1 * (1 - x))) + d2) = x := by
    have : d1 * (d2 * x / (d1 * (1 - x))) = d2 * x / (1 - x) := by field_simp
    rw [this]
    have : d2 * x / (1 - x) + d2 = d2 / (1 - x) := by field_simp; ring
    rw [this]; field_simp
  rw [e2, e]

/-- Beta. -/
theorem C102_beta (S : Fns) (hS : S.Good) (a b : ℝ) (d : Dist) (hd : make .beta a b = .ok d) : d.QuantilesOfDensity S := by
  have C := C101_beta S hS a b d hd
  obtain ⟨ha, hb⟩ := pos_of_make (Or.inr (Or.inl rfl)) hd
  have := made hd; subst this
  refine quantiles_of_cdf C fun p h0 h1 => ⟨_, rfl, ?_⟩
  obtain ⟨hp, hp1, e⟩ := hS.iBetaInv_def a b p ha hb h0 h1
  simp [Dist.cdf, Dist.minimum, Dist.maximum, Dbl.lt, not_lt.mpr hp.le, not_lt.mpr hp1.le, Dist.cdfInside, e]

/-- Exponential. -/
theorem C102_exponential (S : Fns) (l q : ℝ) (d : Dist) (hd : make .exponential l q = .ok d) : d.QuantilesOfDensity S := by
  have C := C101_exponential S l q d hd
  have hl := pos_of_make1 (Or.inr (Or.inr rfl)) hd
  have := made hd; subst this
  refine quantiles_of_cdf C fun p h0 h1 => ⟨_, rfl, ?_⟩
  have hq : 0 < 1 - p := by linarith
  have hlog : Real.log (1 - p) ≤ 0 := Real.log_nonpos hq.le (by linarith)
  have hx : 0 ≤ -Real.log (1 - p) / l := div_nonneg (by linarith) hl.le
  rw [cdf_pos rfl rfl hx]
  simp only [Dist.cdfInside]
  have : -l * (-Real.log (1 - p) / l) = Real.log (1 - p) := by field_simp
  rw [this, Real.exp_log hq]; congr 1; ring

/-- Uniform on an interval that is more than a point. -/
theorem C102_uniform (S : Fns) (a b : ℝ) (hab : a < b) (d : Dist) (hd : make .uniformCon a b = .ok d) : d.QuantilesOfDensity S := by
  have C := C101_uniform S a b hab d hd
  have := made hd; subst this
  refine quantiles_of_cdf C fun p h0 h1 => ⟨_, rfl, ?_⟩
  have hb : 0 < b - a := by linarith
  have g1 : ¬ (a + p * (b - a) < a) := by nlinarith
  have g2 : ¬ (b < a + p * (b - a)) := by nlinarith
  simp only [Dist.cdf, Dist.minimum, Dist.maximum, Dbl.lt, decide_eq_true_eq, if_neg g1, if_neg g2, Dist.cdfInside]
  rw [quot_ne hb.ne']; congr 1; field_simp; ring

theorem intUpTo_t {n q x c : ℝ} (h : HasOn (Iic x) (tF n) c) : IntUpTo (fun y => real ((Dist.mk .t n q).pdf y)) x c := by
  have e : (fun y => real ((Dist.mk .t n q).pdf y)) = tF n := by funext y; rw [t_pdf]; rfl
  rw [e]; exact h

/-- Student's t, for all accepted degrees of freedom, with the closed forms for 1, 2 and 4. -/
theorem C102_t (S : Fns) (hS : S.Good) (n q : ℝ) (d : Dist) (hd : make .t n q = .ok d) : d.QuantilesOfDensity S := by
  have C := C101_t S hS n q d hd
  have hn := pos_of_make1 (Or.inl rfl) hd
  have := made hd; subst this
  have hcdf : ∀ x, (Dist.mk .t n q).cdf S x = (Dist.mk .t n q).cdfInside S x := fun x => by simp [Dist.cdf, Dist.minimum, Dist.maximum, Dbl.lt]
  have of_cdf : ∀ x p, (Dist.mk .t n q).cdf S x = .num p → IntUpTo (fun y => real ((Dist.mk .t n q).pdf y)) x p := fun x p h => by
    obtain ⟨c, hc, hu⟩ := C x
    rw [h] at hc
    obtain rfl := Dbl.num.inj hc
    exact hu
  intro p h0 h1
  rw [quantile_in h0 h1]
  simp only [Dist.quantileInside]
  by_cases hh : p = 1 / 2
  · rw [if_pos hh]
    refine ⟨0, rfl, of_cdf _ _ ?_⟩
    rw [hcdf]
    simp only [Dist.cdfInside, le_refl, if_true]
    rw [mul_zero, zero_add, div_self hn.ne', iBeta_one hS (half_pos hn) one_half_pos, hh]; norm_num
  rw [if_neg hh]
  by_cases h_1 : n = 1
  · rw [if_pos h_1]
    subst h_1
    refine ⟨_, rfl, intUpTo_t ?_⟩
    have hpi := Real.pi_pos
    have ht : Real.arctan (Real.tan (Real.pi * (p - 1 / 2))) = Real.pi * (p - 1 / 2) :=
      Real.arctan_tan (by nlinarith) (by nlinarith)
    have := t_one (Real.tan (Real.pi * (p - 1 / 2)))
    rw [ht] at this
    convert this using 1
    field_simp; ring
  rw [if_neg h_1]
  by_cases h_2 : n = 2
  · rw [if_pos h_2]
    subst h_2
    refine ⟨_, rfl, intUpTo_t ?_⟩
    have := t_two ((2 * p - 1) * Real.sqrt (2 / (4 * p * (1 - p))))
    rw [t_two_inv h0 h1] at this
    convert this using 1
    ring
  rw [if_neg h_2]
  by_cases h_4 : n = 4
  · rw [if_pos h_4]
    subst h_4
    refine ⟨_, rfl, intUpTo_t ?_⟩
    have := t_four ((SignType.sign (p - 1 / 2) : ℝ) * 2 * Real.sqrt (Real.cos (1 / 3 * Real.arccos (Real.sqrt (4 * p * (1 - p)))) / Real.sqrt (4 * p * (1 - p)) - 1))
    rw [t_four_inv h0 h1 hh] at this
    exact this
  rw [if_neg h_4]
  have back : ∀ r, 0 < r → r < 1 → 0 < Real.sqrt (n * (1 - S.iBetaInv (n / 2) (1 / 2) r) / S.iBetaInv (n / 2) (1 / 2) r) ∧
      S.iBeta (n / 2) (1 / 2) (n / (Real.sqrt (n * (1 - S.iBetaInv (n / 2) (1 / 2) r) / S.iBetaInv (n / 2) (1 / 2) r) *
        Real.sqrt (n * (1 - S.iBetaInv (n / 2) (1 / 2) r) / S.iBetaInv (n / 2) (1 / 2) r) + n)) = r := by
    intro r hr hr1
    obtain ⟨hp, hp1, e⟩ := hS.iBetaInv_def (n / 2) (1 / 2) r (half_pos hn) one_half_pos hr hr1
    generalize S.iBetaInv (n / 2) (1 / 2) r = x at *
    have hx1 : 0 < 1 - x := by linarith
    have hpos : 0 < n * (1 - x) / x := by positivity
    refine ⟨Real.sqrt_pos.mpr hpos, ?_⟩
    rw [Real.mul_self_sqrt hpos.le]
    have : n / (n * (1 - x) / x + n) = x := by
      have : n * (1 - x) / x + n = n / x := by field_simp; ring
      rw [this]; field_simp
    rw [this, e]
  by_cases hl : p < 1 / 2
  · obtain ⟨hy, e⟩ := back (2 * p) (by linarith) (by linarith)
    rw [if_pos hl, if_pos hl]
    refine ⟨_, rfl, of_cdf _ _ ?_⟩
    rw [hcdf]
    simp only [Dist.cdfInside]
    rw [if_pos (by linarith), neg_mul_neg, e]; congr 1; ring
  · have hl' : 1 / 2 < p := lt_of_le_of_ne (not_lt.mp hl) (Ne.symm hh)
    obtain ⟨hy, e⟩ := back (2 * (1 - p)) (by linarith) (by linarith)
    rw [if_neg hl, if_neg hl]
    refine ⟨_, rfl, of_cdf _ _ ?_⟩
    rw [hcdf]
    simp only [Dist.cdfInside]
    rw [if_neg (by linarith), e]; congr 1; ring

/-! ## Searches -/

/-- The downward search finds the first value, going down, whose predecessor is below `p`. -/
theorem searchDown_spec {cdf : ℝ → Dbl ℝ} {p : ℝ} : ∀ (i : Nat) (k : ℤ) (x : ℝ), ¬ (cdf k).lt (.num p) → searchDown cdf p i k = .num x →
    ∃ j : ℤ, x = j ∧ j ≤ k ∧ ¬ (cdf j).lt (.num p) ∧ (cdf ((j - 1 : ℤ) : ℝ)).lt (.num p)
  | 0, k, x, _, h => by simp [searchDown] at h
  | i + 1, k, x, hk, h => by
    simp only [searchDown] at h
    have e : (k : ℝ) - 1 = ((k - 1 : ℤ) : ℝ) := by push_cast; ring
    rw [e] at h
    split_ifs at h with hlt
    · refine ⟨k, ?_, le_rfl, hk, hlt⟩
      have := (Dbl.num.inj h).symm
      rw [this]; push_cast; ring
    · obtain ⟨j, h1, h2, h3, h4⟩ := searchDown_spec i (k - 1) x hlt h
      exact ⟨j, h1, by omega, h3, h4⟩

/-- The upward search finds the first value, going up, that reaches `p`. -/
theorem searchUp_spec {cdf : ℝ → Dbl ℝ} {p : ℝ} : ∀ (i : Nat) (k : ℤ) (x : ℝ), searchUp cdf p i k = .num x →
    ∃ j : ℤ, x = j ∧ k < j ∧ (Dbl.num p).le (cdf j) ∧ (j - 1 = k ∨ ¬ (Dbl.num p).le (cdf ((j - 1 : ℤ) : ℝ)))
  | 0, k, x, h => by simp [searchUp] at h
  | i + 1, k, x, h => by
    simp only [searchUp] at h
    have e : (k : ℝ) + 1 = ((k + 1 : ℤ) : ℝ) := by push_cast; ring
    rw [e] at h
    split_ifs at h with hle
    · exact ⟨k + 1, (Dbl.num.inj h).symm, by omega, hle, Or.inl (by omega)⟩
    · obtain ⟨j, h1, h2, h3, h4⟩ := searchUp_spec i (k + 1) x h
      refine ⟨j, h1, by omega, h3, Or.inr ?_⟩
      rcases h4 with h4 | h4
      · rw [h4]; exact hle
      · exact h4

theorem searchUp_step (cdf : ℝ → Dbl ℝ) (p : ℝ) (i : Nat) (q : ℝ) :
    searchUp cdf p (i + 1) q = if (Dbl.num p).le (cdf (q + 1)) then .num (q + 1) else searchUp cdf p i (q + 1) := rfl

theorem searchDown_step (cdf : ℝ → Dbl ℝ) (p : ℝ) (i : Nat) (q : ℝ) :
    searchDown cdf p (i + 1) q = if (cdf (q - 1)).lt (Dbl.num p) then .num (q - 1 + 1) else searchDown cdf p i (q - 1) := rfl

theorem search_start (S : Fns) (d : Dist) (m v : ℝ) (lo : ℤ) (hi : Option ℤ) (p : ℝ) : ∃ k : ℤ, (∀ h, hi = some h → k ≤ h) ∧
    searchQuantile S d m v lo (hi.map fun h : ℤ => (h : ℝ)) p =
      if (Dbl.num p).lt (d.cdf S k) then searchDown (d.cdf S) p 100 k else searchUp (d.cdf S) p 100 k := by
  cases hi with
  | none =>
    refine ⟨max lo ⌊normalQuantile S m v p⌋, by simp, ?_⟩
    simp only [searchQuantile, Option.map]
    push_cast
    rfl
  | some h =>
    refine ⟨min h (max lo ⌊normalQuantile S m v p⌋), by intro h' hh; obtain rfl := Option.some.inj hh; exact min_le_left _ _, ?_⟩
    simp only [searchQuantile, Option.map]
    push_cast
    rfl

/-- A result is a quantile, if the distribution function is right at it and just below. -/
theorem search_quantile {S : Fns} {d : Dist} {p : ℝ} {k : ℤ} {x : ℝ}
    (h : (if (Dbl.num p).lt (d.cdf S k) then searchDown (d.cdf S) p 100 k else searchUp (d.cdf S) p 100 k) = .num x) :
    ∃ j : ℤ, x = j ∧ (j = k ∨ j < k ∨ k < j) ∧ (d.CdfOfMassAt S j → d.CdfOfMassAt S ((j - 1 : ℤ) : ℝ) → d.IsQuantile p j) := by
  split_ifs at h with hlt
  · have hn : ¬ (d.cdf S k).lt (.num p) = true := by
      intro hc
      cases hcd : d.cdf S k with
      | num c => rw [hcd] at hlt hc; simp only [Dbl.lt, decide_eq_true_eq] at hlt hc; linarith
      | nan => rw [hcd] at hlt; simp [Dbl.lt] at hlt
      | pinf => rw [hcd] at hc; simp [Dbl.lt] at hc
      | ninf => rw [hcd] at hlt; simp [Dbl.lt] at hlt
    obtain ⟨j, hj, hjk, h1, h2⟩ := searchDown_spec 100 k x hn h
    refine ⟨j, hj, by omega, fun ⟨c, hc, hs⟩ ⟨c', hc', hs'⟩ => ⟨c', c, hs', hs, ?_, ?_⟩⟩
    · rw [hc'] at h2; simp only [Dbl.lt, decide_eq_true_eq] at h2; exact h2.le
    · rw [hc] at h1; simp only [Dbl.lt, decide_eq_true_eq, not_lt] at h1; exact h1
  · obtain ⟨j, hj, hjk, h1, h2⟩ := searchUp_spec 100 k x h
    refine ⟨j, hj, by omega, fun ⟨c, hc, hs⟩ ⟨c', hc', hs'⟩ => ⟨c', c, hs', hs, ?_, ?_⟩⟩
    · rcases h2 with h2 | h2
      · rw [h2] at hc'
        rw [hc'] at hlt; simp only [Dbl.lt, decide_eq_true_eq, not_lt] at hlt; exact hlt
      · rw [hc'] at h2; simp only [Dbl.le, decide_eq_true_eq, not_le] at h2; exact h2.le
    · rw [hc] at h1; simp only [Dbl.le, decide_eq_true_eq] at h1; exact h1

/-- Poisson with a positive rate: a result is a quantile. Missing: there need not be a result. -/
theorem C102_poisson_partial (S : Fns) (hS : S.Good) (l q : ℝ) (hl : 0 < l) (d : Dist) (hd : make .poisson l q = .ok d) (p x : ℝ) (h0 : 0 < p) (h1 : p < 1)
    (h : d.quantile S p = .num x) : ∃ j : ℤ, x = j ∧ d.IsQuantile p j := by
  have C := C101_poisson S hS l q hl d hd
  have := made hd; subst this
  rw [quantile_in h0 h1] at h
  obtain ⟨k, _, e⟩ := search_start S (Dist.mk .poisson l q) l l 0 none p
  have h' : searchQuantile S (Dist.mk .poisson l q) l l ((0 : ℤ) : ℝ) (Option.map (fun h : ℤ => (h : ℝ)) none) p = .num x := by
    simpa [Dist.quantileInside] using h
  rw [e] at h'
  obtain ⟨j, hj, _, hq⟩ := search_quantile h'
  exact ⟨j, hj, hq (C j) (C (j - 1))⟩

/-- Geometric with a positive probability: a result is a quantile. Missing: there need not be a result. -/
theorem C102_geometric_partial (S : Fns) (r q : ℝ) (d : Dist) (hd : make .geometric r q = .ok d) (p x : ℝ) (h0 : 0 < p) (h1 : p < 1)
    (h : d.quantile S p = .num x) : ∃ j : ℤ, x = j ∧ d.IsQuantile p j := by
  have C := C101_geometric S r q d hd
  have := made hd; subst this
  rw [quantile_in h0 h1] at h
  obtain ⟨k, _, e⟩ := search_start S (Dist.mk .geometric r q) ((1 - r) / r) ((1 - r) / (r * r)) 0 none p
  have h' : searchQuantile S (Dist.mk .geometric r q) ((1 - r) / r) ((1 - r) / (r * r)) ((0 : ℤ) : ℝ) (Option.map (fun h : ℤ => (h : ℝ)) none) p = .num x := by
    simpa [Dist.quantileInside] using h
  rw [e] at h'
  obtain ⟨j, hj, _, hq⟩ := search_quantile h'
  exact ⟨j, hj, hq (C j) (C (j - 1))⟩

/-- Binomial with a positive probability: a result below the number of trials is a quantile. -/
theorem C102_binomial_partial (S : Fns) (hS : S.Good) (r : ℝ) (hr : 0 < r) (n : ℕ) (d : Dist) (hd : make .binomial r n = .ok d) (p x : ℝ) (h0 : 0 < p) (h1 : p < 1)
    (h : d.quantile S p = .num x) (hx : x < n) : ∃ j : ℤ, x = j ∧ d.IsQuantile p j := by
  have C := C101_binomial_partial S hS r hr n d hd
  have := made hd; subst this
  rw [quantile_in h0 h1] at h
  obtain ⟨k, _, e⟩ := search_start S (Dist.mk .binomial r n) (r * n) (r * (1 - r) * n) 0 (some (n : ℤ)) p
  have h' : searchQuantile S (Dist.mk .binomial r n) (r * n) (r * (1 - r) * n) ((0 : ℤ) : ℝ) (Option.map (fun h : ℤ => (h : ℝ)) (some (n : ℤ))) p = .num x := by
    simpa [Dist.quantileInside] using h
  rw [e] at h'
  obtain ⟨j, hj, _, hq⟩ := search_quantile h'
  rw [hj] at hx
  have hjn : j < (n : ℤ) := by exact_mod_cast hx
  exact ⟨j, hj, hq (C j (by omega)) (C (j - 1) (by omega))⟩

/-! ## Violations -/

/-- Bernoulli: every quantile is one, whatever the probability. -/
theorem C102_bernoulli_violated (S : Fns) (r q : ℝ) (d : Dist) (hd : make .bernoulli r q = .ok d) (p : ℝ) (h0 : 0 < p) (h1 : p < 1) : d.quantile S p = .num 1 := by
  have := made hd; subst this
  rw [quantile_in h0 h1]
  obtain ⟨z, hz⟩ : ∃ z, (Dist.mk .bernoulli r q).quantileInside S p =
      if (Dbl.num p).lt ((Dist.mk .bernoulli r q).cdf S (min 1 (max 0 ((⌊z⌋ : ℤ) : ℝ))))
        then searchDown ((Dist.mk .bernoulli r q).cdf S) p 100 (min 1 (max 0 ((⌊z⌋ : ℤ) : ℝ))) else searchUp ((Dist.mk .bernoulli r q).cdf S) p 100 (min 1 (max 0 ((⌊z⌋ : ℤ) : ℝ))) :=
    ⟨_, rfl⟩
  rw [hz]
  have c0 : (Dist.mk .bernoulli r q).cdf S 0 = .num 0 := by simp [Dist.cdf, Dist.minimum, Dist.maximum, Dbl.lt, Dist.cdfInside]
  have c1 : (Dist.mk .bernoulli r q).cdf S 1 = .num 1 := by simp [Dist.cdf, Dist.minimum, Dist.maximum, Dbl.lt, Dist.cdfInside]
  have hz01 : min 1 (max 0 ((⌊z⌋ : ℤ) : ℝ)) = 0 ∨ min 1 (max 0 ((⌊z⌋ : ℤ) : ℝ)) = 1 := by
    rcases le_or_gt ⌊z⌋ 0 with h | h
    · left
      have : ((⌊z⌋ : ℤ) : ℝ) ≤ 0 := by exact_mod_cast h
      rw [max_eq_left this]; norm_num
    · right
      have : (1 : ℝ) ≤ ((⌊z⌋ : ℤ) : ℝ) := by exact_mod_cast h
      rw [max_eq_right (by linarith), min_eq_left this]
  rcases hz01 with e | e
  · rw [e, c0, if_neg (by simp [Dbl.lt, h0.le])]
    rw [searchUp_step _ _ 99, zero_add, c1]
    rw [if_pos (by simp [Dbl.le, h1.le])]
  · rw [e, c1, if_pos (by simp [Dbl.lt, h1])]
    rw [searchDown_step _ _ 99, sub_self, c0]
    rw [if_pos (by simp [Dbl.lt, h0]), zero_add]

/-- A coin that hardly ever falls on one: its median is reported as one, and one is no median. -/
theorem C102_bernoulli_median_violated (S : Fns) : ∃ d, make .bernoulli (1 / 10) 0 = .ok d ∧ d.quantile S (1 / 2) = .num 1 ∧ ¬ d.IsQuantile (1 / 2) 1 := by
  have hd : make .bernoulli (1 / 10) 0 = .ok ⟨.bernoulli, 1 / 10, 0⟩ := by simp only [make]; rw [if_neg (by norm_num)]
  refine ⟨_, hd, C102_bernoulli_violated S _ _ _ hd _ (by norm_num) (by norm_num), ?_⟩
  rintro ⟨lo, hi, h1, _, h3, _⟩
  have hs := onNat_upTo (fun n : ℕ => ((1 : ℕ).choose n : ℝ) * (1 / 10 : ℝ) ^ n * (1 - 1 / 10) ^ (1 - n)) 0 le_rfl
  rw [mass_onNat rfl (bernoulli_pdf (1 / 10) 0)] at h1
  have e : (((1 : ℤ) - 1 : ℤ) : ℝ) = 0 := by norm_num
  rw [e] at h1
  have := h1.unique hs
  simp at this
  linarith

/-- Binomial: a quantile above the maximum. -/
theorem C102_binomial_violated (S : Fns) (hS : S.Good) : ∃ d, make .binomial (1 / 2) (1 : ℕ) = .ok d ∧ d.quantile S (3 / 4) = .num 2 ∧ d.maximum = .num 1 := by
  have hd : make .binomial (1 / 2) (1 : ℕ) = .ok ⟨.binomial, 1 / 2, (1 : ℕ)⟩ := by
    simp only [make]; rw [if_neg (by norm_num), if_neg (by norm_num)]
  refine ⟨_, hd, ?_, by simp [Dist.maximum]⟩
  rw [quantile_in (by norm_num) (by norm_num)]
  obtain ⟨z, hz⟩ : ∃ z, (Dist.mk .binomial (1 / 2) (1 : ℕ)).quantileInside S (3 / 4) =
      if (Dbl.num (3 / 4)).lt ((Dist.mk .binomial (1 / 2) (1 : ℕ)).cdf S (min ((1 : ℕ) : ℝ) (max 0 ((⌊z⌋ : ℤ) : ℝ))))
        then searchDown ((Dist.mk .binomial (1 / 2) (1 : ℕ)).cdf S) (3 / 4) 100 (min ((1 : ℕ) : ℝ) (max 0 ((⌊z⌋ : ℤ) : ℝ)))
        else searchUp ((Dist.mk .binomial (1 / 2) (1 : ℕ)).cdf S) (3 / 4) 100 (min ((1 : ℕ) : ℝ) (max 0 ((⌊z⌋ : ℤ) : ℝ))) :=
    ⟨_, rfl⟩
  rw [hz]
  obtain ⟨c, hc, hs⟩ := C101_binomial_partial S hS (1 / 2) (by norm_num) 1 _ hd 0 (by norm_num)
  have c0 : (Dist.mk .binomial (1 / 2) (1 : ℕ)).cdf S 0 = .num (1 / 2) := by
    rw [mass_onNat rfl (binomial_pdf (1 / 2) 1)] at hs
    have hs' := onNat_upTo (fun k : ℕ => ((1 : ℕ).choose k : ℝ) * (1 / 2 : ℝ) ^ k * (1 - 1 / 2) ^ (1 - k)) 0 le_rfl
    have e0 : ((0 : ℤ) : ℝ) = 0 := by norm_num
    rw [e0] at hs hc
    have := hs.unique hs'
    rw [hc, this]
    simp; norm_num
  have c1 : (Dist.mk .binomial (1 / 2) (1 : ℕ)).cdf S 1 = .nan := by
    simp [Dist.cdf, Dist.minimum, Dist.maximum, Dbl.lt, Dist.cdfInside]
  have c2 : (Dist.mk .binomial (1 / 2) (1 : ℕ)).cdf S 2 = .num 1 := by
    simp [Dist.cdf, Dist.minimum, Dist.maximum, Dbl.lt]
  have hz01 : min ((1 : ℕ) : ℝ) (max 0 ((⌊z⌋ : ℤ) : ℝ)) = 0 ∨ min ((1 : ℕ) : ℝ) (max 0 ((⌊z⌋ : ℤ) : ℝ)) = 1 := by
    rcases le_or_gt ⌊z⌋ 0 with h | h
    · left
      have : ((⌊z⌋ : ℤ) : ℝ) ≤ 0 := by exact_mod_cast h
      rw [max_eq_left this]; norm_num
    · right
      have : (1 : ℝ) ≤ ((⌊z⌋ : ℤ) : ℝ) := by exact_mod_cast h
      rw [max_eq_right (by linarith), min_eq_left (by simpa using this)]; norm_num
  have e2 : (1 : ℝ) + 1 = 2 := by norm_num
  rcases hz01 with e | e
  · rw [e, c0, if_neg (by simp only [Dbl.lt, decide_eq_true_eq]; norm_num)]
    rw [searchUp_step _ _ 99, searchUp_step _ _ 98, zero_add, c1, e2, c2]
    rw [if_neg (by simp [Dbl.le]), if_pos (by simp only [Dbl.le, decide_eq_true_eq]; norm_num)]
  · rw [e, c1, if_neg (by simp [Dbl.lt])]
    rw [searchUp_step _ _ 99, e2, c2]
    rw [if_pos (by simp only [Dbl.le, decide_eq_true_eq]; norm_num)]

theorem searchDown_nan {cdf : ℝ → Dbl ℝ} {p : ℝ} : ∀ (i : Nat) (k : ℤ), (∀ j : ℤ, k - i ≤ j → j < k → ¬ (cdf j).lt (.num p)) → searchDown cdf p i k = .nan
  | 0, _, _ => rfl
  | i + 1, k, h => by
    simp only [searchDown]
    have e : (k : ℝ) - 1 = ((k - 1 : ℤ) : ℝ) := by push_cast; ring
    rw [e, if_neg (h (k - 1) (by push_cast; omega) (by omega))]
    exact searchDown_nan i (k - 1) fun j h1 h2 => h j (by push_cast; omega) (by omega)

theorem power_small (y : ℝ) (hy : 900 ≤ y) : (1 - 1 / 1000 : ℝ) ^ y < 1 / 2 := by
  have h0 : (0 : ℝ) ≤ 1 - 1 / 1000 := by norm_num
  have h1 : (1 - 1 / 1000 : ℝ) ^ y ≤ Real.exp (-(1 / 1000)) ^ y :=
    Real.rpow_le_rpow h0 (by have := Real.add_one_le_exp (-(1 / 1000) : ℝ); linarith) (by linarith)
  rw [← Real.exp_mul] at h1
  have h2 : Real.exp (-(1 / 1000) * y) ≤ Real.exp (-(9 / 10)) := Real.exp_le_exp.mpr (by linarith)
  have hb : (2 : ℝ) < Real.exp (9 / 10) := by
    have := Real.quadratic_le_exp_of_nonneg (show (0 : ℝ) ≤ 9 / 10 by norm_num)
    linarith
  have h3 : Real.exp (-(9 / 10)) < 1 / 2 := by
    rw [Real.exp_neg, inv_lt_comm₀ (by positivity) (by norm_num), one_div, inv_inv]; exact hb
  linarith

/-- Geometric: no median is found within the hundred steps of the search. -/
theorem C102_geometric_violated (S : Fns) (hS : S.Good) : ∃ d, make .geometric (1 / 1000) 0 = .ok d ∧ d.quantile S (1 / 2) = .nan := by
  have hd : make .geometric (1 / 1000) 0 = .ok ⟨.geometric, 1 / 1000, 0⟩ := by simp only [make]; rw [if_neg (by norm_num)]
  refine ⟨_, hd, ?_⟩
  rw [quantile_in (by norm_num) (by norm_num)]
  have hq : ∀ v : ℝ, ⌊normalQuantile S ((1 - 1 / 1000) / (1 / 1000)) v (1 / 2)⌋ = 999 := by
    intro v
    rw [normalQuantile, show (2 : ℝ) * (1 / 2) - 1 = 0 by norm_num, erfInv_zero hS]
    rw [mul_zero, add_zero, show ((1 : ℝ) - 1 / 1000) / (1 / 1000) = (999 : ℤ) by norm_num, Int.floor_intCast]
  simp only [Dist.quantileInside, searchQuantile, hq]
  have hm : max (0 : ℝ) ((999 : ℤ) : ℝ) = ((999 : ℤ) : ℝ) := by norm_num
  rw [hm]
  have key : ∀ j : ℤ, 899 ≤ j → ∃ c, (Dist.mk .geometric (1 / 1000) 0).cdf S j = .num c ∧ 1 / 2 < c := by
    intro j hj
    have hj0 : (899 : ℝ) ≤ j := by exact_mod_cast hj
    refine ⟨1 - (1 - 1 / 1000) ^ ((j : ℝ) + 1), by rw [cdf_pos rfl rfl (by linarith)]; rfl, ?_⟩
    have := power_small (j + 1) (by linarith)
    linarith
  obtain ⟨c, hc, hc'⟩ := key 999 (by norm_num)
  rw [hc, if_pos (by simp only [Dbl.lt, decide_eq_true_eq]; exact hc')]
  refine searchDown_nan 100 999 fun j h1 _ => ?_
  obtain ⟨c, hc, hc'⟩ := key j (by push_cast at h1; omega)
  rw [hc]; simp only [Dbl.lt, decide_eq_true_eq]; linarith

/-- Discrete uniform: the 99 per cent quantile of a die is reported as five, and five is none. -/
theorem C102_uniform_discrete_violated (S : Fns) : ∃ d, make .uniformDis (1 : ℤ) (6 : ℤ) = .ok d ∧ d.quantile S (99 / 100) = .num 5 ∧ ¬ d.IsQuantile (99 / 100) 5 := by
  have hd : make .uniformDis (1 : ℤ) (6 : ℤ) = .ok ⟨.uniformDis, (1 : ℤ), (6 : ℤ)⟩ := by simp only [make]; rw [if_neg (by norm_num)]
  refine ⟨_, hd, ?_, ?_⟩
  · rw [quantile_in (by norm_num) (by norm_num)]
    simp only [Dist.quantileInside]
    have : ⌊((1 : ℤ) : ℝ) + 99 / 100 * (((6 : ℤ) : ℝ) - ((1 : ℤ) : ℝ))⌋ = 5 := by rw [Int.floor_eq_iff]; norm_num
    rw [this]; norm_num
  · rintro ⟨lo, hi, _, h2, _, h4⟩
    obtain ⟨c, hc, hs⟩ := C101_uniform_discrete S 1 6 _ hd ((5 : ℤ) : ℝ)
    have e := h2.unique hs
    have hcv : (Dist.mk .uniformDis (1 : ℤ) (6 : ℤ)).cdf S ((5 : ℤ) : ℝ) = .num (5 / 6) := by
      have n1 : ¬ (((5 : ℤ) : ℝ) < ((1 : ℤ) : ℝ)) := by norm_num
      have n2 : ¬ (((6 : ℤ) : ℝ) < ((5 : ℤ) : ℝ)) := by norm_num
      simp only [Dist.cdf, Dist.minimum, Dist.maximum, Dbl.lt, decide_eq_true_eq, if_neg n1, if_neg n2, Dist.cdfInside, Int.floor_intCast]
      congr 1; norm_num
    rw [hcv] at hc
    have := Dbl.num.inj hc
    rw [e, ← this] at h4
    norm_num at h4

/-- The hypotheses are met. -/
example : ∃ S : Fns, S.Good ∧ (∃ d, make .t 3 0 = .ok d ∧ d.QuantilesOfDensity S) ∧ (∃ d, make .f 3 4 = .ok d ∧ d.QuantilesOfDensity S) := by
  obtain ⟨S, hS⟩ := good_exists
  exact ⟨S, hS, ⟨⟨.t, 3, 0⟩, by norm_num [make], C102_t S hS 3 0 _ (by norm_num [make])⟩,
    ⟨⟨.f, 3, 4⟩, by norm_num [make], C102_f S hS 3 4 _ (by norm_num [make])⟩⟩

end Di
end LDT
