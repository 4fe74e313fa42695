import Verif.Lemmas.DistCdf
import Verif.Lemmas.DistGood
import Verif.Props.DistContinuous
import Mathlib.Analysis.SpecialFunctions.Integrals.Basic
/-!
# C101: distribution functions

`GetCdf(x)` is the integral of the density, or the sum of the mass function, up to `x`. The special functions taken from boost satisfy
their definitions (`Special`), which determine the functions erfc, P and I.
-/
namespace LDT
namespace Di
open Op MeasureTheory Set

/-- The distribution function is a number, the probability of values up to `x` under the reported density. -/
def Dist.CdfOfDensity (S : Fns) (d : Dist) : Prop := ∀ x, ∃ c, d.cdf S x = .num c ∧ IntUpTo (fun y => real (d.pdf y)) x c

/-- The same at `x`, under the reported mass function. -/
def Dist.CdfOfMassAt (S : Fns) (d : Dist) (x : ℝ) : Prop := ∃ c, d.cdf S x = .num c ∧ SumUpTo d.mass x c

/-! ## Tools -/

theorem ftc {F f : ℝ → ℝ} {a b : ℝ} (hab : a ≤ b) (hd : ∀ t, HasDerivAt F (f t) t) (hc : Continuous f) :
    HasOn (Ioo a b) f (F b - F a) := by
  refine ⟨?_, ?_⟩
  · exact (hc.integrableOn_Icc (a := a) (b := b)).mono_set Ioo_subset_Icc_self
  · rw [← integral_Ioc_eq_integral_Ioo, ← intervalIntegral.integral_of_le hab]
    exact intervalIntegral.integral_eq_sub_of_hasDerivAt (fun t _ => hd t) (hc.intervalIntegrable a b)

theorem cdf_below {S : Fns} {d : Dist} (h : d.minimum = .num 0) {x : ℝ} (hx : x < 0) : d.cdf S x = .num 0 := by
  simp [Dist.cdf, h, Dbl.lt, hx]

theorem cdf_pos {S : Fns} {d : Dist} (h : d.minimum = .num 0) (h' : d.maximum = .pinf) {x : ℝ} (hx : 0 ≤ x) : d.cdf S x = d.cdfInside S x := by
  simp [Dist.cdf, h, h', Dbl.lt, not_lt.mpr hx]

/-- Laws on the positive numbers. -/
theorem cdf_positive {S : Fns} {d : Dist} {F : ℝ → ℝ} (hmin : d.minimum = .num 0) (hmax : d.maximum = .pinf)
    (hpdf : ∀ x, x ≠ 0 → d.pdf x = .num (F x)) (h : ∀ x, 0 ≤ x → ∃ c, d.cdfInside S x = .num c ∧ HasOn (Ioo 0 x) F c) : d.CdfOfDensity S := by
  intro x
  rcases lt_or_ge x 0 with hx | hx
  · refine ⟨0, cdf_below hmin hx, upTo_below finite_empty fun y hy _ => ?_⟩
    rw [pdf_below hmin (lt_of_le_of_lt hy hx)]; rfl
  · obtain ⟨c, hc, ho⟩ := h x hx
    refine ⟨c, by rw [cdf_pos hmin hmax hx, hc], upTo_of (finite_singleton 0) ho (fun y _ _ hy => ?_) (fun y hy _ => ?_)⟩
    · rw [hpdf y hy]; rfl
    · rw [pdf_below hmin hy]; rfl

theorem gamma_pdf {a s x : ℝ} (hx : x ≠ 0) : (Dist.mk .gamma a s).pdf x = .num (gammaF a s x) := by
  rcases lt_or_gt_of_ne hx with h0 | h0
  · rw [pdf_below rfl h0]; simp [gammaF, not_lt.mpr h0.le]
  · rw [possible_pos rfl rfl h0]
    simp [Dist.density, orInf, hx, gammaF, h0]

theorem chi2_pdf {k q x : ℝ} (h : 0 < k) (hx : x ≠ 0) : (Dist.mk .chi2 k q).pdf x = .num (gammaF (k / 2) 2 x) := by
  rcases lt_or_gt_of_ne hx with h0 | h0
  · rw [pdf_below rfl h0]; simp [gammaF, not_lt.mpr h0.le]
  · rw [possible_pos rfl rfl h0]
    simp only [Dist.density, orInf, gammaF, if_pos h0]
    rw [if_neg (fun hc => hx hc.1), Real.rpow_neg (by norm_num)]
    congr 1
    have := Real.rpow_pos_of_pos (show (0 : ℝ) < 2 by norm_num) (k / 2)
    have := Real.Gamma_pos_of_pos (half_pos h)
    field_simp

theorem lognormal_pdf {m s x : ℝ} (hs : 0 < s) (hx : x ≠ 0) : (Dist.mk .logNormal m s).pdf x = .num (logF m s x) := by
  by_cases h : x < 0
  · simp [Dist.pdf, Dist.impossible, Dist.minimum, Dbl.lt, h, logF, not_lt.mpr h.le]
  · have h' : 0 < x := lt_of_le_of_ne (not_lt.mp h) hx.symm
    simp [Dist.pdf, Dist.impossible, Dist.minimum, Dist.maximum, Dbl.lt, h, Dist.density, hs.ne', hx, logF, h']

theorem normal_pdf {m s : ℝ} (hs : 0 < s) (x : ℝ) : (Dist.mk .normal m s).pdf x = .num (normF m s x) := by
  simp [Dist.pdf, Dist.impossible, Dist.minimum, Dist.maximum, Dbl.lt, Dist.density, hs.ne', normF]

theorem t_pdf (n q x : ℝ) : (Dist.mk .t n q).pdf x = .num (tF n x) := by
  simp [Dist.pdf, Dist.impossible, Dist.minimum, Dist.maximum, Dbl.lt, Dist.density, tF]

theorem exponential_pdf {l q x : ℝ} (hx : 0 ≤ x) : (Dist.mk .exponential l q).pdf x = .num (l * Real.exp (-l * x)) := by
  simp [Dist.pdf, Dist.impossible, Dist.minimum, Dist.maximum, Dbl.lt, Dist.density, not_lt.mpr hx]

theorem beta_pdf {a b x : ℝ} (h0 : x ≠ 0) (h1 : x ≠ 1) : (Dist.mk .beta a b).pdf x = .num (betaF a b x) := by
  by_cases hin : 0 < x ∧ x < 1
  · have hi : (Dist.mk .beta a b).impossible x = false := by
      simp [Dist.impossible, Dist.minimum, Dist.maximum, Dbl.lt, not_lt.mpr hin.1.le, not_lt.mpr hin.2.le]
    have h1' : 1 - x ≠ 0 := by linarith [hin.2]
    simp [Dist.pdf, hi, Dist.density, h0, h1', betaF, hin]
  · have hi : (Dist.mk .beta a b).impossible x = true := by
      simp only [Dist.impossible, Dist.minimum, Dist.maximum, Dbl.lt, Bool.or_eq_true, decide_eq_true_eq]
      rw [not_and_or, not_lt, not_lt] at hin
      rcases hin with h | h
      · exact Or.inl (lt_of_le_of_ne h h0)
      · exact Or.inr (lt_of_le_of_ne h (Ne.symm h1))
    simp [Dist.pdf, hi, betaF, hin]

theorem uniformCon_pdf {a b : ℝ} (hab : a < b) (x : ℝ) : (Dist.mk .uniformCon a b).pdf x = .num (uniF a b x) := by
  have hb : b - a ≠ 0 := by linarith
  by_cases h : a ≤ x ∧ x ≤ b
  · simp [Dist.pdf, Dist.impossible, Dist.minimum, Dist.maximum, Dbl.lt, Dist.density, uniF, h.1, h.2, quot, hb]
  · have : (Dist.mk .uniformCon a b).impossible x = true := by
      simp only [Dist.impossible, Dist.minimum, Dist.maximum, Dbl.lt, Bool.or_eq_true, decide_eq_true_eq]
      rw [not_and_or, not_le, not_le] at h; exact h
    simp [Dist.pdf, this, uniF, h]

theorem pos_of_make {k : Kind} {a s : ℝ} {d : Dist} (hk : k = .gamma ∨ k = .beta ∨ k = .f) (hd : make k a s = .ok d) : 0 < a ∧ 0 < s := by
  by_contra h
  have : a ≤ 0 ∨ s ≤ 0 := by rw [not_and_or, not_lt, not_lt] at h; exact h
  rcases hk with rfl | rfl | rfl <;> simp [make, this] at hd

theorem pos_of_make1 {k : Kind} {a s : ℝ} {d : Dist} (hk : k = .t ∨ k = .chi2 ∨ k = .exponential) (hd : make k a s = .ok d) : 0 < a := by
  by_contra h
  rcases hk with rfl | rfl | rfl <;> simp [make, not_lt.mp h] at hd

/-! ## Continuous distributions -/

/-- Normal. -/
theorem C101_normal (S : Fns) (hS : S.Good) (m s : ℝ) (hs : 0 < s) (d : Dist) (hd : make .normal m s = .ok d) : d.CdfOfDensity S := by
  have := made hd; subst this
  intro x
  refine ⟨1 / 2 * S.erfc ((m - x) / (s * Real.sqrt 2)), ?_, (upTo_iio (normal_below hS m s x hs)).congr finite_empty fun y _ => ?_⟩
  · simp [Dist.cdf, Dist.minimum, Dist.maximum, Dbl.lt, Dist.cdfInside, hs.ne']
  · rw [normal_pdf hs]; rfl

/-- Log-normal. -/
theorem C101_lognormal (S : Fns) (hS : S.Good) (m s : ℝ) (hs : 0 < s) (d : Dist) (hd : make .logNormal m s = .ok d) : d.CdfOfDensity S := by
  have := made hd; subst this
  refine cdf_positive rfl rfl (fun x hx => lognormal_pdf hs hx) fun x hx => ?_
  rcases hx.eq_or_lt with h0 | h0
  · subst h0
    exact ⟨0, by simp [Dist.cdfInside], by simp [HasOn]⟩
  · exact ⟨_, by simp only [Dist.cdfInside, if_neg h0.ne', if_neg hs.ne'], lognormal_below hS m s x hs h0⟩

/-- Student's t, for all accepted degrees of freedom. -/
theorem C101_t (S : Fns) (hS : S.Good) (n q : ℝ) (d : Dist) (hd : make .t n q = .ok d) : d.CdfOfDensity S := by
  have hn := pos_of_make1 (Or.inl rfl) hd
  have := made hd; subst this
  intro x
  have hc : (Dist.mk .t n q).cdf S x = (Dist.mk .t n q).cdfInside S x := by simp [Dist.cdf, Dist.minimum, Dist.maximum, Dbl.lt]
  rcases le_or_gt x 0 with hx | hx
  · refine ⟨_, by rw [hc]; simp only [Dist.cdfInside, if_pos hx], (upTo_iio (t_below hS hn hx)).congr finite_empty fun y _ => ?_⟩
    rw [t_pdf]; rfl
  · have h := t_above hn (t_below hS hn (x := -x) (by linarith))
    rw [neg_mul_neg] at h
    refine ⟨_, by rw [hc]; simp only [Dist.cdfInside, if_neg (not_le.mpr hx)], (upTo_iio h).congr finite_empty fun y _ => ?_⟩
    rw [t_pdf]; rfl

/-- Chi-squared, for all accepted degrees of freedom. -/
theorem C101_chi2 (S : Fns) (hS : S.Good) (k q : ℝ) (d : Dist) (hd : make .chi2 k q = .ok d) : d.CdfOfDensity S := by
  have hk := pos_of_make1 (Or.inr (Or.inl rfl)) hd
  have := made hd; subst this
  exact cdf_positive rfl rfl (fun x hx => chi2_pdf hk hx) fun x hx => ⟨_, rfl, gamma_below hS (half_pos hk) two_pos hx⟩

/-- Gamma, for all accepted parameters. -/
theorem C101_gamma (S : Fns) (hS : S.Good) (a s : ℝ) (d : Dist) (hd : make .gamma a s = .ok d) : d.CdfOfDensity S := by
  obtain ⟨ha, hs⟩ := pos_of_make (Or.inl rfl) hd
  have := made hd; subst this
  exact cdf_positive rfl rfl (fun x hx => gamma_pdf hx) fun x hx => ⟨_, rfl, gamma_below hS ha hs hx⟩

/-- F, for all accepted parameters. -/
theorem C101_f (S : Fns) (hS : S.Good) (d1 d2 : ℝ) (d : Dist) (hd : make .f d1 d2 = .ok d) : d.CdfOfDensity S := by
  obtain ⟨ha, hs⟩ := pos_of_make (Or.inr (Or.inr rfl)) hd
  have := made hd; subst this
  exact cdf_positive rfl rfl (fun x hx => fF_pdf x hx) fun x hx => ⟨_, rfl, f_below hS ha hs hx⟩

/-- Exponential, for all accepted rates. -/
theorem C101_exponential (S : Fns) (l q : ℝ) (d : Dist) (hd : make .exponential l q = .ok d) : d.CdfOfDensity S := by
  have hl := pos_of_make1 (Or.inr (Or.inr rfl)) hd
  have := made hd; subst this
  refine cdf_positive (F := fun x => if 0 < x then l * Real.exp (-l * x) else 0) rfl rfl (fun x hx => ?_) fun x hx => ⟨_, rfl, ?_⟩
  · rcases lt_or_gt_of_ne hx with h0 | h0
    · rw [pdf_below rfl h0, if_neg (not_lt.mpr h0.le)]
    · rw [exponential_pdf h0.le, if_pos h0]
  · have := ftc (F := fun t => -Real.exp (-l * t)) (f := fun t => l * Real.exp (-l * t)) hx (fun t => by
      exact ((((hasDerivAt_id t).const_mul (-l)).exp).neg).congr_deriv (by simp [mul_comm])) (by fun_prop)
    refine this.congr measurableSet_Ioo (fun t ht => by rw [if_pos ht.1]) ?_
    simp; ring

/-- Uniform on an interval that is more than a point. -/
theorem C101_uniform (S : Fns) (a b : ℝ) (hab : a < b) (d : Dist) (hd : make .uniformCon a b = .ok d) : d.CdfOfDensity S := by
  have := made hd; subst this
  have hb : b - a ≠ 0 := by linarith
  have hF : ∀ y, real ((Dist.mk .uniformCon a b).pdf y) = uniF a b y := fun y => by rw [uniformCon_pdf hab]; rfl
  have hout : ∀ y, y < a → real ((Dist.mk .uniformCon a b).pdf y) = 0 := fun y hy => by
    rw [hF, uniF, if_neg fun h => absurd h.1 (not_le.mpr hy)]
  have key : ∀ z, a ≤ z → HasOn (Ioo a z) (fun _ => 1 / (b - a)) ((z - a) / (b - a)) := by
    intro z hz
    have := ftc (F := fun t => t / (b - a)) (f := fun _ => 1 / (b - a)) hz (fun t => by simpa using (hasDerivAt_id t).div_const (b - a)) (by fun_prop)
    exact this.congr measurableSet_Ioo (fun _ _ => rfl) (by ring)
  intro x
  by_cases h1 : x < a
  · refine ⟨0, by simp [Dist.cdf, Dist.minimum, Dbl.lt, h1], upTo_below finite_empty fun y hy _ => hout y (lt_of_le_of_lt hy h1)⟩
  by_cases h2 : b < x
  · refine ⟨1, by simp [Dist.cdf, Dist.minimum, Dist.maximum, Dbl.lt, h1, h2], ?_⟩
    have hk := key b hab.le
    rw [div_self hb] at hk
    have hu : HasOn (Ioo a x) (fun y => uniF a b y) 1 := by
      have hm : MeasurableSet (Ioo a b) := measurableSet_Ioo
      have ae : (Ioo a b).indicator (fun _ => 1 / (b - a)) =ᵐ[volume] fun y => uniF a b y := by
        have h0 : ∀ᵐ y ∂(volume : Measure ℝ), y ∉ ({a, b} : Set ℝ) := (toFinite {a, b}).measure_zero volume |> measure_eq_zero_iff_ae_notMem.mp
        filter_upwards [h0] with y hy
        have ya : y ≠ a := fun h => hy (by simp [h])
        have yb : y ≠ b := fun h => hy (by simp [h])
        by_cases hin : y ∈ Ioo a b
        · rw [indicator_of_mem hin, uniF, if_pos ⟨hin.1.le, hin.2.le⟩]
        · rw [indicator_of_notMem hin, uniF, if_neg]
          rintro ⟨ha, hb⟩
          exact hin ⟨lt_of_le_of_ne ha ya.symm, lt_of_le_of_ne hb yb⟩
      refine ⟨(((integrable_indicator_iff hm).mpr hk.1).congr ae).integrableOn, ?_⟩
      rw [← integral_congr_ae (ae_restrict_of_ae ae), integral_indicator hm, Measure.restrict_restrict hm,
        inter_eq_left.mpr (show Ioo a b ⊆ Ioo a x from fun y hy => ⟨hy.1, lt_trans hy.2 h2⟩), hk.2]
    exact upTo_of finite_empty hu (fun y _ _ _ => hF y) (fun y hy _ => hout y hy)
  · rw [not_lt] at h1 h2
    refine ⟨(x - a) / (b - a), ?_, upTo_of finite_empty (key x h1) (fun y hy hy' _ => ?_) (fun y hy _ => hout y hy)⟩
    · simp [Dist.cdf, Dist.minimum, Dist.maximum, Dbl.lt, not_lt.mpr h1, not_lt.mpr h2, Dist.cdfInside, quot, hb]
    · rw [hF, uniF, if_pos ⟨hy.le, hy'.le.trans h2⟩]

/-- Beta, for all accepted parameters. -/
theorem C101_beta (S : Fns) (hS : S.Good) (a b : ℝ) (d : Dist) (hd : make .beta a b = .ok d) : d.CdfOfDensity S := by
  obtain ⟨ha, hb⟩ := pos_of_make (Or.inr (Or.inl rfl)) hd
  have := made hd; subst this
  have hB := betaFn_pos ha hb
  have g := Real.Gamma_pos_of_pos ha
  have g' := Real.Gamma_pos_of_pos hb
  have g'' := Real.Gamma_pos_of_pos (add_pos ha hb)
  have hout : ∀ y, y < 0 → real ((Dist.mk .beta a b).pdf y) = 0 := fun y hy => by rw [pdf_below rfl hy]; rfl
  have hin : ∀ y, 0 < y → y < 1 → real ((Dist.mk .beta a b).pdf y) = 1 / betaFn a b * (y ^ (a - 1) * (1 - y) ^ (b - 1)) := by
    intro y h0 h1
    rw [beta_pdf h0.ne' h1.ne]
    simp only [real, betaF, h0, h1, and_self, if_true, betaFn]
    field_simp
  intro x
  by_cases h1 : x < 0
  · exact ⟨0, cdf_below rfl h1, upTo_below finite_empty fun y hy _ => hout y (lt_of_le_of_lt hy h1)⟩
  by_cases h2 : 1 < x
  · refine ⟨1, by simp [Dist.cdf, Dist.minimum, Dist.maximum, Dbl.lt, h1, h2], ?_⟩
    have hk := (betaInt ha hb).mul (1 / betaFn a b)
    rw [one_div_mul_cancel hB.ne'] at hk
    have hm : MeasurableSet (Ioo (0 : ℝ) 1) := measurableSet_Ioo
    have hu : HasOn (Ioo 0 x) ((Ioo (0 : ℝ) 1).indicator fun y => 1 / betaFn a b * (y ^ (a - 1) * (1 - y) ^ (b - 1))) 1 := by
      refine ⟨((integrable_indicator_iff hm).mpr hk.1).integrableOn, ?_⟩
      rw [integral_indicator hm, Measure.restrict_restrict hm,
        inter_eq_left.mpr (show Ioo (0 : ℝ) 1 ⊆ Ioo 0 x from fun y hy => ⟨hy.1, lt_trans hy.2 h2⟩), hk.2]
    refine upTo_of (finite_singleton 1) hu (fun y h0 _ hy => ?_) (fun y hy _ => hout y hy)
    by_cases hy1 : y < 1
    · rw [indicator_of_mem (show y ∈ Ioo (0 : ℝ) 1 from ⟨h0, hy1⟩), hin y h0 hy1]
    · rw [indicator_of_notMem (fun h => hy1 h.2), beta_pdf h0.ne' hy]
      simp [real, betaF, hy1]
  · rw [not_lt] at h1 h2
    refine ⟨S.iBeta a b x, ?_, upTo_of finite_empty ((beta_below hS ha hb h1 h2).mul (1 / betaFn a b) |>.congr measurableSet_Ioo (fun _ _ => rfl) ?_)
      (fun y hy hy' _ => hin y hy (lt_of_lt_of_le hy' h2)) (fun y hy _ => hout y hy)⟩
    · simp [Dist.cdf, Dist.minimum, Dist.maximum, Dbl.lt, not_lt.mpr h1, not_lt.mpr h2, Dist.cdfInside]
    · field_simp

/-! ## Discrete distributions -/

theorem onNat_upTo (u : ℕ → ℝ) (x : ℝ) (hx : 0 ≤ x) : SumUpTo (onNat u) x (∑ i ∈ Finset.range (⌊x⌋₊ + 1), u i) := by
  have e : ∑ i ∈ Finset.range (⌊x⌋₊ + 1), u i = ∑ k ∈ (Finset.range (⌊x⌋₊ + 1)).map Nat.castEmbedding, (fun k : ℤ => if (k : ℝ) ≤ x then onNat u k else 0) k := by
    rw [Finset.sum_map]
    refine Finset.sum_congr rfl fun i hi => ?_
    have h : (i : ℝ) ≤ x := (Nat.le_floor_iff hx).mp (by have := Finset.mem_range.mp hi; omega)
    have h' : ((Nat.castEmbedding i : ℤ) : ℝ) ≤ x := by simpa using h
    simp only [if_pos h']
    exact (onNat_nat u i).symm
  unfold SumUpTo
  rw [e]
  refine hasSum_sum_of_ne_finset_zero fun k hk => ?_
  split_ifs with h
  · rcases lt_or_ge k 0 with h0 | h0
    · exact onNat_neg u k h0
    · exfalso
      apply hk
      obtain ⟨n, rfl⟩ := Int.eq_ofNat_of_zero_le h0
      refine Finset.mem_map.mpr ⟨n, Finset.mem_range.mpr ?_, rfl⟩
      have : n ≤ ⌊x⌋₊ := (Nat.le_floor_iff hx).mpr (by simpa using h)
      omega
  · rfl

theorem upTo_neg {w : ℤ → ℝ} (hw : ∀ k : ℤ, k < 0 → w k = 0) {x : ℝ} (hx : x < 0) : SumUpTo w x 0 := by
  unfold SumUpTo
  convert (hasSum_zero : HasSum (fun _ : ℤ => (0 : ℝ)) 0) using 2 with k
  split_ifs with h
  · exact hw k (by have : (k : ℝ) < 0 := lt_of_le_of_lt h hx; exact_mod_cast this)
  · rfl

theorem mass_onNat {d : Dist} {u : ℕ → ℝ} (hmin : d.minimum = .num 0) (hpdf : ∀ n : ℕ, d.pdf n = .num (u n)) : d.mass = onNat u :=
  mass_eq (onNat_of (f := d.pdf) (fun x hx => pdf_below hmin hx) hpdf)

/-- Laws on the natural numbers, at an integer. -/
theorem cdf_natural {S : Fns} {d : Dist} {u : ℕ → ℝ} (hmin : d.minimum = .num 0) (hpdf : ∀ n : ℕ, d.pdf n = .num (u n)) (k : ℤ)
    (h : ∀ n : ℕ, k = n → d.cdf S n = .num (∑ i ∈ Finset.range (n + 1), u i)) : d.CdfOfMassAt S k := by
  unfold Dist.CdfOfMassAt
  rw [mass_onNat hmin hpdf]
  rcases lt_or_ge k 0 with h0 | h0
  · have : (k : ℝ) < 0 := by exact_mod_cast h0
    exact ⟨0, cdf_below hmin this, upTo_neg (onNat_neg u) this⟩
  · obtain ⟨n, rfl⟩ := Int.eq_ofNat_of_zero_le h0
    refine ⟨_, by simpa using h n rfl, ?_⟩
    have := onNat_upTo u (n : ℝ) (Nat.cast_nonneg n)
    simpa using this

theorem poisson_deriv (k : ℕ) (t : ℝ) :
    HasDerivAt (fun t : ℝ => -∑ i ∈ Finset.range (k + 1), Real.exp (-t) * t ^ i / (i.factorial : ℝ)) (Real.exp (-t) * t ^ k / (k.factorial : ℝ)) t := by
  have he : HasDerivAt (fun t : ℝ => Real.exp (-t)) (-Real.exp (-t)) t := ((hasDerivAt_neg t).exp).congr_deriv (by ring)
  have hsum : HasDerivAt (fun t : ℝ => ∑ i ∈ Finset.range (k + 1), Real.exp (-t) * t ^ i / (i.factorial : ℝ)) (-(Real.exp (-t) * t ^ k / (k.factorial : ℝ))) t := by
    induction k with
    | zero => simpa using he
    | succ k ih =>
      have h2 : HasDerivAt (fun t : ℝ => Real.exp (-t) * t ^ (k + 1) / ((k + 1).factorial : ℝ))
          ((-Real.exp (-t) * t ^ (k + 1) + Real.exp (-t) * (((k + 1 : ℕ) : ℝ) * t ^ k)) / ((k + 1).factorial : ℝ)) t :=
        (he.mul (hasDerivAt_pow (k + 1) t)).div_const _
      have h3 := ih.add h2
      have e : (fun t : ℝ => ∑ i ∈ Finset.range (k + 1 + 1), Real.exp (-t) * t ^ i / (i.factorial : ℝ)) =
          (fun t : ℝ => ∑ i ∈ Finset.range (k + 1), Real.exp (-t) * t ^ i / (i.factorial : ℝ)) + fun t : ℝ => Real.exp (-t) * t ^ (k + 1) / ((k + 1).factorial : ℝ) := by
        funext t; rw [Finset.sum_range_succ]; rfl
      rw [e]
      refine h3.congr_deriv ?_
      have hk : (k.factorial : ℝ) ≠ 0 := by positivity
      rw [Nat.factorial_succ]; push_cast
      field_simp; ring
  exact hsum.neg.congr_deriv (by ring)

/-- Poisson with a positive rate, at every integer. -/
theorem C101_poisson (S : Fns) (hS : S.Good) (l q : ℝ) (hl : 0 < l) (d : Dist) (hd : make .poisson l q = .ok d) (k : ℤ) : d.CdfOfMassAt S k := by
  have := made hd; subst this
  refine cdf_natural rfl (poisson_pdf l q hl) k fun n _ => ?_
  rw [cdf_pos rfl rfl (Nat.cast_nonneg n)]
  show Dbl.num _ = _
  congr 1
  rw [hS.gammaP_def _ _ (by positivity) hl.le]
  have h := (ftc hl.le (poisson_deriv n) (by fun_prop)).2
  have e : ∫ t in Ioo 0 l, t ^ ((n : ℝ) + 1 - 1) * Real.exp (-t) = n.factorial * ∫ t in Ioo 0 l, Real.exp (-t) * t ^ n / (n.factorial : ℝ) := by
    rw [← integral_const_mul]
    refine setIntegral_congr_fun measurableSet_Ioo fun t _ => ?_
    have hk : (n.factorial : ℝ) ≠ 0 := by positivity
    rw [add_sub_cancel_right, Real.rpow_natCast]; field_simp
  have hk : (n.factorial : ℝ) ≠ 0 := by positivity
  rw [e, h, Real.Gamma_nat_eq_factorial]
  have z : ∑ i ∈ Finset.range (n + 1), Real.exp (-0) * (0 : ℝ) ^ i / (i.factorial : ℝ) = 1 := by
    rw [Finset.sum_range_succ']; simp
  rw [z]; field_simp; ring

/-- Geometric with every accepted probability, at every integer. -/
theorem C101_geometric (S : Fns) (p q : ℝ) (d : Dist) (hd : make .geometric p q = .ok d) (k : ℤ) : d.CdfOfMassAt S k := by
  have := made hd; subst this
  refine cdf_natural rfl (geometric_pdf p q) k fun n hn => ?_
  clear hn
  rw [cdf_pos rfl rfl (Nat.cast_nonneg n)]
  show Dbl.num _ = _
  congr 1
  dsimp only
  have e : ((n : ℝ) + 1) = ((n + 1 : ℕ) : ℝ) := by push_cast; ring
  rw [e, Real.rpow_natCast]
  clear hd e
  induction n with
  | zero => simp
  | succ n ih => rw [Finset.sum_range_succ, ← ih]; ring

theorem binomial_deriv (n k : ℕ) (hk : k < n) (t : ℝ) :
    HasDerivAt (fun t : ℝ => ∑ i ∈ Finset.range (k + 1), (n.choose i : ℝ) * (1 - t) ^ i * t ^ (n - i))
      (((n - k : ℕ) : ℝ) * (n.choose k : ℝ) * ((1 - t) ^ k * t ^ (n - k - 1))) t := by
  have h1 : HasDerivAt (fun t : ℝ => 1 - t) (-1) t := (hasDerivAt_id t).const_sub 1
  induction k with
  | zero => simpa using hasDerivAt_pow n t
  | succ k ih =>
    have h2 : HasDerivAt (fun t : ℝ => (n.choose (k + 1) : ℝ) * (1 - t) ^ (k + 1) * t ^ (n - (k + 1)))
        ((n.choose (k + 1) : ℝ) * (((k + 1 : ℕ) : ℝ) * (1 - t) ^ k * -1) * t ^ (n - (k + 1)) +
          (n.choose (k + 1) : ℝ) * (1 - t) ^ (k + 1) * (((n - (k + 1) : ℕ) : ℝ) * t ^ (n - (k + 1) - 1))) t :=
      ((h1.pow (k + 1)).const_mul _).mul (hasDerivAt_pow (n - (k + 1)) t)
    have e : (fun t : ℝ => ∑ i ∈ Finset.range (k + 1 + 1), (n.choose i : ℝ) * (1 - t) ^ i * t ^ (n - i)) =
        (fun t : ℝ => ∑ i ∈ Finset.range (k + 1), (n.choose i : ℝ) * (1 - t) ^ i * t ^ (n - i)) +
          fun t : ℝ => (n.choose (k + 1) : ℝ) * (1 - t) ^ (k + 1) * t ^ (n - (k + 1)) := by
      funext t; rw [Finset.sum_range_succ]; rfl
    rw [e]
    refine ((ih (by omega)).add h2).congr_deriv ?_
    have hc : (n.choose (k + 1) : ℝ) * ((k + 1 : ℕ) : ℝ) = (n.choose k : ℝ) * ((n - k : ℕ) : ℝ) := by
      exact_mod_cast Nat.choose_succ_right_eq n k
    have e2 : n - (k + 1) = n - k - 1 := by omega
    rw [e2]
    linear_combination (-((1 - t) ^ k * t ^ (n - k - 1))) * hc

/-- Binomial with a positive probability, at every integer but the number of trials. -/
theorem C101_binomial_partial (S : Fns) (hS : S.Good) (p : ℝ) (hp : 0 < p) (n : ℕ) (d : Dist) (hd : make .binomial p n = .ok d) (k : ℤ) (hk : k ≠ n) :
    d.CdfOfMassAt S k := by
  have hp1 : p ≤ 1 := by
    by_contra h
    simp [make, not_le.mp h] at hd
  have hq : 0 ≤ 1 - p := by linarith
  have := made hd; subst this
  refine cdf_natural rfl (binomial_pdf p n) k fun j hj => ?_
  subst hj
  have hjn : j ≠ n := by exact_mod_cast hk
  rcases lt_or_gt_of_ne hjn with h | h
  · have hjR : (j : ℝ) < n := by exact_mod_cast h
    have hin : (Dist.mk .binomial p n).cdf S j = (Dist.mk .binomial p n).cdfInside S j := by
      have h0 : ¬ ((j : ℝ) < 0) := not_lt.mpr (Nat.cast_nonneg j)
      simp [Dist.cdf, Dist.minimum, Dist.maximum, Dbl.lt, h.not_gt, h0]
    have hsub : (n : ℝ) - j ≠ 0 := by linarith
    have hsub' : 0 < (n : ℝ) - j := by linarith
    rw [hin]
    simp only [Dist.cdfInside, hp.ne', hsub, or_self, if_false]
    congr 1
    have e1 : 2 * ((n : ℝ) - j) / 2 = ((n - j : ℕ) : ℝ) := by push_cast [Nat.cast_sub h.le]; ring
    have e2 : 2 * ((j : ℝ) + 1) / 2 = ((j + 1 : ℕ) : ℝ) := by push_cast; ring
    have e3 : 2 * ((n : ℝ) - j) * ((1 - p) / p * (((j : ℝ) + 1) / ((n : ℝ) - j))) /
        (2 * ((n : ℝ) - j) * ((1 - p) / p * (((j : ℝ) + 1) / ((n : ℝ) - j))) + 2 * ((j : ℝ) + 1)) = 1 - p := by
      have hj1 : (j : ℝ) + 1 ≠ 0 := by positivity
      have : 2 * ((n : ℝ) - j) * ((1 - p) / p * (((j : ℝ) + 1) / ((n : ℝ) - j))) = 2 * ((j : ℝ) + 1) * ((1 - p) / p) := by field_simp
      rw [this]
      have h4 : 2 * ((j : ℝ) + 1) * ((1 - p) / p) + 2 * ((j : ℝ) + 1) = 2 * ((j : ℝ) + 1) / p := by field_simp; ring
      rw [h4]; field_simp
    rw [e1, e2, e3, hS.iBeta_def _ _ _ (by have : 0 < n - j := by omega
                                           exact_mod_cast this) (by positivity) hq (by linarith)]
    have hf := ftc hq (binomial_deriv n j h) (by fun_prop)
    have hf2 := hf.2
    have z : ∑ i ∈ Finset.range (j + 1), (n.choose i : ℝ) * (1 - 0 : ℝ) ^ i * (0 : ℝ) ^ (n - i) = 0 := by
      refine Finset.sum_eq_zero fun i hi => ?_
      have := Finset.mem_range.mp hi
      rw [zero_pow (by omega)]; simp
    rw [z, sub_zero, sub_sub_cancel] at hf2
    rw [← hf2, integral_const_mul]
    have ei : ∫ t in Ioo 0 (1 - p), t ^ (((n - j : ℕ) : ℝ) - 1) * (1 - t) ^ (((j + 1 : ℕ) : ℝ) - 1) = ∫ t in Ioo 0 (1 - p), (1 - t) ^ j * t ^ (n - j - 1) := by
      refine setIntegral_congr_fun measurableSet_Ioo fun t _ => ?_
      have a1 : (((n - j : ℕ) : ℝ) - 1) = ((n - j - 1 : ℕ) : ℝ) := by
        rw [Nat.cast_sub (show 1 ≤ n - j by omega)]; push_cast; ring
      have a2 : (((j + 1 : ℕ) : ℝ) - 1) = (j : ℝ) := by push_cast; ring
      rw [a1, a2, Real.rpow_natCast, Real.rpow_natCast, mul_comm]
    rw [ei]
    obtain ⟨m, rfl⟩ : ∃ m, n = j + m + 1 := ⟨n - j - 1, by omega⟩
    have s1 : j + m + 1 - j = m + 1 := by omega
    rw [s1]
    have g1 : Real.Gamma ((m + 1 : ℕ) : ℝ) = m.factorial := by push_cast; exact Real.Gamma_nat_eq_factorial m
    have g2 : Real.Gamma ((j + 1 : ℕ) : ℝ) = j.factorial := by push_cast; exact Real.Gamma_nat_eq_factorial j
    have g3 : Real.Gamma (((m + 1 : ℕ) : ℝ) + ((j + 1 : ℕ) : ℝ)) = (j + m + 1).factorial := by
      rw [← Real.Gamma_nat_eq_factorial]; congr 1; push_cast; ring
    have hc : ((j + m + 1).choose j : ℝ) * (j.factorial : ℝ) * ((m + 1).factorial : ℝ) = (j + m + 1).factorial := by
      have := Nat.choose_mul_factorial_mul_factorial (show j ≤ j + m + 1 by omega)
      rw [s1] at this
      exact_mod_cast this
    rw [g1, g2, g3, ← hc, Nat.factorial_succ]
    have f1 : (m.factorial : ℝ) ≠ 0 := by positivity
    have f2 : (j.factorial : ℝ) ≠ 0 := by positivity
    push_cast
    field_simp
  · have hjR : (n : ℝ) < j := by exact_mod_cast h
    have hc : (Dist.mk .binomial p n).cdf S j = .num 1 := by
      simp [Dist.cdf, Dist.minimum, Dist.maximum, Dbl.lt, h]
    rw [hc]
    congr 1
    have hs : ∑ i ∈ Finset.range (j + 1), (n.choose i : ℝ) * p ^ i * (1 - p) ^ (n - i) = ∑ i ∈ Finset.range (n + 1), (n.choose i : ℝ) * p ^ i * (1 - p) ^ (n - i) := by
      symm
      refine Finset.sum_subset (fun i hi => ?_) (fun i _ hi => ?_)
      · have := Finset.mem_range.mp hi; exact Finset.mem_range.mpr (by omega)
      · rw [Finset.mem_range, not_lt] at hi
        rw [Nat.choose_eq_zero_of_lt (by omega)]; simp
    rw [hs]
    have := add_pow p (1 - p) n
    rw [add_sub_cancel, one_pow] at this
    refine this.trans ?_
    exact Finset.sum_congr rfl fun i _ => by ring

/-- Bernoulli, everywhere but at zero. -/
theorem C101_bernoulli_partial (S : Fns) (p q : ℝ) (d : Dist) (hd : make .bernoulli p q = .ok d) (x : ℝ) (hx : x ≠ 0) : d.CdfOfMassAt S x := by
  have := made hd; subst this
  unfold Dist.CdfOfMassAt
  rw [mass_onNat rfl (bernoulli_pdf p q)]
  rcases lt_or_gt_of_ne hx with h | h
  · exact ⟨0, cdf_below rfl h, upTo_neg (onNat_neg _) h⟩
  · have hs := onNat_upTo (fun n : ℕ => ((1 : ℕ).choose n : ℝ) * p ^ n * (1 - p) ^ (1 - n)) x h.le
    refine ⟨_, ?_, hs⟩
    rcases lt_or_ge x 1 with h1 | h1
    · have hfl : ⌊x⌋₊ = 0 := Nat.floor_eq_zero.mpr h1
      rw [hfl]
      simp [Dist.cdf, Dist.minimum, Dist.maximum, Dbl.lt, not_lt.mpr h.le, not_lt.mpr h1.le, Dist.cdfInside, hx, h1.ne]
    · have hfl : 1 ≤ ⌊x⌋₊ := Nat.le_floor (by simpa using h1)
      have e : ∑ i ∈ Finset.range (⌊x⌋₊ + 1), ((1 : ℕ).choose i : ℝ) * p ^ i * (1 - p) ^ (1 - i) = 1 := by
        have : ∑ i ∈ Finset.range (⌊x⌋₊ + 1), ((1 : ℕ).choose i : ℝ) * p ^ i * (1 - p) ^ (1 - i) = ∑ i ∈ Finset.range 2, ((1 : ℕ).choose i : ℝ) * p ^ i * (1 - p) ^ (1 - i) := by
          symm
          refine Finset.sum_subset (fun i hi => ?_) (fun i _ hi => ?_)
          · have := Finset.mem_range.mp hi; exact Finset.mem_range.mpr (by omega)
          · rw [Finset.mem_range, not_lt] at hi
            rw [Nat.choose_eq_zero_of_lt (by omega)]; simp
        rw [this]; simp [Finset.sum_range_succ]
      rw [e]
      rcases h1.eq_or_lt with h2 | h2
      · subst h2; simp [Dist.cdf, Dist.minimum, Dist.maximum, Dbl.lt, Dist.cdfInside]
      · simp [Dist.cdf, Dist.minimum, Dist.maximum, Dbl.lt, not_lt.mpr h.le, h2]

/-- Uniform on the integers from `a` to `b`, everywhere. -/
theorem C101_uniform_discrete (S : Fns) (a b : ℤ) (d : Dist) (hd : make .uniformDis a b = .ok d) (x : ℝ) : d.CdfOfMassAt S x := by
  have hab : a ≤ b := by
    by_contra h
    have : (a : ℝ) > b := by exact_mod_cast not_le.mp h
    simp [make, this] at hd
  have hab' : (a : ℝ) ≤ b := by exact_mod_cast hab
  have := made hd; subst this
  have hm : (Dist.mk .uniformDis a b).mass = uniW a b := mass_eq (uniform_pdf a b)
  unfold Dist.CdfOfMassAt
  rw [hm]
  have key : ∀ z : ℤ, a ≤ z + 1 → (∀ k : ℤ, (a ≤ k ∧ k ≤ b ∧ (k : ℝ) ≤ x) ↔ (a ≤ k ∧ k ≤ z)) → SumUpTo (uniW a b) x (((z : ℝ) - a + 1) / ((b : ℝ) - a + 1)) := by
    intro z hz hk
    have e : (((z : ℝ) - a + 1) / ((b : ℝ) - a + 1)) = ∑ k ∈ Finset.Icc a z, (fun k : ℤ => if (k : ℝ) ≤ x then uniW a b k else 0) k := by
      have : ∀ k ∈ Finset.Icc a z, (fun k : ℤ => if (k : ℝ) ≤ x then uniW a b k else 0) k = 1 / ((b : ℝ) - a + 1) := by
        intro k hkz
        have hh := (hk k).mpr (Finset.mem_Icc.mp hkz)
        simp only [if_pos hh.2.2, uniW, hh.1, hh.2.1, and_self, if_true]
      rw [Finset.sum_congr rfl this, Finset.sum_const, Int.card_Icc, nsmul_eq_mul]
      have : (((z + 1 - a).toNat : ℕ) : ℝ) = (z : ℝ) + 1 - a := by
        have : (((z + 1 - a).toNat : ℕ) : ℤ) = z + 1 - a := Int.toNat_of_nonneg (by omega)
        have := congrArg (Int.cast (R := ℝ)) this
        push_cast at this; exact this
      rw [this]; ring
    unfold SumUpTo
    rw [e]
    refine hasSum_sum_of_ne_finset_zero fun k hkz => ?_
    split_ifs with h
    · rw [uniW, if_neg]
      rintro ⟨h1, h2⟩
      exact hkz (Finset.mem_Icc.mpr ((hk k).mp ⟨h1, h2, h⟩))
    · rfl
  by_cases h1 : x < a
  · refine ⟨0, by simp [Dist.cdf, Dist.minimum, Dbl.lt, h1], ?_⟩
    have := key (a - 1) (by omega) (fun k => ⟨fun h => ?_, fun h => by omega⟩)
    · convert this using 1; push_cast; ring
    · exfalso
      have : (a : ℝ) ≤ k := by exact_mod_cast h.1
      linarith [h.2.2]
  by_cases h2 : (b : ℝ) < x
  · refine ⟨1, by simp [Dist.cdf, Dist.minimum, Dist.maximum, Dbl.lt, h1, h2], ?_⟩
    have := key b (by omega) (fun k => ⟨fun h => ⟨h.1, h.2.1⟩, fun h => ⟨h.1, h.2, ?_⟩⟩)
    · convert this using 1
      rw [div_self]; linarith
    · have : (k : ℝ) ≤ b := by exact_mod_cast h.2
      linarith
  · rw [not_lt] at h1 h2
    have f1 : a ≤ ⌊x⌋ := Int.le_floor.mpr h1
    have f2 : ⌊x⌋ ≤ b := by
      have : (⌊x⌋ : ℝ) ≤ b := (Int.floor_le x).trans h2
      exact_mod_cast this
    refine ⟨(((⌊x⌋ : ℤ) : ℝ) - a + 1) / ((b : ℝ) - a + 1), ?_, key ⌊x⌋ (by omega) (fun k => ⟨fun h => ⟨h.1, Int.le_floor.mpr h.2.2⟩, fun h => ⟨h.1, by omega, Int.le_floor.mp h.2⟩⟩)⟩
    have hle : (((⌊x⌋ : ℤ) : ℝ) - a + 1) / ((b : ℝ) - a + 1) ≤ 1 := by
      rw [div_le_one (by linarith)]
      have : (⌊x⌋ : ℝ) ≤ b := by exact_mod_cast f2
      linarith
    simp only [Dist.cdf, Dist.minimum, Dist.maximum, Dbl.lt, decide_eq_true_eq, if_neg (not_lt.mpr h1), if_neg (not_lt.mpr h2), Dist.cdfInside]
    rw [min_eq_right hle]

/-! ## Violations -/

/-- Bernoulli: `GetCdf(0)` is zero, the probability of values up to zero is not. -/
theorem C101_bernoulli_violated (S : Fns) : ∃ d, make .bernoulli (1 / 2) 0 = .ok d ∧ d.cdf S 0 = .num 0 ∧ SumUpTo d.mass 0 (1 / 2) := by
  refine ⟨⟨.bernoulli, 1 / 2, 0⟩, ?_, ?_, ?_⟩
  · simp only [make]; rw [if_neg (by norm_num)]
  · simp [Dist.cdf, Dist.minimum, Dist.maximum, Dbl.lt, Dist.cdfInside]
  · rw [mass_onNat rfl (bernoulli_pdf (1 / 2) 0)]
    have := onNat_upTo (fun n : ℕ => ((1 : ℕ).choose n : ℝ) * (1 / 2 : ℝ) ^ n * (1 - 1 / 2) ^ (1 - n)) 0 le_rfl
    convert this using 1
    simp; norm_num

/-- Binomial: `GetCdf` is not a number at the number of trials, and nowhere below it for probability zero. -/
theorem C101_binomial_violated (S : Fns) :
    (∃ d, make .binomial (1 / 2) (1 : ℕ) = .ok d ∧ d.cdf S 1 = .nan) ∧ (∃ d, make .binomial 0 (1 : ℕ) = .ok d ∧ d.cdf S 0 = .nan) := by
  refine ⟨⟨⟨.binomial, 1 / 2, (1 : ℕ)⟩, ?_, ?_⟩, ⟨⟨.binomial, 0, (1 : ℕ)⟩, ?_, ?_⟩⟩
  · simp only [make]; rw [if_neg (by norm_num), if_neg (by norm_num)]
  · simp [Dist.cdf, Dist.minimum, Dist.maximum, Dbl.lt, Dist.cdfInside]
  · simp only [make]; rw [if_neg (by norm_num), if_neg (by norm_num)]
  · simp [Dist.cdf, Dist.minimum, Dist.maximum, Dbl.lt, Dist.cdfInside]

/-- Geometric: between the integers `GetCdf` is not the probability of values up to `x`. -/
theorem C101_between_violated (S : Fns) : ∃ d c, make .geometric (1 / 2) 0 = .ok d ∧ d.cdf S (1 / 2) = .num c ∧ SumUpTo d.mass (1 / 2) (1 / 2) ∧ c ≠ 1 / 2 := by
  refine ⟨⟨.geometric, 1 / 2, 0⟩, 1 - (1 - 1 / 2) ^ ((1 / 2 : ℝ) + 1), ?_, ?_, ?_, ?_⟩
  · simp only [make]; rw [if_neg (by norm_num)]
  · rw [cdf_pos rfl rfl (by norm_num)]; rfl
  · rw [mass_onNat rfl (geometric_pdf (1 / 2) 0)]
    have := onNat_upTo (fun n : ℕ => (1 - 1 / 2 : ℝ) ^ n * (1 / 2)) (1 / 2) (by norm_num)
    have hfl : ⌊(1 / 2 : ℝ)⌋₊ = 0 := Nat.floor_eq_zero.mpr (by norm_num)
    rw [hfl] at this
    convert this using 1
    simp
  · intro h
    have h1 : (1 - 1 / 2 : ℝ) ^ ((1 / 2 : ℝ) + 1) < (1 - 1 / 2 : ℝ) ^ (1 : ℝ) :=
      Real.rpow_lt_rpow_of_exponent_gt (by norm_num) (by norm_num) (by norm_num)
    rw [Real.rpow_one] at h1
    linarith

/-- Accepted degenerate parameters: at the only value of the law `GetCdf` is not a number. -/
theorem C101_degenerate_violated (S : Fns) :
    (∃ d, make .normal 0 0 = .ok d ∧ d.cdf S 0 = .nan) ∧ (∃ d, make .uniformCon 0 0 = .ok d ∧ d.cdf S 0 = .nan) := by
  refine ⟨⟨⟨.normal, 0, 0⟩, by simp [make], ?_⟩, ⟨⟨.uniformCon, 0, 0⟩, by simp [make], ?_⟩⟩
  · simp [Dist.cdf, Dist.minimum, Dist.maximum, Dbl.lt, Dist.cdfInside]
  · simp [Dist.cdf, Dist.minimum, Dist.maximum, Dbl.lt, Dist.cdfInside, quot]

/-- The hypotheses are met: special functions as required exist, and with them a t law with three degrees of freedom, a Poisson law with
rate two, and a binomial law with three trials. -/
example : ∃ S : Fns, S.Good ∧ (∃ d, make .t 3 0 = .ok d ∧ d.CdfOfDensity S) ∧ (∃ d, make .poisson 2 0 = .ok d ∧ d.CdfOfMassAt S (4 : ℤ)) ∧
    (∃ d, make .binomial (1 / 3) (3 : ℕ) = .ok d ∧ d.CdfOfMassAt S (2 : ℤ)) := by
  obtain ⟨S, hS⟩ := good_exists
  refine ⟨S, hS, ⟨⟨.t, 3, 0⟩, by norm_num [make], C101_t S hS 3 0 _ (by norm_num [make])⟩,
    ⟨⟨.poisson, 2, 0⟩, by norm_num [make], C101_poisson S hS 2 0 (by norm_num) _ (by norm_num [make]) 4⟩,
    ⟨⟨.binomial, 1 / 3, (3 : ℕ)⟩, by norm_num [make], C101_binomial_partial S hS (1 / 3) (by norm_num) 3 _ (by norm_num [make]) 2 (by norm_num)⟩⟩

end Di
end LDT
