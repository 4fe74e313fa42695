import Verif.Props.DistQuantile
import Verif.Props.DistDiscrete
import Mathlib.Analysis.Complex.ExponentialBounds
/-!
# C105: medians

`GetMedian()` of a continuous law is a number up to which the density integrates to one half; of a discrete law, a number such that at
least one half of the mass is not above it and at least one half is not below it.
-/
namespace LDT
namespace Di
open Op MeasureTheory Set

/-- The reported median splits the reported density. -/
def Dist.MedianOfDensity (d : Dist) : Prop := ∃ m, d.median = .num m ∧ IntUpTo (fun y => real (d.pdf y)) m (1 / 2)

/-- The reported median is a median of the reported mass function. -/
def Dist.MedianOfMass (d : Dist) : Prop := ∃ m, d.median = .num m ∧ IsMedian d.mass m

theorem intUpTo_unique {f : ℝ → ℝ} {x c c' : ℝ} (h : IntUpTo f x c) (h' : IntUpTo f x c') : c = c' := h.2.symm.trans h'.2

/-- From `GetCdf` at the median. -/
theorem median_of_cdf {S : Fns} {d : Dist} (C : d.CdfOfDensity S) {m : ℝ} (hm : d.median = .num m) (hc : d.cdf S m = .num (1 / 2)) : d.MedianOfDensity := by
  obtain ⟨c, h1, h2⟩ := C m
  rw [hc] at h1
  obtain rfl := Dbl.num.inj h1
  exact ⟨m, hm, h2⟩

theorem erfc_zero {S : Fns} (hS : S.Good) : S.erfc 0 = 1 := by
  have := erfInv_neg hS (p := 1 / 2) (by norm_num) (by norm_num)
  have h0 := erfInv_zero hS
  norm_num at this
  rw [h0] at this
  simpa using this

/-- Normal. -/
theorem C105_normal (m s : ℝ) (hs : 0 < s) (d : Dist) (hd : make .normal m s = .ok d) : d.MedianOfDensity := by
  obtain ⟨S, hS⟩ := good_exists
  have C := C101_normal S hS m s hs d hd
  have := made hd; subst this
  refine median_of_cdf C rfl ?_
  simp [Dist.cdf, Dist.minimum, Dist.maximum, Dbl.lt, Dist.cdfInside, hs.ne', erfc_zero hS]

/-- Log-normal. -/
theorem C105_lognormal (m s : ℝ) (hs : 0 < s) (d : Dist) (hd : make .logNormal m s = .ok d) : d.MedianOfDensity := by
  obtain ⟨S, hS⟩ := good_exists
  have C := C101_lognormal S hS m s hs d hd
  have := made hd; subst this
  refine median_of_cdf C rfl ?_
  rw [cdf_pos rfl rfl (Real.exp_pos m).le]
  simp [Dist.cdfInside, hs.ne', erfc_zero hS]

/-- Student t. -/
theorem C105_t (n q : ℝ) (d : Dist) (hd : make .t n q = .ok d) : d.MedianOfDensity := by
  obtain ⟨S, hS⟩ := good_exists
  have C := C102_t S hS n q d hd
  obtain ⟨x, hx, hu⟩ := C (1 / 2) (by norm_num) (by norm_num)
  have := made hd; subst this
  refine ⟨0, rfl, ?_⟩
  rw [quantile_in (by norm_num) (by norm_num)] at hx
  have : x = 0 := by
    simp only [Dist.quantileInside, if_true] at hx
    exact (Dbl.num.inj hx).symm
  rw [← this]; exact hu

/-- Uniform on an interval. -/
theorem C105_uniform (a b : ℝ) (hab : a < b) (d : Dist) (hd : make .uniformCon a b = .ok d) : d.MedianOfDensity := by
  obtain ⟨S, hS⟩ := good_exists
  obtain ⟨x, hx, hu⟩ := C102_uniform S a b hab d hd (1 / 2) (by norm_num) (by norm_num)
  have := made hd; subst this
  refine ⟨_, rfl, ?_⟩
  rw [quantile_in (by norm_num) (by norm_num)] at hx
  have : x = (a + b) / 2 := by
    simp only [Dist.quantileInside] at hx
    obtain rfl := Dbl.num.inj hx
    ring
  rw [← this]; exact hu

/-- Exponential. -/
theorem C105_exponential (l q : ℝ) (d : Dist) (hd : make .exponential l q = .ok d) : d.MedianOfDensity := by
  obtain ⟨S, hS⟩ := good_exists
  obtain ⟨x, hx, hu⟩ := C102_exponential S l q d hd (1 / 2) (by norm_num) (by norm_num)
  have := made hd; subst this
  refine ⟨_, rfl, ?_⟩
  rw [quantile_in (by norm_num) (by norm_num)] at hx
  have : x = Real.log 2 / l := by
    simp only [Dist.quantileInside] at hx
    obtain rfl := Dbl.num.inj hx
    rw [show (1 : ℝ) - 1 / 2 = 2⁻¹ by norm_num, Real.log_inv]; ring
  rw [← this]; exact hu

/-- No median is claimed for the F, gamma and beta laws. -/
theorem C105_none (k : Kind) (hk : k = .f ∨ k = .gamma ∨ k = .beta) (p q : ℝ) (d : Dist) (hd : make k p q = .ok d) : d.median = .nan := by
  have := made hd; subst this
  rcases hk with rfl | rfl | rfl <;> rfl

/-! ## Discrete laws -/

theorem from_of_upTo {w : ℤ → ℝ} (ht : HasSum w 1) {x y c : ℝ} (h : ∀ k : ℤ, (k : ℝ) < x ↔ (k : ℝ) ≤ y) (hu : SumUpTo w y c) : SumFrom w x (1 - c) := by
  have := ht.sub hu
  unfold SumFrom
  have e : (fun k : ℤ => if x ≤ (k : ℝ) then w k else 0) = fun k : ℤ => w k - if (k : ℝ) ≤ y then w k else 0 := by
    funext k
    by_cases hk : (k : ℝ) ≤ y
    · rw [if_neg (not_le.mpr ((h k).mpr hk)), if_pos hk]; ring
    · rw [if_pos (not_lt.mp (fun hh => hk ((h k).mp hh))), if_neg hk]; ring
  rw [e]; exact this

theorem mass_total {d : Dist} (h : IsMass d.pdf) : HasSum d.mass 1 := by
  have := h.total
  unfold SumAvg at this
  unfold Dist.mass
  simpa using this

/-- A quantile for one half is a median. -/
theorem median_of_sums {w : ℤ → ℝ} (ht : HasSum w 1) {m y lo hi : ℝ} (h : ∀ k : ℤ, (k : ℝ) < m ↔ (k : ℝ) ≤ y) (h1 : SumUpTo w y lo) (h2 : SumUpTo w m hi)
    (hl : lo ≤ 1 / 2) (hh : 1 / 2 ≤ hi) : IsMedian w m := ⟨hi, _, h2, from_of_upTo ht h h1, hh, by linarith⟩

theorem sub_one_iff (m k : ℤ) : (k : ℝ) < (m : ℝ) ↔ (k : ℝ) ≤ ((m - 1 : ℤ) : ℝ) := by
  rw [Int.cast_lt, Int.cast_le]; omega

/-- Bernoulli with every accepted probability. -/
theorem C105_bernoulli (p q : ℝ) (d : Dist) (hd : make .bernoulli p q = .ok d) : d.MedianOfMass := by
  have ht := mass_total (C99_bernoulli p q d hd).1
  have hp : 0 ≤ p ∧ p ≤ 1 := by
    constructor <;> by_contra h <;> simp [make, not_le.mp h] at hd
  have := made hd; subst this
  unfold Dist.MedianOfMass
  rw [mass_onNat rfl (bernoulli_pdf p q)] at ht ⊢
  set u : ℕ → ℝ := fun n => ((1 : ℕ).choose n : ℝ) * p ^ n * (1 - p) ^ (1 - n) with hu
  have s0 : ∀ x : ℝ, 0 ≤ x → x < 1 → SumUpTo (onNat u) x (1 - p) := fun x h0 h1 => by
    have := onNat_upTo u x h0
    rw [Nat.floor_eq_zero.mpr h1] at this
    simpa [hu] using this
  have s1 : SumUpTo (onNat u) 1 1 := by
    have := onNat_upTo u 1 zero_le_one
    simpa [hu, Finset.sum_range_succ] using this
  have sm : SumUpTo (onNat u) ((0 - 1 : ℤ) : ℝ) 0 := upTo_neg (onNat_neg u) (by norm_num)
  rcases lt_trichotomy p (1 / 2) with h | h | h
  · refine ⟨0, by simp only [Dist.median, if_pos h], median_of_sums ht (y := ((0 - 1 : ℤ) : ℝ)) (fun k => ?_) sm (s0 0 le_rfl one_pos) (by norm_num) (by linarith)⟩
    simpa using sub_one_iff 0 k
  · refine ⟨1 / 2, by simp [Dist.median, h], median_of_sums ht (y := 0) (fun k => ?_) (s0 0 le_rfl one_pos) (s0 (1 / 2) (by norm_num) (by norm_num)) (by linarith) (by linarith)⟩
    constructor
    · intro hk
      have : (k : ℝ) < ((1 : ℤ) : ℝ) := by norm_num; linarith
      have : k ≤ 0 := by have := Int.cast_lt.mp this; omega
      exact_mod_cast this
    · intro hk; linarith
  · refine ⟨1, by simp only [Dist.median, if_neg (not_lt.mpr h.le), if_pos h], median_of_sums ht (y := 0) (fun k => ?_) (s0 0 le_rfl one_pos) s1 (by linarith) (by norm_num)⟩
    simpa using sub_one_iff 1 k

/-- Geometric with a probability strictly between zero and one. -/
theorem C105_geometric (p q : ℝ) (h0 : 0 < p) (h1 : p < 1) (d : Dist) (hd : make .geometric p q = .ok d) : d.MedianOfMass := by
  have ht := mass_total (C99_geometric p q h0 d hd).1
  obtain ⟨S, -⟩ := good_exists
  have C := C101_geometric S p q d hd
  have := made hd; subst this
  have hl : Real.log (1 - p) < 0 := Real.log_neg (by linarith) (by linarith)
  have hr : 0 < -Real.log 2 / Real.log (1 - p) := div_pos_of_neg_of_neg (by have := Real.log_pos (by norm_num : (1 : ℝ) < 2); linarith) hl
  set r := -Real.log 2 / Real.log (1 - p) with hrd
  have hx : 0 < ⌈r⌉ := Int.ceil_pos.mpr hr
  have hc : ∀ k : ℤ, -1 ≤ k → ∃ c, SumUpTo (Dist.mk .geometric p q).mass k c ∧ c = 1 - Real.exp (((k : ℝ) + 1) * Real.log (1 - p)) := by
    intro k hk
    obtain ⟨c, hc, hs⟩ := C k
    refine ⟨c, hs, ?_⟩
    rcases hk.eq_or_lt with h | h
    · subst h
      rw [cdf_below rfl (by norm_num)] at hc
      rw [← Dbl.num.inj hc]; simp
    · have : (0 : ℝ) ≤ k := by exact_mod_cast (by omega : 0 ≤ k)
      rw [cdf_pos rfl rfl this] at hc
      rw [← Dbl.num.inj hc, mul_comm, Real.exp_mul, Real.exp_log (by linarith)]
  refine ⟨((⌈r⌉ - 1 : ℤ) : ℝ), ?_, ?_⟩
  · simp only [Dist.median, if_neg h0.ne', if_neg h1.ne]; push_cast; rfl
  have half : ∀ z : ℝ, Real.exp (z * Real.log (1 - p)) ≤ 1 / 2 ↔ r ≤ z := by
    intro z
    rw [show (1 / 2 : ℝ) = Real.exp (-Real.log 2) by rw [Real.exp_neg, Real.exp_log (by norm_num)]; norm_num, Real.exp_le_exp, hrd, div_le_iff_of_neg hl]
  obtain ⟨lo, s1, e1⟩ := hc (⌈r⌉ - 1 - 1) (by omega)
  obtain ⟨hi, s2, e2⟩ := hc (⌈r⌉ - 1) (by omega)
  refine median_of_sums ht (sub_one_iff _) s1 s2 ?_ ?_
  · have : ¬ r ≤ ((⌈r⌉ - 1 - 1 : ℤ) : ℝ) + 1 := by
      push_cast
      have := Int.ceil_lt_add_one r
      linarith
    rw [← half, not_le] at this
    rw [e1]; linarith
  · have : r ≤ ((⌈r⌉ - 1 : ℤ) : ℝ) + 1 := by push_cast; have := Int.le_ceil r; linarith
    rw [← half] at this
    rw [e2]; linarith

/-- Uniform on the integers from `a` to `b`. -/
theorem C105_uniform_discrete (a b : ℤ) (d : Dist) (hd : make .uniformDis a b = .ok d) : d.MedianOfMass := by
  have ht := mass_total (C99_uniform a b d hd).1
  obtain ⟨S, -⟩ := good_exists
  have C := C101_uniform_discrete S a b d hd
  have hab : a ≤ b := by
    by_contra h
    have : (a : ℝ) > b := by exact_mod_cast not_le.mp h
    simp [make, this] at hd
  have hab' : (a : ℝ) ≤ b := by exact_mod_cast hab
  have := made hd; subst this
  refine ⟨((a : ℝ) + b) / 2, rfl, ?_⟩
  have hn : (0 : ℝ) < (b : ℝ) - a + 1 := by linarith
  have hc : ∀ x : ℤ, a - 1 ≤ x → x ≤ b → SumUpTo (Dist.mk .uniformDis a b).mass x (((x : ℝ) - a + 1) / ((b : ℝ) - a + 1)) := by
    intro x hx1 hx2
    obtain ⟨c, hc, hs⟩ := C x
    suffices c = ((x : ℝ) - a + 1) / ((b : ℝ) - a + 1) by rw [← this]; exact hs
    have hx2' : (x : ℝ) ≤ b := by exact_mod_cast hx2
    rcases hx1.eq_or_lt with h | h
    · subst h
      have : ((a - 1 : ℤ) : ℝ) < a := by push_cast; linarith
      simp only [Dist.cdf, Dist.minimum, Dbl.lt, decide_eq_true_eq, if_pos this] at hc
      rw [← Dbl.num.inj hc]; push_cast; simp
    · have hx1' : (a : ℝ) ≤ x := by exact_mod_cast (by omega : a ≤ x)
      simp only [Dist.cdf, Dist.minimum, Dist.maximum, Dbl.lt, decide_eq_true_eq, if_neg (not_lt.mpr hx1'), if_neg (not_lt.mpr hx2'), Dist.cdfInside, Int.floor_intCast] at hc
      rw [← Dbl.num.inj hc, min_eq_right]
      rw [div_le_one hn]; linarith
  obtain ⟨t, ht2⟩ : ∃ t : ℤ, a + b = 2 * t ∨ a + b = 2 * t + 1 := ⟨(a + b) / 2, by omega⟩
  rcases ht2 with e | e
  · have er : (a : ℝ) + b = 2 * t := by exact_mod_cast e
    have em : ((a : ℝ) + b) / 2 = t := by rw [er]; ring
    rw [em]
    refine median_of_sums ht (sub_one_iff t) (hc (t - 1) (by omega) (by omega)) (hc t (by omega) (by omega)) ?_ ?_
    · rw [div_le_iff₀ hn]; push_cast; linarith
    · rw [le_div_iff₀ hn]; linarith
  · have er : (a : ℝ) + b = 2 * t + 1 := by exact_mod_cast e
    have em : ((a : ℝ) + b) / 2 = t + 1 / 2 := by rw [er]; ring
    rw [em]
    have iff1 : ∀ k : ℤ, (k : ℝ) ≤ (t : ℝ) + 1 / 2 ↔ (k : ℝ) ≤ (t : ℝ) := fun k => by
      constructor
      · intro h
        have : (k : ℝ) < ((t + 1 : ℤ) : ℝ) := by push_cast; linarith
        exact_mod_cast Int.lt_add_one_iff.mp (Int.cast_lt.mp this)
      · intro h; linarith
    have iff2 : ∀ k : ℤ, (k : ℝ) < (t : ℝ) + 1 / 2 ↔ (k : ℝ) ≤ (t : ℝ) := fun k => by
      constructor
      · intro h; exact (iff1 k).mp h.le
      · intro h; linarith
    have h := hc t (by omega) (by omega)
    have h' : SumUpTo (Dist.mk .uniformDis a b).mass ((t : ℝ) + 1 / 2) (((t : ℝ) - a + 1) / ((b : ℝ) - a + 1)) := by
      unfold SumUpTo at h ⊢
      simpa only [iff1] using h
    refine median_of_sums ht iff2 h h' ?_ ?_
    · rw [div_le_iff₀ hn]; linarith
    · rw [le_div_iff₀ hn]; linarith

/-! ## Violations -/

/-- Chi-squared: the reported number is an approximation. With two degrees of freedom the probability up to it is not one half. -/
theorem C105_chi2_violated : ∃ d m, make .chi2 2 0 = .ok d ∧ d.median = .num m ∧ ¬ IntUpTo (fun y => real (d.pdf y)) m (1 / 2) := by
  obtain ⟨S, hS⟩ := good_exists
  have hd : make .chi2 2 0 = .ok ⟨.chi2, 2, 0⟩ := by simp only [make]; rw [if_neg (by norm_num)]
  refine ⟨_, 2 * (1 - 2 / (9 * 2)) ^ 3, hd, rfl, fun h => ?_⟩
  obtain ⟨c, hc, hu⟩ := C101_chi2 S hS 2 0 _ hd (2 * (1 - 2 / (9 * 2)) ^ 3)
  have e := intUpTo_unique h hu
  rw [cdf_pos rfl rfl (by norm_num)] at hc
  have hc := Dbl.num.inj hc
  rw [← e] at hc
  rw [hS.gammaP_def _ _ (by norm_num) (by norm_num)] at hc
  have := (ftc (F := fun t : ℝ => -Real.exp (-t)) (f := fun t => Real.exp (-t)) (a := 0) (b := (8 / 9) ^ 3) (by norm_num)
    (fun t => ((hasDerivAt_neg t).exp.neg).congr_deriv (by ring)) (by fun_prop)).2
  norm_num at hc this
  rw [this] at hc
  have hexp : Real.exp (-(512 / 729)) = 1 / 2 := by linarith
  have hlog := congrArg Real.log hexp
  rw [Real.log_exp, one_div, Real.log_inv] at hlog
  have := Real.log_two_lt_d9
  norm_num at hlog this
  linarith

/-- Poisson: the reported number is an approximation. For a small rate it is negative. -/
theorem C105_poisson_violated : ∃ d, make .poisson (1 / 100) 0 = .ok d ∧ d.median = .num (-2 : ℤ) ∧ ¬ IsMedian d.mass (-2 : ℤ) := by
  have hd : make .poisson (1 / 100) 0 = .ok ⟨.poisson, 1 / 100, 0⟩ := by simp only [make]; rw [if_neg (by norm_num)]
  refine ⟨_, hd, ?_, ?_⟩
  · simp only [Dist.median]
    rw [if_neg (by norm_num)]
    congr 2
    rw [Int.floor_eq_iff]; norm_num
  · rintro ⟨lo, hi, h1, -, h, -⟩
    rw [mass_onNat rfl (poisson_pdf _ _ (by norm_num))] at h1
    have := h1.unique (upTo_neg (onNat_neg _) (by norm_num))
    rw [this] at h; norm_num at h

/-- Geometric with probability one: the whole mass is at zero, the reported median is one. -/
theorem C105_geometric_violated : ∃ d, make .geometric 1 0 = .ok d ∧ d.median = .num 1 ∧ ¬ IsMedian d.mass 1 ∧ d.pdf 0 = .num 1 := by
  have hd : make .geometric 1 0 = .ok ⟨.geometric, 1, 0⟩ := by simp only [make]; rw [if_neg (by norm_num)]
  refine ⟨_, hd, ?_, ?_, by simpa using geometric_pdf 1 0 0⟩
  · simp [Dist.median]
  · rintro ⟨lo, hi, -, h1, -, h⟩
    obtain ⟨S, -⟩ := good_exists
    have ht := mass_total (C99_geometric 1 0 one_pos _ hd).1
    obtain ⟨c, hc, hs⟩ := C101_geometric S 1 0 _ hd 0
    rw [cdf_pos rfl rfl (by norm_num)] at hc
    have hc := Dbl.num.inj hc
    have := h1.unique (from_of_upTo ht (fun k => by simpa using sub_one_iff 1 k) hs)
    rw [this, ← hc] at h
    norm_num at h

/-- Binomial: the product of probability and number rounded down is not a median. -/
theorem C105_binomial_violated : ∃ d, make .binomial (3 / 5) (1 : ℕ) = .ok d ∧ d.median = .num (0 : ℤ) ∧ ¬ IsMedian d.mass (0 : ℤ) := by
  have hd : make .binomial (3 / 5) (1 : ℕ) = .ok ⟨.binomial, 3 / 5, (1 : ℕ)⟩ := by simp only [make]; rw [if_neg (by norm_num), if_neg (by norm_num)]
  refine ⟨_, hd, ?_, ?_⟩
  · simp only [Dist.median]
    congr 2
    rw [Int.floor_eq_iff]; norm_num
  · rintro ⟨lo, hi, h1, -, h, -⟩
    rw [mass_onNat rfl (binomial_pdf _ _)] at h1
    have := h1.unique (onNat_upTo _ _ (by norm_num))
    rw [this] at h; norm_num at h

end Di
end LDT
