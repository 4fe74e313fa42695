import Verif.Lemmas.DistDiscrete
/-!
# C99: mass functions and moments of the discrete distributions

For every accepted parameter that describes a law, the mass function is one, and mean, variance, standard deviation, skewness and
kurtosis are those of the mass function.
-/
namespace LDT
namespace Di
open Op MeasureTheory

/-- The weights a distribution reports at the integers. -/
noncomputable def Dist.mass (d : Dist) : ℤ → ℝ := fun k => real (d.pdf k)

/-- The five reported numbers are those of the reported mass function. -/
def Dist.DescribesMass (d : Dist) : Prop :=
  IsMass d.pdf ∧ Described (SumAvg d.mass) d.mean d.variance d.sd d.skewness d.kurtosis

/-- The five reported numbers are those of the reported density. -/
def Dist.DescribesDensity (d : Dist) (E : Set ℝ) : Prop :=
  IsDensity d.pdf E ∧ Described (IntAvg fun x => real (d.pdf x)) d.mean d.variance d.sd d.skewness d.kurtosis

theorem describes_of_factorial {d : Dist} {u : ℕ → ℝ} (hmin : d.minimum = .num 0) (hpdf : ∀ n : ℕ, d.pdf n = .num (u n)) (hu : ∀ n, 0 ≤ u n)
    {F : ℕ → ℝ} (hF : ∀ j, HasSum (fun n : ℕ => u n * (n.descFactorial j : ℝ)) (F j)) (hF0 : F 0 = 1) {m v : ℝ}
    (hm : d.mean = .num m) (hv : d.variance = .num v) (em : F 1 = m) (ev : F 2 + F 1 - F 1 ^ 2 = v) (hsd : d.sd = .num (Real.sqrt v))
    (hs : 0 < v → ∃ s k, d.skewness = .num s ∧ d.kurtosis = .num k ∧
      s * (v * Real.sqrt v) = F 3 + 3 * F 2 + F 1 - 3 * F 1 * (F 2 + F 1) + 2 * F 1 ^ 3 ∧
      (k + 3) * v ^ 2 = F 4 + 6 * F 3 + 7 * F 2 + F 1 - 4 * F 1 * (F 3 + 3 * F 2 + F 1) + 6 * F 1 ^ 2 * (F 2 + F 1) - 3 * F 1 ^ 4) :
    d.DescribesMass := by
  have e := onNat_of (f := d.pdf) (u := u) (fun x hx => pdf_below hmin hx) hpdf
  have R := raw_of_factorial (w := onNat u) (u := u) (onNat_neg u) (onNat_nat u) hF hF0
  refine ⟨isMass_of e (onNat_nonneg hu) R.h0, ?_⟩
  have hmass : d.mass = onNat u := mass_eq e
  rw [hmass, hm, hv]
  exact described_of_raw (sumAvg_lin _) R (by rw [zero_add]; exact em) ev hsd hs

/-- Poisson with a positive rate. -/
theorem C99_poisson (l q : ℝ) (hl : 0 < l) (d : Dist) (hd : make .poisson l q = .ok d) : d.DescribesMass := by
  have : d = ⟨.poisson, l, q⟩ := by
    simp only [make, if_neg (not_lt.mpr hl.le)] at hd; exact (Outcome.ok.inj hd).symm
  subst this
  refine describes_of_factorial (u := fun n => Real.exp (-l) * l ^ n / (n.factorial : ℝ)) (F := fun j => l ^ j) (m := l) (v := l) rfl
    (poisson_pdf l q hl) (fun n => by positivity) (poisson_factorial l) (pow_zero l) rfl rfl (pow_one l) (by ring)
    (sqrtD_nonneg hl.le) (fun _ => ?_)
  have hs : Real.sqrt l ≠ 0 := (Real.sqrt_pos.mpr hl).ne'
  refine ⟨1 / Real.sqrt l, 1 / l, quot_ne hs, quot_ne hl.ne', ?_, ?_⟩
  · field_simp; ring
  · field_simp; ring

/-- Geometric (number of failures) with a positive probability. -/
theorem C99_geometric (p q : ℝ) (hp : 0 < p) (d : Dist) (hd : make .geometric p q = .ok d) : d.DescribesMass := by
  have h1 : p ≤ 1 := by
    by_contra h
    simp [make, not_le.mp h] at hd
  have : d = ⟨.geometric, p, q⟩ := by
    simp only [make, if_neg (not_or.mpr ⟨not_lt.mpr hp.le, not_lt.mpr h1⟩)] at hd; exact (Outcome.ok.inj hd).symm
  subst this
  have hv : (Dist.mk .geometric p q).variance = .num ((1 - p) / (p * p)) := quot_ne (by positivity)
  have hv0 : 0 ≤ (1 - p) / (p * p) := div_nonneg (by linarith) (by positivity)
  refine describes_of_factorial (u := fun n => (1 - p) ^ n * p) (F := fun j => (j.factorial : ℝ) * ((1 - p) / p) ^ j)
    (m := (1 - p) / p) (v := (1 - p) / (p * p)) rfl (geometric_pdf p q)
    (fun n => mul_nonneg (pow_nonneg (by linarith) n) hp.le) (geometric_factorial p hp h1) (by simp) (quot_ne hp.ne') hv (by simp)
    ?_ ?_ (fun hpos => ?_)
  · simp only [Nat.factorial]; push_cast; field_simp; ring
  · show sqrtD _ = _
    rw [hv]; exact sqrtD_nonneg hv0
  · have hlt : 0 < 1 - p := by
      rcases (sub_nonneg.mpr h1).lt_or_eq with h | h
      · exact h
      · rw [← h] at hpos; simp at hpos
    have hs : Real.sqrt (1 - p) ≠ 0 := (Real.sqrt_pos.mpr hlt).ne'
    have hsq : Real.sqrt ((1 - p) / (p * p)) = Real.sqrt (1 - p) / p := by
      rw [Real.sqrt_div hlt.le, Real.sqrt_mul_self hp.le]
    refine ⟨(2 - p) / Real.sqrt (1 - p), 6 + (p * p) / (1 - p), quot_ne hs, ?_, ?_, ?_⟩
    · show plus 6 (quot (p * p) (1 - p)) = _
      rw [quot_ne hlt.ne']; rfl
    · rw [hsq]
      simp only [Nat.factorial]; push_cast; field_simp; ring
    · simp only [Nat.factorial]; push_cast; field_simp; ring

theorem binomial_describes (n : ℕ) (p : ℝ) (h0 : 0 ≤ p) (h1 : p ≤ 1) (d : Dist) (hmin : d.minimum = .num 0)
    (hpdf : ∀ k : ℕ, d.pdf k = .num ((n.choose k : ℝ) * p ^ k * (1 - p) ^ (n - k)))
    (hm : d.mean = .num (p * n)) (hv : d.variance = .num (p * (1 - p) * n)) (hsd : d.sd = sqrtD d.variance)
    (hs : 0 < p * (1 - p) * n → d.skewness = .num ((1 - 2 * p) / Real.sqrt (p * (1 - p) * n)) ∧
      d.kurtosis = .num ((1 - 6 * (p * (1 - p))) / (n * (p * (1 - p))))) : d.DescribesMass := by
  have hv0 : 0 ≤ p * (1 - p) * n := by
    have : 0 ≤ 1 - p := by linarith
    positivity
  have hF : ∀ j : ℕ, ((n.descFactorial (j + 1) : ℕ) : ℝ) = (n - j) * n.descFactorial j := by
    intro j
    rw [Nat.descFactorial_succ]
    rcases le_or_gt j n with h | h
    · push_cast [Nat.cast_sub h]; ring
    · simp [Nat.descFactorial_of_lt h]
  have d1 : ((n.descFactorial 1 : ℕ) : ℝ) = n := by simp
  have d2 : ((n.descFactorial 2 : ℕ) : ℝ) = (n - 1) * n := by rw [hF, d1]; simp
  have d3 : ((n.descFactorial 3 : ℕ) : ℝ) = (n - 2) * ((n - 1) * n) := by rw [hF, d2]; norm_num
  have d4 : ((n.descFactorial 4 : ℕ) : ℝ) = (n - 3) * ((n - 2) * ((n - 1) * n)) := by rw [hF, d3]; norm_num
  refine describes_of_factorial (u := fun k => (n.choose k : ℝ) * p ^ k * (1 - p) ^ (n - k)) (F := fun j => (n.descFactorial j : ℝ) * p ^ j)
    (m := p * n) (v := p * (1 - p) * n) hmin hpdf ?_ (binomial_factorial n p) (by simp) hm hv ?_ ?_ ?_ (fun hpos => ?_)
  · intro k
    have : 0 ≤ 1 - p := by linarith
    positivity
  · rw [d1]; ring
  · rw [d1, d2]; ring
  · rw [hsd, hv]; exact sqrtD_nonneg hv0
  · obtain ⟨e1, e2⟩ := hs hpos
    have hsq : Real.sqrt (p * (1 - p) * n) ≠ 0 := (Real.sqrt_pos.mpr hpos).ne'
    have hpq : p * (1 - p) ≠ 0 := by intro h; rw [h] at hpos; simp at hpos
    have hn : (n : ℝ) ≠ 0 := by intro h; rw [h] at hpos; simp at hpos
    have hp : p ≠ 0 := left_ne_zero_of_mul hpq
    have hq : 1 - p ≠ 0 := right_ne_zero_of_mul hpq
    refine ⟨_, _, e1, e2, ?_, ?_⟩
    · simp only [d1, d2, d3]
      field_simp
      ring
    · simp only [d1, d2, d3, d4]
      field_simp
      ring

/-- Bernoulli, for every accepted probability. -/
theorem C99_bernoulli (p q : ℝ) (d : Dist) (hd : make .bernoulli p q = .ok d) : d.DescribesMass := by
  by_cases h : p < 0 ∨ p > 1
  · simp [make, h] at hd
  have : d = ⟨.bernoulli, p, q⟩ := by
    simp only [make, if_neg h] at hd; exact (Outcome.ok.inj hd).symm
  subst this
  rw [not_or, not_lt, not_lt] at h
  refine binomial_describes 1 p h.1 h.2 _ rfl (bernoulli_pdf p q) (by simp [Dist.mean]) (by simp [Dist.variance]) rfl (fun hp => ?_)
  rw [Nat.cast_one, mul_one] at hp ⊢
  exact ⟨quot_ne (Real.sqrt_pos.mpr hp).ne', by rw [one_mul]; exact quot_ne hp.ne'⟩

/-- Binomial, for every accepted probability and whole number of trials. -/
theorem C99_binomial (p : ℝ) (n : ℕ) (d : Dist) (hd : make .binomial p n = .ok d) : d.DescribesMass := by
  by_cases h : p < 0 ∨ p > 1
  · simp [make, h] at hd
  have : d = ⟨.binomial, p, n⟩ := by
    simp only [make, if_neg h, if_neg (not_lt.mpr (Nat.cast_nonneg (α := ℝ) n))] at hd
    exact (Outcome.ok.inj hd).symm
  subst this
  rw [not_or, not_lt, not_lt] at h
  refine binomial_describes n p h.1 h.2 _ rfl (binomial_pdf p n) rfl rfl rfl (fun hp => ?_)
  have e : (n : ℝ) * p * (1 - p) = p * (1 - p) * n := by ring
  refine ⟨?_, ?_⟩
  · show quot _ (Real.sqrt ((n : ℝ) * p * (1 - p))) = _
    rw [e]; exact quot_ne (Real.sqrt_pos.mpr hp).ne'
  · exact quot_ne (by rw [mul_comm]; exact hp.ne')

/-- Uniform on the integers from `a` to `b`. -/
theorem C99_uniform (a b : ℤ) (d : Dist) (hd : make .uniformDis a b = .ok d) : d.DescribesMass := by
  have hab : a ≤ b := by
    by_contra h
    have : (a : ℝ) > b := by exact_mod_cast not_le.mp h
    simp [make, this] at hd
  have hab' : ¬ ((a : ℝ) > b) := by simpa using hab
  have : d = ⟨.uniformDis, a, b⟩ := by
    simp only [make, if_neg hab'] at hd; exact (Outcome.ok.inj hd).symm
  subst this
  obtain ⟨n, hn⟩ : ∃ n : ℕ, b = a + n - 1 ∧ 0 < n := ⟨(b - a + 1).toNat, by omega, by omega⟩
  obtain ⟨hb, hn⟩ := hn
  have e := uniform_pdf a b
  have R := uniform_raw a n hn
  have hbR : (b : ℝ) = a + n - 1 := by rw [hb]; push_cast; ring
  have hn1 : (1 : ℝ) ≤ n := by exact_mod_cast hn
  rw [← hb] at R
  refine ⟨isMass_of e (fun k => ?_) R.h0, ?_⟩
  · unfold uniW
    split_ifs
    · rw [hbR]; apply div_nonneg <;> linarith
    · exact le_rfl
  have hmass : (Dist.mk .uniformDis a b).mass = uniW a b := mass_eq e
  have hm : (Dist.mk .uniformDis a b).mean = .num (((a : ℝ) + b) / 2) := rfl
  have hv : (Dist.mk .uniformDis a b).variance = .num (((n : ℝ) * n - 1) / 12) := by
    show Dbl.num _ = _
    simp only [hbR]; congr 1; ring
  have hv0 : 0 ≤ ((n : ℝ) * n - 1) / 12 := by
    have : (1 : ℝ) ≤ n * n := by nlinarith
    linarith
  rw [hmass, hm, hv]
  refine described_of_raw (sumAvg_lin _) R (by rw [hbR]; ring) (by ring) ?_ (fun hp => ?_)
  · show sqrtD (Dist.mk .uniformDis a b).variance = _
    rw [hv]; exact sqrtD_nonneg hv0
  · have hnn : (n : ℝ) * n - 1 ≠ 0 := by intro h; rw [h] at hp; simp at hp
    refine ⟨0, -(12 / 10) * ((n : ℝ) * n + 1) / ((n : ℝ) * n - 1), rfl, ?_, ?_, ?_⟩
    · show quot _ _ = _
      simp only [hbR]
      rw [quot_ne (by intro h; apply hnn; linarith)]
      congr 1
      congr 1 <;> ring
    · ring
    · have hn2 : (n : ℝ) ^ 2 - 1 ≠ 0 := by intro h; apply hnn; linarith
      field_simp; ring

/-- Accepted parameters that describe no law: rate zero, probability zero, and bounds or trials that are not whole. -/
theorem C99_parameters_violated :
    (∃ d, make .poisson 0 0 = .ok d ∧ d.pdf 0 = .nan) ∧
    (∃ d, make .geometric 0 0 = .ok d ∧ (∀ k : ℕ, d.pdf k = .num 0) ∧ d.mean = .pinf) ∧
    (∃ d, make .uniformDis (1 / 2) (3 / 2) = .ok d ∧ ¬ IsMass d.pdf) ∧
    (∃ d, make .binomial 1 (1 / 2) = .ok d ∧ ¬ IsMass d.pdf) := by
  refine ⟨⟨_, by simp [make]; rfl, by simp [Dist.pdf, Dist.impossible, Dist.minimum, Dist.maximum, Dbl.lt, Dist.density]⟩,
    ⟨⟨.geometric, 0, 0⟩, by simp [make], fun k => by rw [geometric_pdf]; simp, by simp [Dist.mean, quot]⟩,
    ⟨⟨.uniformDis, 1 / 2, 3 / 2⟩, ?_, ?_⟩, ⟨⟨.binomial, 1, 1 / 2⟩, by norm_num [make], ?_⟩⟩
  · simp only [make]; rw [if_neg (by norm_num)]
  · intro h
    have hw : (fun k : ℤ => real ((Dist.mk .uniformDis (1 / 2) (3 / 2)).pdf k) * (1 : ℝ)) = fun k : ℤ => if k = 1 then 1 / 2 else 0 := by
      funext k
      by_cases hk : k = 1
      · subst hk
        rw [if_pos rfl]
        have hi : (Dist.mk .uniformDis (1 / 2) (3 / 2)).impossible ((1 : ℤ) : ℝ) = false := by
          simp only [Dist.impossible, Dist.minimum, Dist.maximum, Dbl.lt]; norm_num
        simp only [Dist.pdf, hi, Dist.density]
        rw [if_neg (by simp), if_pos (by norm_num)]
        norm_num [real]
      · rw [if_neg hk]
        have hi : (Dist.mk .uniformDis (1 / 2) (3 / 2)).impossible (k : ℝ) = true := by
          simp only [Dist.impossible, Dist.minimum, Dist.maximum, Dbl.lt, Bool.or_eq_true, decide_eq_true_eq]
          rcases lt_or_gt_of_ne hk with h | h
          · left
            have : k ≤ 0 := by omega
            have : (k : ℝ) ≤ 0 := by exact_mod_cast this
            linarith
          · right
            have : 2 ≤ k := by omega
            have : (2 : ℝ) ≤ k := by exact_mod_cast this
            linarith
        simp only [Dist.pdf, hi, if_true, real, mul_one]
    have h1 := h.total
    unfold SumAvg at h1
    rw [hw] at h1
    have h2 : HasSum (fun k : ℤ => if k = 1 then (1 / 2 : ℝ) else 0) (1 / 2) := hasSum_ite_eq 1 (1 / 2)
    have := h1.unique h2
    norm_num at this
  · intro h
    have hw : (fun k : ℤ => real ((Dist.mk .binomial 1 (1 / 2)).pdf k) * (1 : ℝ)) = fun _ : ℤ => 0 := by
      funext k
      by_cases hk : k = 0
      · subst hk
        have hi : (Dist.mk .binomial 1 (1 / 2)).impossible ((0 : ℤ) : ℝ) = false := by
          simp only [Dist.impossible, Dist.minimum, Dist.maximum, Dbl.lt]; norm_num
        simp only [Dist.pdf, hi, Dist.density]
        rw [if_neg (by simp), if_neg (by norm_num)]
        have : (1 - (1 : ℝ)) ^ ((1 / 2 : ℝ) - ((0 : ℤ) : ℝ)) = 0 := by
          rw [sub_self]; exact Real.zero_rpow (by norm_num)
        rw [this]; simp [real]
      · have hi : (Dist.mk .binomial 1 (1 / 2)).impossible (k : ℝ) = true := by
          simp only [Dist.impossible, Dist.minimum, Dist.maximum, Dbl.lt, Bool.or_eq_true, decide_eq_true_eq]
          rcases lt_or_gt_of_ne hk with h | h
          · left; exact_mod_cast h
          · right
            have : (1 : ℤ) ≤ k := by omega
            have : (1 : ℝ) ≤ k := by exact_mod_cast this
            linarith
        simp only [Dist.pdf, hi, if_true, real, mul_one]
    have h1 := h.total
    unfold SumAvg at h1
    rw [hw] at h1
    have := h1.unique hasSum_zero
    norm_num at this

/-- A value that is no whole number is not impossible for these laws, as it should be. -/
theorem C99_between_violated :
    (∃ d w, make .geometric (1 / 2) 0 = .ok d ∧ d.pdf (1 / 2) = .num w ∧ 0 < w) ∧
    (∃ d w, make .uniformDis 0 1 = .ok d ∧ d.pdf (1 / 2) = .num w ∧ 0 < w) := by
  refine ⟨⟨⟨.geometric, 1 / 2, 0⟩, (1 - 1 / 2) ^ (1 / 2 : ℝ) * (1 / 2), ?_, ?_, by positivity⟩, ⟨⟨.uniformDis, 0, 1⟩, 1 / 2, ?_, ?_, by norm_num⟩⟩
  · simp only [make]; rw [if_neg (by norm_num)]
  · have hi : (Dist.mk .geometric (1 / 2) 0).impossible (1 / 2) = false := by
      simp only [Dist.impossible, Dist.minimum, Dist.maximum, Dbl.lt]; norm_num
    simp only [Dist.pdf, hi, Dist.density]; rw [if_neg (by simp)]
  · simp only [make]; rw [if_neg (by norm_num)]
  · have hi : (Dist.mk .uniformDis 0 1).impossible (1 / 2) = false := by
      simp only [Dist.impossible, Dist.minimum, Dist.maximum, Dbl.lt]; norm_num
    simp only [Dist.pdf, hi, Dist.density]; rw [if_neg (by simp), if_pos (by norm_num)]; norm_num

/-- `GetProperty` answers with the minimum when asked for the maximum. -/
theorem C99_property_violated : ∃ d, make .bernoulli (1 / 2) 0 = .ok d ∧ d.property .maximum = .num 0 ∧ d.maximum = .num 1 := by
  refine ⟨⟨.bernoulli, 1 / 2, 0⟩, ?_, rfl, rfl⟩
  simp only [make]; rw [if_neg (by norm_num)]

/-- The other properties are the functions they name. -/
theorem C99_property (d : Dist) :
    d.property .mean = d.mean ∧ d.property .variance = d.variance ∧ d.property .standardError = d.sd ∧
    d.property .skewness = d.skewness ∧ d.property .kurtosis = d.kurtosis ∧ d.property .minimum = d.minimum ∧
    d.property .median = d.median ∧ d.property .mode = d.mode := ⟨rfl, rfl, rfl, rfl, rfl, rfl, rfl, rfl⟩

/-- The hypotheses are met: Poisson with rate two, binomial with three trials, a die. -/
example : (∃ d, make .poisson 2 0 = .ok d ∧ d.DescribesMass) ∧ (∃ d, make .binomial (1 / 3) (3 : ℕ) = .ok d ∧ d.DescribesMass) ∧
    (∃ d, make .uniformDis (1 : ℤ) (6 : ℤ) = .ok d ∧ d.DescribesMass) := by
  refine ⟨⟨⟨.poisson, 2, 0⟩, by norm_num [make], C99_poisson 2 0 (by norm_num) _ (by norm_num [make])⟩,
    ⟨⟨.binomial, 1 / 3, (3 : ℕ)⟩, ?_, C99_binomial (1 / 3) 3 _ ?_⟩, ⟨⟨.uniformDis, (1 : ℤ), (6 : ℤ)⟩, ?_, C99_uniform 1 6 _ ?_⟩⟩ <;> norm_num [make]

end Di
end LDT
