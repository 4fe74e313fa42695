import Verif.Lemmas.DistTF
import Verif.Props.DistDiscrete
/-!
# C100: densities and moments of the continuous distributions

For the accepted parameters that describe a law, the density is one, and mean, variance, standard deviation, skewness and kurtosis are
the moments of that density. Moments of Student's t and F are reported as numbers exactly when they exist.
-/
namespace LDT
namespace Di
open Op MeasureTheory Set

theorem describes_of_raw {d : Dist} {E : Set ℝ} (hE : E.Finite) {f : ℝ → ℝ} (hpdf : ∀ x, x ∉ E → d.pdf x = .num (f x)) (hn : ∀ x, 0 ≤ f x)
    {c r1 r2 r3 r4 m v : ℝ} (R : Raw (IntAvg f) c r1 r2 r3 r4) (hm : d.mean = .num m) (hv : d.variance = .num v)
    (em : c + r1 = m) (ev : r2 - r1 ^ 2 = v) {sd : Dbl ℝ} (hsd : sd = .num (Real.sqrt v))
    (hs : 0 < v → ∃ s k, d.skewness = .num s ∧ d.kurtosis = .num k ∧ s * (v * Real.sqrt v) = r3 - 3 * r1 * r2 + 2 * r1 ^ 3 ∧
      (k + 3) * v ^ 2 = r4 - 4 * r1 * r3 + 6 * r1 ^ 2 * r2 - 3 * r1 ^ 4) :
    IsDensity d.pdf E ∧ Described (IntAvg fun x => real (d.pdf x)) d.mean d.variance sd d.skewness d.kurtosis := by
  have R' := raw_congr hE (F := fun x => real (d.pdf x)) (fun x hx => by rw [hpdf x hx]; rfl) R
  refine ⟨density_of hE hpdf (fun x _ => hn x) R.h0, ?_⟩
  rw [hm, hv]
  exact described_of_raw (intAvg_lin _) R' em ev hsd hs

theorem made {k : Kind} {p1 p2 : ℝ} {d : Dist} (h : make k p1 p2 = .ok d) : d = ⟨k, p1, p2⟩ := by
  cases k <;> simp only [make] at h <;> split_ifs at h <;> first | exact (Outcome.ok.inj h).symm | cases h

/-- Normal with a positive standard deviation. -/
theorem C100_normal (m s : ℝ) (hs : 0 < s) (d : Dist) (hd : make .normal m s = .ok d) : d.DescribesDensity ∅ := by
  have := made hd; subst this
  refine describes_of_raw finite_empty (f := normF m s) (fun x _ => ?_) (fun x => ?_) (gaussMoments m s hs) (m := m) (v := s ^ 2) rfl
    ?_ (by ring) (by ring) ?_ (fun _ => ⟨0, 0, rfl, rfl, by ring, by ring⟩)
  · simp [Dist.pdf, Dist.impossible, Dist.minimum, Dist.maximum, Dbl.lt, Dist.density, hs.ne', normF]
  · unfold normF; positivity
  · show Dbl.num _ = _
    congr 1; ring
  · show Dbl.num _ = _
    rw [Real.sqrt_sq hs.le]

/-- Log-normal: everything but the standard deviation. -/
theorem C100_lognormal_partial (m s : ℝ) (hs : 0 < s) (d : Dist) (hd : make .logNormal m s = .ok d) :
    IsDensity d.pdf {0} ∧ ∃ v, d.variance = .num v ∧
      Described (IntAvg fun x => real (d.pdf x)) d.mean d.variance (.num (Real.sqrt v)) d.skewness d.kurtosis := by
  have := made hd; subst this
  set q := Real.exp (s ^ 2) with hq
  set M := Real.exp (m + s ^ 2 / 2) with hM
  have hq1 : 1 < q := by rw [hq]; exact Real.one_lt_exp_iff.mpr (by positivity)
  have hM0 : 0 < M := Real.exp_pos _
  have m2 : Real.exp (2 * m + 2 * s ^ 2) = M ^ 2 * q := by
    rw [hM, hq, ← Real.exp_nat_mul, ← Real.exp_add]; congr 1; push_cast; ring
  have m3 : Real.exp (3 * m + 9 * s ^ 2 / 2) = M ^ 3 * q ^ 3 := by
    rw [hM, hq, ← Real.exp_nat_mul, ← Real.exp_nat_mul, ← Real.exp_add]; congr 1; push_cast; ring
  have m4 : Real.exp (4 * m + 8 * s ^ 2) = M ^ 4 * q ^ 6 := by
    rw [hM, hq, ← Real.exp_nat_mul, ← Real.exp_nat_mul, ← Real.exp_add]; congr 1; push_cast; ring
  have hv : (Dist.mk .logNormal m s).variance = .num ((q - 1) * M ^ 2) := by
    show Dbl.num _ = _
    congr 2
    · rw [hq]; congr 2; ring
    · rw [hM, ← Real.exp_nat_mul]; congr 1; push_cast; ring
  have hmean : (Dist.mk .logNormal m s).mean = .num M := by
    show Dbl.num _ = _
    rw [hM]; congr 2; ring
  have hsk : (Dist.mk .logNormal m s).skewness = .num ((q + 2) * Real.sqrt (q - 1)) := by
    show Dbl.num _ = _
    have : s * s = s ^ 2 := by ring
    simp only [this]; rfl
  have hku : (Dist.mk .logNormal m s).kurtosis = .num (q ^ 4 + 2 * q ^ 3 + 3 * q ^ 2 - 6) := by
    show Dbl.num _ = _
    have e : ∀ k : ℕ, Real.exp ((k : ℝ) * (s * s)) = q ^ k := by
      intro k; rw [hq, ← Real.exp_nat_mul]; congr 1; ring
    have e2 := e 2
    have e3 := e 3
    have e4 := e 4
    push_cast at e2 e3 e4
    simp only [e2, e3, e4]
  have hqn : 0 ≤ q - 1 := by linarith
  have R := logRaw m s hs
  rw [m2, m3, m4] at R
  have key := describes_of_raw (d := ⟨.logNormal, m, s⟩) (finite_singleton 0) (f := logF m s) (sd := .num (Real.sqrt ((q - 1) * M ^ 2))) (fun x hx => ?_)
    (fun x => ?_) R hmean hv (by rw [zero_add]) (by ring) rfl (fun _ => ⟨_, _, hsk, hku, ?_, ?_⟩)
  · exact ⟨key.1, _, hv, key.2⟩
  · have hx0 : x ≠ 0 := hx
    by_cases h : x < 0
    · simp [Dist.pdf, Dist.impossible, Dist.minimum, Dbl.lt, h, logF, not_lt.mpr h.le]
    · have h' : 0 < x := lt_of_le_of_ne (not_lt.mp h) hx0.symm
      simp [Dist.pdf, Dist.impossible, Dist.minimum, Dist.maximum, Dbl.lt, h, Dist.density, hs.ne', hx0, logF, h']
  · unfold logF; split_ifs <;> positivity
  · rw [Real.sqrt_mul hqn, Real.sqrt_sq hM0.le]
    have h2 : Real.sqrt (q - 1) * Real.sqrt (q - 1) = q - 1 := Real.mul_self_sqrt hqn
    linear_combination ((q + 2) * (q - 1) * M ^ 3) * h2
  · ring

/-- The standard deviation of the log-normal law is not the root of the variance. -/
theorem C100_lognormal_violated : ∃ d, make .logNormal 1 1 = .ok d ∧ d.sd = .num 1 ∧
    ∃ v, d.variance = .num v ∧ Real.sqrt v ≠ 1 := by
  refine ⟨⟨.logNormal, 1, 1⟩, by norm_num [make], by simp [Dist.sd, quot], _, rfl, ?_⟩
  have h1 : (2 : ℝ) ≤ Real.exp 1 := by have := Real.add_one_le_exp (1 : ℝ); linarith
  have h3 : (4 : ℝ) ≤ Real.exp 3 := by have := Real.add_one_le_exp (3 : ℝ); linarith
  intro h
  rw [Real.sqrt_eq_one] at h
  dsimp only at h
  have e1 : Real.exp ((1 : ℝ) * 1) = Real.exp 1 := by norm_num
  have e2 : Real.exp ((1 : ℝ) + 1 + 1 * 1) = Real.exp 3 := by norm_num
  rw [e1, e2] at h
  nlinarith

/-- Uniform on an interval that is more than a point. -/
theorem C100_uniform (a b : ℝ) (hab : a < b) (d : Dist) (hd : make .uniformCon a b = .ok d) : d.DescribesDensity ∅ := by
  have := made hd; subst this
  have hb : b - a ≠ 0 := by linarith
  have hpos : 0 ≤ (b - a) * (b - a) / 12 := by have := mul_self_nonneg (b - a); positivity
  refine describes_of_raw finite_empty (f := uniF a b) (fun x _ => ?_) (fun x => ?_) (uniRaw hab) (m := (a + b) / 2)
    (v := (b - a) * (b - a) / 12) rfl rfl (by ring) (by ring) (sqrtD_nonneg hpos)
    (fun _ => ⟨0, -(12 / 10), rfl, rfl, by ring, by ring⟩)
  · by_cases h : a ≤ x ∧ x ≤ b
    · simp [Dist.pdf, Dist.impossible, Dist.minimum, Dist.maximum, Dbl.lt, Dist.density, uniF, h.1, h.2, quot, hb]
    · have : (Dist.mk .uniformCon a b).impossible x = true := by
        simp only [Dist.impossible, Dist.minimum, Dist.maximum, Dbl.lt, Bool.or_eq_true, decide_eq_true_eq]
        rw [not_and_or, not_le, not_le] at h; exact h
      simp [Dist.pdf, this, uniF, h]
  · unfold uniF
    split_ifs
    · have : 0 < b - a := by linarith
      positivity
    · exact le_rfl

theorem gamma_describes {d : Dist} {a s : ℝ} (ha : 0 < a) (hs : 0 < s) (hpdf : ∀ x, x ≠ 0 → d.pdf x = .num (gammaF a s x))
    (hm : d.mean = .num (a * s)) (hv : d.variance = .num (a * s ^ 2)) (hsd : d.sd = sqrtD d.variance)
    (hsk : d.skewness = .num (2 / Real.sqrt a)) (hku : d.kurtosis = .num (6 / a)) : d.DescribesDensity {0} := by
  have hsq := Real.sqrt_pos.mpr ha
  refine describes_of_raw (finite_singleton 0) (f := gammaF a s) hpdf (gammaF_nonneg ha hs) (gammaRaw ha hs) hm hv (by ring) (by ring)
    (by rw [hsd, hv]; exact sqrtD_nonneg (by positivity)) (fun _ => ⟨_, _, hsk, hku, ?_, ?_⟩)
  · rw [Real.sqrt_mul ha.le, Real.sqrt_sq hs.le]
    field_simp
    ring
  · field_simp; ring

theorem possible_pos {d : Dist} (hmin : d.minimum = .num 0) (hmax : d.maximum = .pinf) {x : ℝ} (hx : 0 < x) : d.pdf x = d.density x := by
  simp [Dist.pdf, Dist.impossible, hmin, hmax, Dbl.lt, not_lt.mpr hx.le]

/-- Gamma, for all accepted parameters. -/
theorem C100_gamma (a s : ℝ) (d : Dist) (hd : make .gamma a s = .ok d) : d.DescribesDensity {0} := by
  have h : 0 < a ∧ 0 < s := by
    by_contra h
    have : a ≤ 0 ∨ s ≤ 0 := by rw [not_and_or, not_lt, not_lt] at h; exact h
    simp [make, this] at hd
  have := made hd; subst this
  refine gamma_describes h.1 h.2 (fun x hx => ?_) rfl (by show Dbl.num _ = _; congr 1; ring) rfl rfl rfl
  rcases lt_or_gt_of_ne hx with h0 | h0
  · rw [pdf_below rfl h0]; simp [gammaF, not_lt.mpr h0.le]
  · rw [possible_pos rfl rfl h0]
    simp [Dist.density, orInf, hx, gammaF, h0]

/-- Chi-squared, for all accepted degrees of freedom. -/
theorem C100_chi2 (k q : ℝ) (d : Dist) (hd : make .chi2 k q = .ok d) : d.DescribesDensity {0} := by
  have h : 0 < k := by
    by_contra h
    simp [make, not_lt.mp h] at hd
  have := made hd; subst this
  refine gamma_describes (a := k / 2) (s := 2) (half_pos h) two_pos (fun x hx => ?_) (by show Dbl.num _ = _; congr 1; ring)
    (by show Dbl.num _ = _; congr 1; ring) rfl ?_ (by show Dbl.num _ = _; congr 1; field_simp; norm_num)
  · rcases lt_or_gt_of_ne hx with h0 | h0
    · rw [pdf_below rfl h0]; simp [gammaF, not_lt.mpr h0.le]
    · rw [possible_pos rfl rfl h0]
      simp only [Dist.density, orInf, gammaF, if_pos h0]
      rw [if_neg (fun hc => hx hc.1), Real.rpow_neg (by norm_num)]
      congr 1
      have := Real.rpow_pos_of_pos (show (0 : ℝ) < 2 by norm_num) (k / 2)
      have := Real.Gamma_pos_of_pos (half_pos h)
      field_simp
  · show Dbl.num _ = _
    congr 1
    have e : (8 : ℝ) / k = 2 ^ 2 / (k / 2) := by field_simp; norm_num
    dsimp only
    rw [e, Real.sqrt_div (by positivity), Real.sqrt_sq (by norm_num)]

/-- Exponential, for all accepted rates. -/
theorem C100_exponential (l q : ℝ) (d : Dist) (hd : make .exponential l q = .ok d) : d.DescribesDensity {0} := by
  have h : 0 < l := by
    by_contra h
    simp [make, not_lt.mp h] at hd
  have := made hd; subst this
  refine gamma_describes (a := 1) (s := 1 / l) one_pos (by positivity) (fun x hx => ?_) (by show Dbl.num _ = _; congr 1; ring)
    (by show Dbl.num _ = _; congr 1; field_simp) rfl (by show Dbl.num _ = _; simp) (by show Dbl.num _ = _; simp)
  rcases lt_or_gt_of_ne hx with h0 | h0
  · rw [pdf_below rfl h0]; simp [gammaF, not_lt.mpr h0.le]
  · rw [possible_pos rfl rfl h0]
    simp only [Dist.density, gammaF, if_pos h0]
    congr 1
    rw [sub_self, Real.rpow_zero, Real.Gamma_one, Real.rpow_neg (by positivity), Real.rpow_one]
    have : -l * x = -x / (1 / l) := by field_simp
    rw [this]; field_simp

/-- Beta, for all accepted parameters. -/
theorem C100_beta (a b : ℝ) (d : Dist) (hd : make .beta a b = .ok d) : d.DescribesDensity {0, 1} := by
  have h : 0 < a ∧ 0 < b := by
    by_contra h
    have : a ≤ 0 ∨ b ≤ 0 := by rw [not_and_or, not_lt, not_lt] at h; exact h
    simp [make, this] at hd
  have := made hd; subst this
  obtain ⟨ha, hb⟩ := h
  have hv0 : 0 ≤ (a * b) / ((a + b) * (a + b) * (a + b + 1)) := by positivity
  refine describes_of_raw (toFinite {0, 1}) (f := betaF a b) (fun x hx => ?_) (betaF_nonneg ha hb) (betaRaw ha hb)
    (m := a / (a + b)) (v := (a * b) / ((a + b) * (a + b) * (a + b + 1))) rfl rfl (by ring) (by field_simp; ring)
    (sqrtD_nonneg hv0) (fun _ => ⟨_, _, rfl, rfl, ?_, ?_⟩)
  · have h0 : x ≠ 0 := fun e => hx (by simp [e])
    have h1 : x ≠ 1 := fun e => hx (by simp [e])
    by_cases hin : 0 < x ∧ x < 1
    · have hi : (Dist.mk .beta a b).impossible x = false := by
        simp [Dist.impossible, Dist.minimum, Dist.maximum, Dbl.lt, not_lt.mpr hin.1.le, not_lt.mpr hin.2.le]
      have h1' : 1 - x ≠ 0 := by linarith [hin.2]
      simp [Dist.pdf, hi, Dist.density, h0, h1', betaF, hin]
    · have hi : (Dist.mk .beta a b).impossible x = true := by
        simp only [Dist.impossible, Dist.minimum, Dist.maximum, Dbl.lt, Bool.or_eq_true, decide_eq_true_eq]
        rw [not_and_or, not_lt, not_lt] at hin
        rcases hin with h | h
        · exact Or.inl (lt_of_le_of_ne h h0)
        · exact Or.inr (lt_of_le_of_ne h (Ne.symm h1))
      simp [Dist.pdf, hi, betaF, hin]
  · dsimp only
    have hab : 0 < a + b := by positivity
    have e : Real.sqrt ((a * b) / ((a + b) * (a + b) * (a + b + 1))) = Real.sqrt (a * b) / ((a + b) * Real.sqrt (a + b + 1)) := by
      rw [Real.sqrt_div (by positivity), Real.sqrt_mul (mul_self_nonneg (a + b)), Real.sqrt_mul_self hab.le]
    rw [e]
    have h1 := Real.sqrt_pos.mpr (show 0 < a * b by positivity)
    have h2 := Real.sqrt_pos.mpr (show 0 < a + b + 1 by positivity)
    field_simp
    ring
  · dsimp only
    field_simp
    ring

/-- Student's t: the density, and each moment when the degrees of freedom allow it. -/
theorem C100_t (n q : ℝ) (d : Dist) (hd : make .t n q = .ok d) :
    IsDensity d.pdf ∅ ∧
    (1 < n → d.mean = .num 0 ∧ IntAvg (fun x => real (d.pdf x)) (fun x => x) 0) ∧
    (2 < n → ∃ v, d.variance = .num v ∧ d.sd = .num (Real.sqrt v) ∧ MeanVar (IntAvg fun x => real (d.pdf x)) 0 v) ∧
    (3 < n → d.skewness = .num 0 ∧ ∀ v, d.variance = .num v → Skew (IntAvg fun x => real (d.pdf x)) 0 v 0) ∧
    (4 < n → ∃ v k, d.variance = .num v ∧ d.kurtosis = .num k ∧ Kurt (IntAvg fun x => real (d.pdf x)) 0 v k) := by
  have hn : 0 < n := by
    by_contra h
    simp [make, not_lt.mp h] at hd
  have := made hd; subst this
  have hpdf : ∀ x, (Dist.mk .t n q).pdf x = .num (tF n x) := by
    intro x
    simp [Dist.pdf, Dist.impossible, Dist.minimum, Dist.maximum, Dbl.lt, Dist.density, tF]
  have hf : (fun x => real ((Dist.mk .t n q).pdf x)) = tF n := by funext x; rw [hpdf]; rfl
  rw [hf]
  obtain ⟨r0, r1, r2, r3, r4⟩ := tRaw hn
  have L := intAvg_lin (tF n)
  refine ⟨density_of finite_empty (fun x _ => hpdf x) (fun x _ => tF_nonneg hn x) r0, fun h => ⟨?_, ?_⟩, fun h => ?_, fun h => ⟨?_, fun v _ => ?_⟩, fun h => ?_⟩
  · simp [Dist.mean, h]
  · exact L.cast (r1 h) (fun x => by ring) rfl
  · have hv : (Dist.mk .t n q).variance = .num (n / (n - 2)) := by simp [Dist.variance, h]
    have h2 : 0 < n - 2 := by linarith
    refine ⟨_, hv, ?_, ?_⟩
    · show sqrtD _ = _
      rw [hv]; exact sqrtD_nonneg (by positivity)
    · have := L.meanVar r0 (r1 (by linarith)) (r2 h)
      convert this using 1 <;> ring
  · simp [Dist.skewness, h]
  · refine L.cast (r3 h) (fun x => rfl) (by ring)
  · refine ⟨n / (n - 2), 6 / (n - 4), by simp [Dist.variance, show 2 < n by linarith], by simp [Dist.kurtosis, h], ?_⟩
    refine L.cast (r4 h) (fun x => rfl) ?_
    have h2 : n - 2 ≠ 0 := by linarith
    have h4 : n - 4 ≠ 0 := by linarith
    field_simp; ring

/-- Student's t: no number is reported for a moment that does not exist. -/
theorem C100_t_none (n q : ℝ) (d : Dist) (hd : make .t n q = .ok d) :
    (n ≤ 1 → d.mean = .nan ∧ ∀ m, ¬ IntAvg (fun x => real (d.pdf x)) (fun x => x) m) ∧
    (n ≤ 2 → (∀ v, d.variance ≠ .num v) ∧ ∀ v, ¬ IntAvg (fun x => real (d.pdf x)) (fun x => (x - 0) ^ 2) v) ∧
    (n ≤ 3 → d.skewness = .nan ∧ ∀ v, ¬ IntAvg (fun x => real (d.pdf x)) (fun x => (x - 0) ^ 3) v) ∧
    (n ≤ 4 → (∀ k, d.kurtosis ≠ .num k) ∧ ∀ v, ¬ IntAvg (fun x => real (d.pdf x)) (fun x => (x - 0) ^ 4) v) := by
  have hn : 0 < n := by
    by_contra h
    simp [make, not_lt.mp h] at hd
  have := made hd; subst this
  have hpdf : ∀ x, (Dist.mk .t n q).pdf x = .num (tF n x) := by
    intro x
    simp [Dist.pdf, Dist.impossible, Dist.minimum, Dist.maximum, Dbl.lt, Dist.density, tF]
  have hf : (fun x => real ((Dist.mk .t n q).pdf x)) = tF n := by funext x; rw [hpdf]; rfl
  rw [hf]
  refine ⟨fun h => ⟨by simp [Dist.mean, not_lt.mpr h], fun v hv => tNone hn 1 (by simpa using h) ?_⟩, fun h => ⟨fun v => ?_, fun v hv => tNone hn 2 (by simpa using h) ?_⟩,
    fun h => ⟨by simp [Dist.skewness, not_lt.mpr h], fun v hv => tNone hn 3 (by simpa using h) ?_⟩, fun h => ⟨fun k => ?_, fun v hv => tNone hn 4 (by simpa using h) ?_⟩⟩
  · simpa using hv.1
  · simp only [Dist.variance, gt_iff_lt, if_neg (not_lt.mpr h)]; split_ifs <;> simp
  · simpa using hv.1
  · simpa using hv.1
  · simp only [Dist.kurtosis, gt_iff_lt, if_neg (not_lt.mpr h)]; split_ifs <;> simp
  · simpa using hv.1

theorem fF_pdf {d1 d2 : ℝ} : ∀ x : ℝ, x ∉ ({0} : Set ℝ) → (Dist.mk .f d1 d2).pdf x = .num (fF d1 d2 x) := by
  intro x hx
  have hx0 : x ≠ 0 := hx
  rcases lt_or_gt_of_ne hx0 with h0 | h0
  · rw [pdf_below rfl h0]; simp [fF, not_lt.mpr h0.le]
  · rw [possible_pos rfl rfl h0]
    simp only [Dist.density, if_neg hx0, fF, if_pos h0, betaFn]

/-- F: the density, and each moment when the degrees of freedom allow it. -/
theorem C100_f (d1 d2 : ℝ) (d : Dist) (hd : make .f d1 d2 = .ok d) :
    IsDensity d.pdf {0} ∧
    (2 < d2 → ∃ m, d.mean = .num m ∧ IntAvg (fun x => real (d.pdf x)) (fun x => x) m) ∧
    (4 < d2 → ∃ m v, d.mean = .num m ∧ d.variance = .num v ∧ d.sd = .num (Real.sqrt v) ∧ MeanVar (IntAvg fun x => real (d.pdf x)) m v) ∧
    (6 < d2 → ∃ m v s, d.mean = .num m ∧ d.variance = .num v ∧ d.skewness = .num s ∧ Skew (IntAvg fun x => real (d.pdf x)) m v s) ∧
    (8 < d2 → ∃ m v k, d.mean = .num m ∧ d.variance = .num v ∧ d.kurtosis = .num k ∧ Kurt (IntAvg fun x => real (d.pdf x)) m v k) := by
  have h : 0 < d1 ∧ 0 < d2 := by
    by_contra h
    have : d1 ≤ 0 ∨ d2 ≤ 0 := by rw [not_and_or, not_lt, not_lt] at h; exact h
    simp [make, this] at hd
  obtain ⟨h1, h2⟩ := h
  have := made hd; subst this
  have cg : ∀ {g : ℝ → ℝ} {v : ℝ}, IntAvg (fF d1 d2) g v → IntAvg (fun x => real ((Dist.mk .f d1 d2).pdf x)) g v := fun {g v} H =>
    intAvg_congr (finite_singleton 0) (fun x hx => by rw [fF_pdf x hx]; rfl) H
  obtain ⟨r0, r1, r2, r3, r4⟩ := fRaw h1 h2
  have L := intAvg_lin (fun x => real ((Dist.mk .f d1 d2).pdf x))
  have hmean : 2 < d2 → (Dist.mk .f d1 d2).mean = .num (d2 / (d2 - 2)) := fun h => by simp [Dist.mean, h]
  have hvar : 4 < d2 → (Dist.mk .f d1 d2).variance = .num (2 * d2 * d2 * (d1 + d2 - 2) / (d1 * (d2 - 2) * (d2 - 2) * (d2 - 4))) := fun h => by
    simp [Dist.variance, h]
  have ev : 4 < d2 → d2 ^ 2 * (d1 + 2) / (d1 * (d2 - 2) * (d2 - 4)) - (d2 / (d2 - 2)) ^ 2 =
      2 * d2 * d2 * (d1 + d2 - 2) / (d1 * (d2 - 2) * (d2 - 2) * (d2 - 4)) := fun h => by
    have a1 : d2 - 2 ≠ 0 := by linarith
    have a2 : d2 - 4 ≠ 0 := by linarith
    field_simp; ring
  refine ⟨density_of (finite_singleton 0) fF_pdf (fun x _ => fF_nonneg h1 h2 x) r0, fun h => ⟨_, hmean h, ?_⟩, fun h => ⟨_, _, hmean (by linarith), hvar h, ?_, ?_⟩,
    fun h => ?_, fun h => ?_⟩
  · exact L.cast (cg (r1 h)) (fun x => by ring) rfl
  · show sqrtD _ = _
    rw [hvar h]
    have a1 : 0 < d2 - 2 := by linarith
    have a2 : 0 < d2 - 4 := by linarith
    have a3 : 0 < d1 + d2 - 2 := by linarith
    exact sqrtD_nonneg (by positivity)
  · have := L.meanVar (cg r0) (cg (r1 (by linarith))) (cg (r2 h))
    rw [zero_add, ev h] at this
    exact this
  · have a1 : 0 < d2 - 2 := by linarith
    have a2 : 0 < d2 - 4 := by linarith
    have a3 : 0 < d2 - 6 := by linarith
    have a4 : 0 < d1 + d2 - 2 := by linarith
    refine ⟨_, _, ((2 * d1 + d2 - 2) * Real.sqrt (8 * (d2 - 4))) / ((d2 - 6) * Real.sqrt (d1 * (d1 + d2 - 2))), hmean (by linarith), hvar (by linarith),
      by simp [Dist.skewness, h], ?_⟩
    refine L.cast (L.central3 (cg r0) (cg (r1 (by linarith))) (cg (r2 (by linarith))) (cg (r3 h))) (fun x => by rw [zero_add]) ?_
    have e8 : Real.sqrt (2 * d2 * d2 * (d1 + d2 - 2) / (d1 * (d2 - 2) * (d2 - 2) * (d2 - 4))) =
        4 * d2 * Real.sqrt (d1 * (d1 + d2 - 2)) / (d1 * (d2 - 2) * Real.sqrt (8 * (d2 - 4))) := by
      have b1 : Real.sqrt (d1 * (d1 + d2 - 2)) * Real.sqrt (d1 * (d1 + d2 - 2)) = d1 * (d1 + d2 - 2) := Real.mul_self_sqrt (by positivity)
      have b2 : Real.sqrt (8 * (d2 - 4)) * Real.sqrt (8 * (d2 - 4)) = 8 * (d2 - 4) := Real.mul_self_sqrt (by positivity)
      have b3 := Real.sqrt_pos.mpr (show 0 < 8 * (d2 - 4) by positivity)
      have b4 := Real.sqrt_nonneg (d1 * (d1 + d2 - 2))
      generalize Real.sqrt (d1 * (d1 + d2 - 2)) = A at b1 b4 ⊢
      generalize Real.sqrt (8 * (d2 - 4)) = B at b2 b3 ⊢
      have hy : 0 ≤ 4 * d2 * A / (d1 * (d2 - 2) * B) := by positivity
      have e : 2 * d2 * d2 * (d1 + d2 - 2) / (d1 * (d2 - 2) * (d2 - 2) * (d2 - 4)) = (4 * d2 * A / (d1 * (d2 - 2) * B)) ^ 2 := by
        rw [div_pow, mul_pow, mul_pow, mul_pow, mul_pow, pow_two A, b1, pow_two B, b2]
        field_simp
        norm_num
      rw [e, Real.sqrt_sq hy]
    rw [e8]
    have s1 := Real.sqrt_pos.mpr (show 0 < d1 * (d1 + d2 - 2) by positivity)
    have s2 := Real.sqrt_pos.mpr (show 0 < 8 * (d2 - 4) by positivity)
    field_simp
    ring
  · have a1 : 0 < d2 - 2 := by linarith
    have a2 : 0 < d2 - 4 := by linarith
    have a3 : 0 < d2 - 6 := by linarith
    have a4 : 0 < d1 + d2 - 2 := by linarith
    have a5 : 0 < d2 - 8 := by linarith
    refine ⟨_, _, 12 * (d1 * (5 * d2 - 22) * (d1 + d2 - 2) + (d2 - 4) * (d2 - 2) ^ 2) / (d1 * (d2 - 6) * (d2 - 8) * (d1 + d2 - 2)), hmean (by linarith),
      hvar (by linarith), by simp [Dist.kurtosis, h], ?_⟩
    refine L.cast (L.central4 (cg r0) (cg (r1 (by linarith))) (cg (r2 (by linarith))) (cg (r3 (by linarith))) (cg (r4 h))) (fun x => by rw [zero_add]) ?_
    field_simp
    ring

/-- F: `NaN` is reported for a moment that does not exist. -/
theorem C100_f_none (d1 d2 : ℝ) (d : Dist) (hd : make .f d1 d2 = .ok d) :
    (d2 ≤ 2 → d.mean = .nan ∧ ∀ m, ¬ IntAvg (fun x => real (d.pdf x)) (fun x => x) m) ∧
    (d2 ≤ 4 → d.variance = .nan ∧ ∀ v, ¬ IntAvg (fun x => real (d.pdf x)) (fun x => x ^ 2) v) ∧
    (d2 ≤ 6 → d.skewness = .nan ∧ ∀ v, ¬ IntAvg (fun x => real (d.pdf x)) (fun x => x ^ 3) v) ∧
    (d2 ≤ 8 → d.kurtosis = .nan ∧ ∀ v, ¬ IntAvg (fun x => real (d.pdf x)) (fun x => x ^ 4) v) := by
  have h : 0 < d1 ∧ 0 < d2 := by
    by_contra h
    have : d1 ≤ 0 ∨ d2 ≤ 0 := by rw [not_and_or, not_lt, not_lt] at h; exact h
    simp [make, this] at hd
  obtain ⟨h1, h2⟩ := h
  have := made hd; subst this
  have cg : ∀ {g : ℝ → ℝ} {v : ℝ}, IntAvg (fun x => real ((Dist.mk .f d1 d2).pdf x)) g v → IntAvg (fF d1 d2) g v := fun {g v} H =>
    intAvg_congr (finite_singleton 0) (fun x hx => by rw [fF_pdf x hx]; rfl) H
  refine ⟨fun h => ⟨by simp [Dist.mean, not_lt.mpr h], fun v hv => fNone h1 h2 1 (by push_cast; linarith) ?_⟩,
    fun h => ⟨by simp [Dist.variance, not_lt.mpr h], fun v hv => fNone h1 h2 2 (by push_cast; linarith) (cg hv).1⟩,
    fun h => ⟨by simp [Dist.skewness, not_lt.mpr h], fun v hv => fNone h1 h2 3 (by push_cast; linarith) (cg hv).1⟩,
    fun h => ⟨by simp [Dist.kurtosis, not_lt.mpr h], fun v hv => fNone h1 h2 4 (by push_cast; linarith) (cg hv).1⟩⟩
  simpa using (cg hv).1

/-- A standard deviation of zero and an interval that is a point are accepted, but there is no density. -/
theorem C100_degenerate_violated :
    (∃ d, make .normal 0 0 = .ok d ∧ ∀ x, d.pdf x = .nan) ∧
    (∃ d, make .uniformCon 1 1 = .ok d ∧ d.pdf 1 = .pinf ∧ ∀ x, x ≠ 1 → d.pdf x = .num 0) := by
  refine ⟨⟨⟨.normal, 0, 0⟩, by simp [make], fun x => by
    simp [Dist.pdf, Dist.impossible, Dist.minimum, Dist.maximum, Dbl.lt, Dist.density]⟩,
    ⟨⟨.uniformCon, 1, 1⟩, by simp [make], by
      simp [Dist.pdf, Dist.impossible, Dist.minimum, Dist.maximum, Dbl.lt, Dist.density, quot], fun x hx => ?_⟩⟩
  have hi : (Dist.mk .uniformCon 1 1).impossible x = true := by
    simp only [Dist.impossible, Dist.minimum, Dist.maximum, Dbl.lt, Bool.or_eq_true, decide_eq_true_eq]
    exact lt_or_gt_of_ne hx
  simp [Dist.pdf, hi]

/-- The hypotheses are met. -/
example : (∃ d, make .normal 1 2 = .ok d ∧ d.DescribesDensity ∅) ∧ (∃ d, make .gamma 2 3 = .ok d ∧ d.DescribesDensity {0}) ∧
    (∃ d, make .t 5 0 = .ok d ∧ d.mean = .num 0) := by
  have hn : make .normal 1 2 = .ok ⟨.normal, 1, 2⟩ := by norm_num [make]
  have hg : make .gamma 2 3 = .ok ⟨.gamma, 2, 3⟩ := by norm_num [make]
  have ht : make .t 5 0 = .ok ⟨.t, 5, 0⟩ := by norm_num [make]
  exact ⟨⟨_, hn, C100_normal 1 2 (by norm_num) _ hn⟩, ⟨_, hg, C100_gamma 2 3 _ hg⟩, ⟨_, ht, ((C100_t 5 0 _ ht).2.1 (by norm_num)).1⟩⟩

end Di
end LDT
