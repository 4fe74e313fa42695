import Verif.Props.DistCdf
import Verif.Props.DistDiscrete
/-!
# C106: modes

`GetMode()` is a point where the reported density, or mass function, is largest.
-/
namespace LDT
namespace Di
open Op Set

/-- The reported density has its largest value at the reported mode; the points of `E`, where it may be `NaN`, are left out. -/
def Dist.ModeOfDensity (d : Dist) (E : Set ℝ) : Prop := ∃ m, d.mode = .num m ∧ ∀ y, y ∉ E → (d.pdf y).le (d.pdf m) = true

/-- The reported mass function has its largest value, among the integers, at the reported mode, which is an integer. -/
def Dist.ModeOfMass (d : Dist) : Prop := ∃ m : ℤ, d.mode = .num m ∧ ∀ k : ℤ, (d.pdf k).le (d.pdf m) = true

theorem le_num {a b : ℝ} (h : a ≤ b) : (Dbl.num a).le (Dbl.num b) = true := by simpa [Dbl.le] using h

/-! ## Inequalities -/

theorem gibbs {α β u : ℝ} (ha : 0 < α) (hb : 0 < β) (h0 : 0 < u) (h1 : u < 1) :
    u ^ α * (1 - u) ^ β ≤ (α / (α + β)) ^ α * (β / (α + β)) ^ β := by
  have hs : 0 < α + β := by linarith
  have hq : 0 < 1 - u := by linarith
  have p1 : 0 < α / (α + β) := by positivity
  have p2 : 0 < β / (α + β) := by positivity
  rw [Real.rpow_def_of_pos h0, Real.rpow_def_of_pos hq, Real.rpow_def_of_pos p1, Real.rpow_def_of_pos p2, ← Real.exp_add, ← Real.exp_add, Real.exp_le_exp]
  have l1 := Real.log_le_sub_one_of_pos (div_pos h0 p1)
  have l2 := Real.log_le_sub_one_of_pos (div_pos hq p2)
  rw [Real.log_div h0.ne' p1.ne'] at l1
  rw [Real.log_div hq.ne' p2.ne'] at l2
  have m1 := mul_le_mul_of_nonneg_left l1 ha.le
  have m2 := mul_le_mul_of_nonneg_left l2 hb.le
  have e1 : α * (u / (α / (α + β)) - 1) = (α + β) * u - α := by field_simp
  have e2 : β * ((1 - u) / (β / (α + β)) - 1) = (α + β) * (1 - u) - β := by field_simp
  rw [e1] at m1
  rw [e2] at m2
  linarith

theorem odds {α β t : ℝ} (ht : 0 < t) : t ^ α * (1 + t) ^ (-(α + β)) = (t / (1 + t)) ^ α * (1 - t / (1 + t)) ^ β := by
  have h1 : 0 < 1 + t := by linarith
  have e : 1 - t / (1 + t) = 1 / (1 + t) := by field_simp; ring
  rw [e, Real.div_rpow ht.le h1.le, Real.div_rpow zero_le_one h1.le, Real.one_rpow, Real.rpow_neg h1.le, Real.rpow_add h1]
  have := Real.rpow_pos_of_pos h1 α
  have := Real.rpow_pos_of_pos h1 β
  field_simp

theorem gamma_peak {α s x : ℝ} (ha : 0 ≤ α) (hs : 0 < s) (hx : 0 ≤ x) :
    x ^ α * Real.exp (-x / s) ≤ (α * s) ^ α * Real.exp (-(α * s) / s) := by
  rcases ha.eq_or_lt with h | h
  · rw [← h]
    simp only [Real.rpow_zero, one_mul, zero_mul, neg_zero, zero_div, Real.exp_zero]
    rw [Real.exp_le_one_iff]
    exact div_nonpos_of_nonpos_of_nonneg (by linarith) hs.le
  · rcases hx.eq_or_lt with h0 | h0
    · rw [← h0, Real.zero_rpow h.ne', zero_mul]; positivity
    · have hp : 0 < α * s := by positivity
      rw [Real.rpow_def_of_pos h0, Real.rpow_def_of_pos hp, ← Real.exp_add, ← Real.exp_add, Real.exp_le_exp]
      have l := Real.log_le_sub_one_of_pos (div_pos h0 hp)
      rw [Real.log_div h0.ne' hp.ne'] at l
      have m1 := mul_le_mul_of_nonneg_left l ha
      have e1 : α * (x / (α * s) - 1) = x / s - α := by field_simp
      have e2 : -(α * s) / s = -α := by field_simp
      rw [e1] at m1
      rw [e2, neg_div]
      linarith

theorem peak {u : ℕ → ℝ} {M : ℕ} (hup : ∀ n, n < M → u n ≤ u (n + 1)) (hdown : ∀ n, M ≤ n → u (n + 1) ≤ u n) (n : ℕ) : u n ≤ u M := by
  rcases le_total n M with h | h
  · obtain ⟨j, rfl⟩ := Nat.exists_eq_add_of_le h
    clear hdown h
    induction j with
    | zero => exact le_rfl
    | succ j ih => exact (ih fun i hi => hup i (by omega)).trans (hup (n + j) (by omega))
  · obtain ⟨j, rfl⟩ := Nat.exists_eq_add_of_le h
    clear h
    induction j with
    | zero => exact le_rfl
    | succ j ih => exact (hdown (M + j) (by omega)).trans ih

/-- A law on the natural numbers whose masses rise up to `M` and fall from there. -/
theorem mode_natural {d : Dist} {u : ℕ → ℝ} (hmin : d.minimum = .num 0) (hpdf : ∀ n : ℕ, d.pdf n = .num (u n)) (hu : ∀ n, 0 ≤ u n) (M : ℕ)
    (hup : ∀ n, n < M → u n ≤ u (n + 1)) (hdown : ∀ n, M ≤ n → u (n + 1) ≤ u n) (hm : d.mode = .num ((M : ℤ) : ℝ)) : d.ModeOfMass := by
  refine ⟨M, hm, fun k => ?_⟩
  have hM : d.pdf ((M : ℤ) : ℝ) = .num (u M) := by simpa using hpdf M
  rw [hM]
  rcases lt_or_ge k 0 with h | h
  · rw [pdf_below hmin (by exact_mod_cast h)]
    exact le_num (hu M)
  · obtain ⟨n, rfl⟩ := Int.eq_ofNat_of_zero_le h
    have : d.pdf ((n : ℤ) : ℝ) = .num (u n) := by simpa using hpdf n
    rw [this]
    exact le_num (peak hup hdown n)

/-! ## Continuous laws -/

/-- Normal. -/
theorem C106_normal (m s : ℝ) (hs : 0 < s) (d : Dist) (hd : make .normal m s = .ok d) : d.ModeOfDensity ∅ := by
  have := made hd; subst this
  refine ⟨m, rfl, fun y _ => ?_⟩
  rw [normal_pdf hs, normal_pdf hs]
  refine le_num ?_
  unfold normF
  have : 0 < Real.sqrt (2 * Real.pi) * s := by positivity
  rw [div_le_div_iff_of_pos_right this, Real.exp_le_exp]
  have := mul_self_nonneg ((y - m) / s)
  simp only [sub_self, zero_div, mul_zero]
  nlinarith

/-- Log-normal; the density is `NaN` at zero. -/
theorem C106_lognormal (m s : ℝ) (hs : 0 < s) (d : Dist) (hd : make .logNormal m s = .ok d) : d.ModeOfDensity {0} := by
  have := made hd; subst this
  refine ⟨Real.exp (m - s * s), rfl, fun y hy => ?_⟩
  have hy : y ≠ 0 := hy
  have hm := Real.exp_pos (m - s * s)
  rw [lognormal_pdf hs hy, lognormal_pdf hs hm.ne']
  refine le_num ?_
  unfold logF
  rw [if_pos hm]
  have hc : 0 < Real.sqrt (2 * Real.pi) * s := by positivity
  split_ifs with h
  · have key : ∀ x : ℝ, 0 < x → Real.exp (-(1 / 2) * ((Real.log x - m) / s) * ((Real.log x - m) / s)) / (x * Real.sqrt (2 * Real.pi) * s) =
        Real.exp (-(1 / 2) * ((Real.log x - m) / s) * ((Real.log x - m) / s) - Real.log x) / (Real.sqrt (2 * Real.pi) * s) := by
      intro x hx
      rw [Real.exp_sub, Real.exp_log hx]
      field_simp
    rw [key y h, key _ hm, div_le_div_iff_of_pos_right hc, Real.exp_le_exp, Real.log_exp]
    have e : (-(1 / 2) * ((m - s * s - m) / s) * ((m - s * s - m) / s) - (m - s * s)) - (-(1 / 2) * ((Real.log y - m) / s) * ((Real.log y - m) / s) - Real.log y) =
        1 / 2 * ((Real.log y - m) / s + s) ^ 2 := by field_simp; ring
    have := sq_nonneg ((Real.log y - m) / s + s)
    linarith
  · positivity

/-- Student t. -/
theorem C106_t (n q : ℝ) (d : Dist) (hd : make .t n q = .ok d) : d.ModeOfDensity ∅ := by
  have hn := pos_of_make1 (Or.inl rfl) hd
  have := made hd; subst this
  refine ⟨0, rfl, fun y _ => ?_⟩
  rw [t_pdf, t_pdf]
  refine le_num ?_
  unfold tF
  have g1 : 0 < Real.Gamma ((n + 1) / 2) := Real.Gamma_pos_of_pos (by linarith)
  have g2 : 0 < Real.Gamma (n / 2) := Real.Gamma_pos_of_pos (by linarith)
  have hc : 0 < Real.Gamma (n / 2) * Real.sqrt (n * Real.pi) := by positivity
  rw [div_le_div_iff_of_pos_right hc]
  refine mul_le_mul_of_nonneg_left ?_ g1.le
  simp only [mul_zero, zero_div, add_zero, Real.one_rpow]
  refine Real.rpow_le_one_of_one_le_of_nonpos ?_ (by linarith)
  have : 0 ≤ y * y / n := div_nonneg (mul_self_nonneg y) hn.le
  linarith

/-- Uniform on an interval. -/
theorem C106_uniform (a b : ℝ) (hab : a < b) (d : Dist) (hd : make .uniformCon a b = .ok d) : d.ModeOfDensity ∅ := by
  have := made hd; subst this
  refine ⟨(a + b) / 2, rfl, fun y _ => ?_⟩
  rw [uniformCon_pdf hab, uniformCon_pdf hab]
  refine le_num ?_
  unfold uniF
  have hp : 0 < b - a := by linarith
  have : (a ≤ (a + b) / 2 ∧ (a + b) / 2 ≤ b) := by constructor <;> linarith
  rw [if_pos this]
  split_ifs
  · exact le_rfl
  · positivity

/-- Exponential. -/
theorem C106_exponential (l q : ℝ) (d : Dist) (hd : make .exponential l q = .ok d) : d.ModeOfDensity ∅ := by
  have hl := pos_of_make1 (Or.inr (Or.inr rfl)) hd
  have := made hd; subst this
  refine ⟨0, rfl, fun y _ => ?_⟩
  rw [exponential_pdf le_rfl]
  rcases lt_or_ge y 0 with h | h
  · rw [pdf_below rfl h]; exact le_num (by positivity)
  · rw [exponential_pdf h]
    refine le_num (mul_le_mul_of_nonneg_left ?_ hl.le)
    rw [Real.exp_le_exp]
    have := mul_nonneg hl.le h
    linarith

theorem gamma_le {a s : ℝ} (ha : 1 ≤ a) (hs : 0 < s) {x : ℝ} (hx : 0 ≤ x) :
    s ^ (-a) * x ^ (a - 1) * Real.exp (-x / s) / Real.Gamma a ≤ s ^ (-a) * ((a - 1) * s) ^ (a - 1) * Real.exp (-((a - 1) * s) / s) / Real.Gamma a := by
  have g : 0 < Real.Gamma a := Real.Gamma_pos_of_pos (by linarith)
  have r : 0 < s ^ (-a) := Real.rpow_pos_of_pos hs _
  rw [div_le_div_iff_of_pos_right g, mul_assoc, mul_assoc]
  exact mul_le_mul_of_nonneg_left (gamma_peak (by linarith) hs hx) r.le

theorem gamma_pdf0 {a s x : ℝ} (ha : 1 ≤ a) (hx : 0 ≤ x) : (Dist.mk .gamma a s).pdf x = .num (s ^ (-a) * x ^ (a - 1) * Real.exp (-x / s) / Real.Gamma a) := by
  have : ¬ a < 1 := not_lt.mpr ha
  simp [Dist.pdf, Dist.impossible, Dist.minimum, Dist.maximum, Dbl.lt, Dist.density, not_lt.mpr hx, orInf, this]

/-- Gamma with a shape of at least one; otherwise the density has no largest value and no mode is claimed. -/
theorem C106_gamma (a s : ℝ) (d : Dist) (hd : make .gamma a s = .ok d) : (1 ≤ a → d.ModeOfDensity ∅) ∧ (a < 1 → d.mode = .nan ∧ d.pdf 0 = .pinf) := by
  obtain ⟨-, hs⟩ := pos_of_make (Or.inl rfl) hd
  have := made hd; subst this
  refine ⟨fun ha => ⟨(a - 1) * s, by simp [Dist.mode, ha], fun y _ => ?_⟩, fun ha => ⟨by simp [Dist.mode, not_le.mpr ha], ?_⟩⟩
  · have hm : 0 ≤ (a - 1) * s := mul_nonneg (by linarith) hs.le
    rw [gamma_pdf0 ha hm]
    rcases lt_or_ge y 0 with h | h
    · rw [pdf_below rfl h]
      refine le_num ?_
      have g : 0 < Real.Gamma a := Real.Gamma_pos_of_pos (by linarith)
      positivity
    · rw [gamma_pdf0 ha h]
      exact le_num (gamma_le ha hs h)
  · simp [Dist.pdf, Dist.impossible, Dist.minimum, Dist.maximum, Dbl.lt, Dist.density, orInf, ha]

theorem chi2_pdf0 {k q x : ℝ} (hk : 2 ≤ k) (hx : 0 ≤ x) :
    (Dist.mk .chi2 k q).pdf x = .num ((2 : ℝ) ^ (-(k / 2)) * x ^ (k / 2 - 1) * Real.exp (-x / 2) / Real.Gamma (k / 2)) := by
  have h1 : ¬ k / 2 < 1 := by linarith
  simp only [Dist.pdf, Dist.impossible, Dist.minimum, Dist.maximum, Dbl.lt, Dist.density, not_lt.mpr hx, orInf]
  rw [if_neg (by simp), if_neg (by intro h; linarith [h.2])]
  congr 1
  rw [Real.rpow_neg (by norm_num)]
  have : (2 : ℝ) ^ (k / 2) ≠ 0 := by positivity
  field_simp

/-- Chi-squared; with less than two degrees of freedom the density is infinite at the mode. -/
theorem C106_chi2 (k q : ℝ) (d : Dist) (hd : make .chi2 k q = .ok d) : d.ModeOfDensity ∅ := by
  have hk := pos_of_make1 (Or.inr (Or.inl rfl)) hd
  have := made hd; subst this
  refine ⟨max 0 (k - 2), rfl, fun y _ => ?_⟩
  rcases lt_or_ge k 2 with h2 | h2
  · rw [max_eq_left (by linarith)]
    have h0 : (Dist.mk .chi2 k q).pdf 0 = .pinf := by
      have : k / 2 < 1 := by linarith
      simp [Dist.pdf, Dist.impossible, Dist.minimum, Dist.maximum, Dbl.lt, Dist.density, orInf, this]
    rw [h0]
    by_cases hy : y = 0
    · rw [hy, h0]; rfl
    · rw [chi2_pdf hk hy]; rfl
  · rw [max_eq_right (by linarith)]
    have e : (k / 2 - 1) * 2 = k - 2 := by ring
    rw [chi2_pdf0 (x := k - 2) h2 (by linarith)]
    rcases lt_or_ge y 0 with h | h
    · rw [pdf_below rfl h]
      refine le_num ?_
      have g : 0 < Real.Gamma (k / 2) := Real.Gamma_pos_of_pos (by linarith)
      have := Real.rpow_nonneg (show 0 ≤ k - 2 by linarith) (k / 2 - 1)
      positivity
    · rw [chi2_pdf0 h2 h]
      have := gamma_le (a := k / 2) (s := 2) (by linarith) two_pos h
      rw [e] at this
      exact le_num this

/-- F with more than two degrees of freedom in the numerator; the density is `NaN` at zero. -/
theorem C106_f (d1 d2 : ℝ) (d : Dist) (hd : make .f d1 d2 = .ok d) : (2 < d1 → d.ModeOfDensity {0}) ∧ (d1 ≤ 2 → d.mode = .nan) := by
  obtain ⟨h1, h2⟩ := pos_of_make (Or.inr (Or.inr rfl)) hd
  have := made hd; subst this
  refine ⟨fun h => ⟨((d1 - 2) * d2) / ((d2 + 2) * d1), by simp [Dist.mode, h], fun y hy => ?_⟩, fun h => by simp [Dist.mode, not_lt.mpr h]⟩
  have hy : y ≠ 0 := hy
  have hm : 0 < ((d1 - 2) * d2) / ((d2 + 2) * d1) := div_pos (mul_pos (by linarith) h2) (by positivity)
  rw [fF_pdf y hy, fF_pdf _ hm.ne']
  refine le_num ?_
  rcases lt_or_gt_of_ne hy with hn | hp
  · have : fF d1 d2 y = 0 := by simp [fF, not_lt.mpr hn.le]
    rw [this]; exact fF_nonneg h1 h2 _
  · rw [fF_ratio h1 h2 hp, fF_ratio h1 h2 hm]
    have hB := betaFn_pos (half_pos h1) (half_pos h2)
    rw [div_le_div_iff_of_pos_right hB]
    refine mul_le_mul_of_nonneg_left ?_ (by positivity)
    have e : d1 / 2 + d2 / 2 = (d1 / 2 - 1) + (d2 / 2 + 1) := by ring
    have t1 : 0 < d1 / d2 * y := by positivity
    have t2 : 0 < d1 / d2 * ((d1 - 2) * d2 / ((d2 + 2) * d1)) := by positivity
    rw [e, odds t1, odds t2]
    have em : d1 / d2 * ((d1 - 2) * d2 / ((d2 + 2) * d1)) = (d1 - 2) / (d2 + 2) := by field_simp
    have hs : 0 < d1 + d2 := by linarith
    have e1 : (d1 - 2) / (d2 + 2) / (1 + (d1 - 2) / (d2 + 2)) = (d1 / 2 - 1) / ((d1 / 2 - 1) + (d2 / 2 + 1)) := by
      have a1 : d2 + 2 ≠ 0 := by positivity
      have a2 : 1 + (d1 - 2) / (d2 + 2) = (d1 + d2) / (d2 + 2) := by field_simp; ring
      have a3 : (d1 / 2 - 1) + (d2 / 2 + 1) = (d1 + d2) / 2 := by ring
      rw [a2, a3]; field_simp
    have e2 : 1 - (d1 / 2 - 1) / ((d1 / 2 - 1) + (d2 / 2 + 1)) = (d2 / 2 + 1) / ((d1 / 2 - 1) + (d2 / 2 + 1)) := by
      have a3 : (d1 / 2 - 1) + (d2 / 2 + 1) ≠ 0 := by linarith
      rw [eq_div_iff a3, sub_mul, div_mul_cancel₀ _ a3]; ring
    rw [em, e1, e2]
    refine gibbs (by linarith) (by linarith) (by positivity) ?_
    rw [div_lt_one (by linarith)]; linarith

theorem beta_pdf0 {a b x : ℝ} (h0 : 0 ≤ x) (h1 : x ≤ 1) (ha : x ≠ 0 ∨ 1 ≤ a) (hb : x ≠ 1 ∨ 1 ≤ b) :
    (Dist.mk .beta a b).pdf x = .num (Real.Gamma (a + b) / (Real.Gamma a * Real.Gamma b) * x ^ (a - 1) * (1 - x) ^ (b - 1)) := by
  simp only [Dist.pdf, Dist.impossible, Dist.minimum, Dist.maximum, Dbl.lt, Dist.density, not_lt.mpr h0, not_lt.mpr h1]
  rw [if_neg (by simp), if_neg]
  rintro (⟨e, h⟩ | ⟨e, h⟩)
  · rcases ha with h' | h'
    · exact h' e
    · linarith
  · rcases hb with h' | h'
    · exact h' (by linarith)
    · linarith

theorem beta_out {a b y : ℝ} (h : y < 0 ∨ 1 < y) : (Dist.mk .beta a b).pdf y = .num 0 := by
  have : (Dist.mk .beta a b).impossible y = true := by simpa [Dist.impossible, Dist.minimum, Dist.maximum, Dbl.lt] using h
  simp [Dist.pdf, this]

/-- Beta with a second parameter of at least one, or a first one less than one. For the others see `C106_beta_violated`. -/
theorem C106_beta_partial (a b : ℝ) (hab : a < 1 ∨ 1 ≤ b) (d : Dist) (hd : make .beta a b = .ok d) : d.ModeOfDensity ∅ := by
  obtain ⟨ha, hb⟩ := pos_of_make (Or.inr (Or.inl rfl)) hd
  have := made hd; subst this
  have hg : 0 < Real.Gamma (a + b) / (Real.Gamma a * Real.Gamma b) := by
    have := Real.Gamma_pos_of_pos ha
    have := Real.Gamma_pos_of_pos hb
    have := Real.Gamma_pos_of_pos (add_pos ha hb)
    positivity
  by_cases h1 : a < 1
  · refine ⟨0, ?_, fun y _ => ?_⟩
    · simp only [Dist.mode]
      rw [if_neg (by rintro ⟨h, -⟩; linarith), if_pos ⟨h1.le, hb⟩]
    · have h0 : (Dist.mk .beta a b).pdf 0 = .pinf := by
        simp [Dist.pdf, Dist.impossible, Dist.minimum, Dist.maximum, Dbl.lt, Dist.density, h1]
      rw [h0]
      by_cases hy : y = 0
      · rw [hy, h0]; rfl
      by_cases hy1 : y = 1
      · rw [hy1]
        by_cases hb1 : b < 1
        · have : (Dist.mk .beta a b).pdf 1 = .pinf := by
            simp [Dist.pdf, Dist.impossible, Dist.minimum, Dist.maximum, Dbl.lt, Dist.density, hb1]
          rw [this]; rfl
        · rw [beta_pdf0 zero_le_one le_rfl (Or.inl one_ne_zero) (Or.inr (not_lt.mp hb1))]; rfl
      · rw [beta_pdf hy hy1]; rfl
  · rw [not_lt] at h1
    have hb1 : 1 ≤ b := hab.resolve_left (not_lt.mpr h1)
    have fin : ∀ {m : ℝ}, 0 ≤ m → m ≤ 1 → (∀ y, 0 ≤ y → y ≤ 1 → y ^ (a - 1) * (1 - y) ^ (b - 1) ≤ m ^ (a - 1) * (1 - m) ^ (b - 1)) →
        ∀ y, ((Dist.mk .beta a b).pdf y).le ((Dist.mk .beta a b).pdf m) = true := by
      intro m m0 m1 h y
      rw [beta_pdf0 m0 m1 (Or.inr h1) (Or.inr hb1)]
      by_cases hy : 0 ≤ y ∧ y ≤ 1
      · rw [beta_pdf0 hy.1 hy.2 (Or.inr h1) (Or.inr hb1)]
        refine le_num ?_
        rw [mul_assoc, mul_assoc]
        exact mul_le_mul_of_nonneg_left (h y hy.1 hy.2) hg.le
      · rw [beta_out (by by_contra hn; rw [not_or, not_lt, not_lt] at hn; exact hy hn)]
        refine le_num ?_
        have := Real.rpow_nonneg m0 (a - 1)
        have := Real.rpow_nonneg (show 0 ≤ 1 - m by linarith) (b - 1)
        positivity
    rcases h1.eq_or_lt with ea | h1'
    · rcases hb1.eq_or_lt with eb | hb1'
      · refine ⟨1 / 2, by simp [Dist.mode, ← ea, ← eb], fun y _ => fin (by norm_num) (by norm_num) (fun y _ _ => ?_) y⟩
        rw [← ea, ← eb]; simp
      · refine ⟨0, ?_, fun y _ => fin le_rfl zero_le_one (fun y y0 y1 => ?_) y⟩
        · simp only [Dist.mode]
          rw [if_neg (by rintro ⟨-, h⟩; linarith), if_pos ⟨ea.symm.le, hb⟩]
        · rw [← ea]; simp only [sub_self, Real.rpow_zero, one_mul, sub_zero, Real.one_rpow]
          exact Real.rpow_le_one (by linarith) (by linarith) (by linarith)
    · have hm : (Dist.mk .beta a b).mode = .num ((a - 1) / (a + b - 2)) := by
        simp only [Dist.mode]
        rw [if_neg (by rintro ⟨h, -⟩; linarith), if_neg (by rintro ⟨h, -⟩; linarith), if_neg (by rintro ⟨-, h⟩; linarith), if_neg (by rintro ⟨h, -⟩; linarith),
          quot_ne (by intro h; linarith)]
      rcases hb1.eq_or_lt with eb | hb1'
      · refine ⟨1, ?_, fun y _ => fin zero_le_one le_rfl (fun y y0 y1 => ?_) y⟩
        · rw [hm, ← eb]; congr 1; rw [div_eq_one_iff_eq (by intro h; linarith)]; ring
        · rw [← eb]; simp only [sub_self, Real.rpow_zero, mul_one, Real.one_rpow]
          exact Real.rpow_le_one y0 y1 (by linarith)
      · have hs : 0 < a + b - 2 := by linarith
        refine ⟨(a - 1) / (a + b - 2), hm, fun y _ => fin (div_nonneg (by linarith) hs.le) (by rw [div_le_one hs]; linarith) (fun y y0 y1 => ?_) y⟩
        have n1 : 0 ≤ ((a - 1) / (a + b - 2)) ^ (a - 1) := Real.rpow_nonneg (div_nonneg (by linarith) hs.le) _
        have e2 : 1 - (a - 1) / (a + b - 2) = (b - 1) / (a + b - 2) := by field_simp; ring
        have n2 : 0 ≤ ((b - 1) / (a + b - 2)) ^ (b - 1) := Real.rpow_nonneg (div_nonneg (by linarith) hs.le) _
        rw [e2]
        rcases y0.eq_or_lt with e | y0'
        · rw [← e, Real.zero_rpow (by intro h; linarith), zero_mul]; positivity
        rcases y1.eq_or_lt with e | y1'
        · rw [e, sub_self, Real.zero_rpow (by intro h; linarith), mul_zero]; positivity
        have := gibbs (α := a - 1) (β := b - 1) (by linarith) (by linarith) y0' y1'
        rwa [show a - 1 + (b - 1) = a + b - 2 by ring] at this

/-! ## Discrete laws -/

/-- Poisson with a positive rate. -/
theorem C106_poisson (l q : ℝ) (hl : 0 < l) (d : Dist) (hd : make .poisson l q = .ok d) : d.ModeOfMass := by
  have := made hd; subst this
  have step : ∀ n : ℕ, Real.exp (-l) * l ^ (n + 1) / ((n + 1).factorial : ℝ) = Real.exp (-l) * l ^ n / (n.factorial : ℝ) * (l / (n + 1)) := fun n => by
    have : (n.factorial : ℝ) ≠ 0 := by positivity
    rw [Nat.factorial_succ]; push_cast; field_simp; ring
  refine mode_natural (u := fun n => Real.exp (-l) * l ^ n / (n.factorial : ℝ)) rfl (poisson_pdf l q hl) (fun n => by positivity) ⌊l⌋₊ (fun n hn => ?_) (fun n hn => ?_) ?_
  · have hp : 0 ≤ Real.exp (-l) * l ^ n / (n.factorial : ℝ) := by positivity
    have : 1 ≤ l / ((n : ℝ) + 1) := by
      rw [le_div_iff₀ (by positivity)]
      have := (Nat.le_floor_iff hl.le).mp hn
      push_cast at this; linarith
    rw [step]; exact le_mul_of_one_le_right hp this
  · have hp : 0 ≤ Real.exp (-l) * l ^ n / (n.factorial : ℝ) := by positivity
    have : l / ((n : ℝ) + 1) ≤ 1 := by
      rw [div_le_one (by positivity)]
      have := (Nat.floor_lt hl.le).mp (by omega : ⌊l⌋₊ < n + 1)
      push_cast at this; linarith
    rw [step]; exact mul_le_of_le_one_right hp this
  · show Dbl.num _ = _
    rw [Int.natCast_floor_eq_floor hl.le]

theorem prob_of_make {p q : ℝ} {d : Dist} {k : Kind} (hk : k = .geometric ∨ k = .bernoulli) (hd : make k p q = .ok d) : 0 ≤ p ∧ p ≤ 1 := by
  constructor <;> by_contra h <;> rcases hk with rfl | rfl <;> simp [make, not_le.mp h] at hd

/-- Geometric with every accepted probability. -/
theorem C106_geometric (p q : ℝ) (d : Dist) (hd : make .geometric p q = .ok d) : d.ModeOfMass := by
  obtain ⟨h0, h1⟩ := prob_of_make (Or.inl rfl) hd
  have := made hd; subst this
  have hq : 0 ≤ 1 - p := by linarith
  refine mode_natural (u := fun n => (1 - p) ^ n * p) rfl (geometric_pdf p q) (fun n => by positivity) 0 (fun n hn => by omega) (fun n _ => ?_) (by simp [Dist.mode])
  refine mul_le_mul_of_nonneg_right ?_ h0
  rw [pow_succ]
  exact mul_le_of_le_one_right (by positivity) (by linarith)

/-- Bernoulli with every accepted probability. -/
theorem C106_bernoulli (p q : ℝ) (d : Dist) (hd : make .bernoulli p q = .ok d) : d.ModeOfMass := by
  obtain ⟨h0, h1⟩ := prob_of_make (Or.inr rfl) hd
  have := made hd; subst this
  have hq : 0 ≤ 1 - p := by linarith
  have big : ∀ n : ℕ, 1 ≤ n → ((1 : ℕ).choose (n + 1) : ℝ) * p ^ (n + 1) * (1 - p) ^ (1 - (n + 1)) = 0 := fun n hn => by
    rw [Nat.choose_eq_zero_of_lt (by omega)]; simp
  have pos : ∀ n : ℕ, 0 ≤ ((1 : ℕ).choose n : ℝ) * p ^ n * (1 - p) ^ (1 - n) := fun n => by positivity
  rcases le_or_gt p (1 / 2) with h | h
  · refine mode_natural (u := fun n => ((1 : ℕ).choose n : ℝ) * p ^ n * (1 - p) ^ (1 - n)) rfl (bernoulli_pdf p q) pos 0 (fun n hn => by omega) (fun n _ => ?_) ?_
    · rcases n with _ | n
      · simp; linarith
      · rw [big _ (by omega)]; exact pos _
    · simp only [Dist.mode, if_neg (not_lt.mpr h)]; split_ifs <;> simp
  · refine mode_natural (u := fun n => ((1 : ℕ).choose n : ℝ) * p ^ n * (1 - p) ^ (1 - n)) rfl (bernoulli_pdf p q) pos 1 (fun n hn => ?_) (fun n hn => ?_) ?_
    · obtain rfl : n = 0 := by omega
      simp; linarith
    · rw [big _ hn]; exact pos _
    · simp only [Dist.mode, if_neg (not_lt.mpr h.le), if_pos h]; simp

/-- Binomial with a probability less than one. -/
theorem C106_binomial_partial (p : ℝ) (hp1 : p < 1) (n : ℕ) (d : Dist) (hd : make .binomial p n = .ok d) : d.ModeOfMass := by
  have h0 : 0 ≤ p := by
    by_contra h
    simp [make, not_le.mp h] at hd
  have := made hd; subst this
  have hq : 0 < 1 - p := by linarith
  have hx : 0 ≤ ((n : ℝ) + 1) * p := by positivity
  have pos : ∀ k : ℕ, 0 ≤ (n.choose k : ℝ) * p ^ k * (1 - p) ^ (n - k) := fun k => by positivity
  have step : ∀ k : ℕ, k < n → ((n.choose (k + 1) : ℝ) * p ^ (k + 1) * (1 - p) ^ (n - (k + 1))) * (((k : ℝ) + 1) * (1 - p)) =
      ((n.choose k : ℝ) * p ^ k * (1 - p) ^ (n - k)) * (((n : ℝ) - k) * p) := by
    intro k hk
    have hc : (n.choose (k + 1) : ℝ) * ((k : ℝ) + 1) = (n.choose k : ℝ) * ((n : ℝ) - k) := by
      have := Nat.choose_succ_right_eq n k
      have := congrArg (Nat.cast (R := ℝ)) this
      push_cast [Nat.cast_sub hk.le] at this; exact this
    have e : (1 - p) ^ (n - k) = (1 - p) ^ (n - (k + 1)) * (1 - p) := by rw [← pow_succ]; congr 1; omega
    rw [e, pow_succ]
    linear_combination (p ^ k * p * (1 - p) ^ (n - (k + 1)) * (1 - p)) * hc
  have hMn : ⌊((n : ℝ) + 1) * p⌋₊ ≤ n := by
    have : ⌊((n : ℝ) + 1) * p⌋₊ < n + 1 := by
      rw [Nat.floor_lt hx]; push_cast
      have : (0 : ℝ) < (n : ℝ) + 1 := by positivity
      nlinarith
    omega
  refine mode_natural (u := fun k => (n.choose k : ℝ) * p ^ k * (1 - p) ^ (n - k)) rfl (binomial_pdf p n) pos ⌊((n : ℝ) + 1) * p⌋₊ (fun k hk => ?_) (fun k hk => ?_) ?_
  · have hk' := (Nat.le_floor_iff hx).mp hk
    push_cast at hk'
    have hs := step k (by omega)
    have hpos : 0 < ((k : ℝ) + 1) * (1 - p) := by positivity
    refine le_of_mul_le_mul_right ?_ hpos
    rw [hs]
    exact mul_le_mul_of_nonneg_left (by nlinarith) (pos k)
  · rcases lt_or_ge k n with h | h
    · have hk' := (Nat.floor_lt hx).mp (by omega : ⌊((n : ℝ) + 1) * p⌋₊ < k + 1)
      push_cast at hk'
      have hs := step k h
      have hpos : 0 < ((k : ℝ) + 1) * (1 - p) := by positivity
      refine le_of_mul_le_mul_right ?_ hpos
      rw [hs]
      exact mul_le_mul_of_nonneg_left (by nlinarith) (pos k)
    · rw [Nat.choose_eq_zero_of_lt (by omega)]; simpa using pos k
  · show Dbl.num _ = _
    rw [Int.natCast_floor_eq_floor hx]

/-- No mode is claimed for the uniform law on integers. -/
theorem C106_none (a b : ℝ) (d : Dist) (hd : make .uniformDis a b = .ok d) : d.mode = .nan := by
  have := made hd; subst this; rfl

/-! ## Violations -/

/-- Beta with a second parameter less than one: the reported mode is the wrong end, is outside the interval, or is infinite. -/
theorem C106_beta_violated :
    (∃ d, make .beta 1 (1 / 2) = .ok d ∧ d.mode = .num 0 ∧ (∃ w, d.pdf 0 = .num w) ∧ d.pdf 1 = .pinf) ∧
    (∃ d, make .beta 2 (1 / 2) = .ok d ∧ d.mode = .num 2 ∧ d.pdf 2 = .num 0 ∧ d.pdf 1 = .pinf) ∧
    (∃ d, make .beta (3 / 2) (1 / 2) = .ok d ∧ d.mode = .pinf) := by
  refine ⟨⟨⟨.beta, 1, 1 / 2⟩, by simp only [make]; rw [if_neg (by norm_num)], ?_, ⟨_, beta_pdf0 le_rfl zero_le_one (Or.inr le_rfl) (Or.inl zero_ne_one)⟩, ?_⟩,
    ⟨⟨.beta, 2, 1 / 2⟩, by simp only [make]; rw [if_neg (by norm_num)], ?_, beta_out (Or.inr (by norm_num)), ?_⟩,
    ⟨⟨.beta, 3 / 2, 1 / 2⟩, by simp only [make]; rw [if_neg (by norm_num)], ?_⟩⟩
  · simp only [Dist.mode]; rw [if_neg (by norm_num), if_pos (by norm_num)]
  · simp only [Dist.pdf, Dist.impossible, Dist.minimum, Dist.maximum, Dbl.lt, Dist.density]; norm_num
  · simp only [Dist.mode]
    rw [if_neg (by norm_num), if_neg (by norm_num), if_neg (by norm_num), if_neg (by norm_num), quot_ne (by norm_num)]
    norm_num
  · simp only [Dist.pdf, Dist.impossible, Dist.minimum, Dist.maximum, Dbl.lt, Dist.density]; norm_num
  · simp only [Dist.mode]
    rw [if_neg (by norm_num), if_neg (by norm_num), if_neg (by norm_num), if_neg (by norm_num)]
    norm_num [quot]

/-- Binomial with probability one: the reported mode is impossible. -/
theorem C106_binomial_violated (n : ℕ) : ∃ d, make .binomial 1 n = .ok d ∧ d.mode = .num ((n : ℝ) + 1) ∧ d.pdf ((n : ℝ) + 1) = .num 0 ∧ d.pdf n = .num 1 := by
  refine ⟨⟨.binomial, 1, n⟩, ?_, ?_, ?_, ?_⟩
  · have : ¬ ((n : ℝ) < 0) := not_lt.mpr (Nat.cast_nonneg n)
    simp [make, this]
  · simp only [Dist.mode, mul_one]
    congr 1
    have : ⌊(n : ℝ) + 1⌋ = ((n : ℤ) + 1) := by
      have := Int.floor_natCast (R := ℝ) (n + 1)
      push_cast at this; exact this
    rw [this]; push_cast; rfl
  · have : (Dist.mk .binomial 1 n).impossible ((n : ℝ) + 1) = true := by simp [Dist.impossible, Dist.minimum, Dist.maximum, Dbl.lt]
    simp [Dist.pdf, this]
  · simpa using binomial_pdf 1 n n

end Di
end LDT
