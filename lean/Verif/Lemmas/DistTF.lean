import Verif.Lemmas.DistContinuous
/-! # Moments of Student's t and of F -/
namespace LDT
namespace Di
open Op MeasureTheory Set

/-! ## F -/

/-- The F density. -/
noncomputable def fF (d1 d2 x : ℝ) : ℝ :=
  if 0 < x then Real.sqrt ((d1 * x) ^ d1 * d2 ^ d2 / (d1 * x + d2) ^ (d1 + d2)) / (x * betaFn (d1 / 2) (d2 / 2)) else 0

theorem fF_nonneg {d1 d2 : ℝ} (h1 : 0 < d1) (h2 : 0 < d2) (x : ℝ) : 0 ≤ fF d1 d2 x := by
  unfold fF
  split_ifs with h
  · have := betaFn_pos (half_pos h1) (half_pos h2)
    positivity
  · exact le_rfl

/-- The F density by the ratio `t = d1 x / d2`. -/
theorem fF_ratio {d1 d2 x : ℝ} (h1 : 0 < d1) (h2 : 0 < d2) (hx : 0 < x) :
    fF d1 d2 x = d1 / d2 * ((d1 / d2 * x) ^ (d1 / 2 - 1) * (1 + d1 / d2 * x) ^ (-(d1 / 2 + d2 / 2))) / betaFn (d1 / 2) (d2 / 2) := by
  have hB := betaFn_pos (half_pos h1) (half_pos h2)
  have ht : 0 < d1 / d2 * x := by positivity
  have ht1 : 0 < 1 + d1 / d2 * x := by positivity
  rw [fF, if_pos hx]
  have e1 : d1 * x = d2 * (d1 / d2 * x) := by field_simp
  have e2 : d1 * x + d2 = d2 * (1 + d1 / d2 * x) := by field_simp; ring
  have e3 : (d1 * x) ^ d1 * d2 ^ d2 / (d1 * x + d2) ^ (d1 + d2) = (d1 / d2 * x) ^ d1 * (1 + d1 / d2 * x) ^ (-(d1 + d2)) := by
    rw [e2, Real.mul_rpow h2.le ht1.le, e1, Real.mul_rpow h2.le ht.le, Real.rpow_neg ht1.le, Real.rpow_add h2]
    have a1 := Real.rpow_pos_of_pos h2 d1
    have a2 := Real.rpow_pos_of_pos h2 d2
    have a3 := Real.rpow_pos_of_pos ht1 (d1 + d2)
    field_simp
  rw [e3, Real.sqrt_mul (Real.rpow_nonneg ht.le _), Real.sqrt_eq_rpow, Real.sqrt_eq_rpow, ← Real.rpow_mul ht.le, ← Real.rpow_mul ht1.le]
  have e4 : d1 * (1 / 2) = (d1 / 2 - 1) + 1 := by ring
  have e5 : -(d1 + d2) * (1 / 2) = -(d1 / 2 + d2 / 2) := by ring
  rw [e4, e5, Real.rpow_add_one ht.ne']
  field_simp

theorem scale_image {c : ℝ} (hc : 0 < c) : (fun x : ℝ => c * x) '' Ioi 0 = Ioi 0 := by
  ext y
  constructor
  · rintro ⟨x, hx, rfl⟩
    exact mul_pos hc hx
  · intro hy
    exact ⟨y / c, div_pos hy hc, by field_simp⟩

theorem scale_inj {c : ℝ} (hc : 0 < c) (S : Set ℝ) : InjOn (fun x : ℝ => c * x) S := fun _ _ _ _ h => mul_left_cancel₀ hc.ne' h

theorem scale_deriv (c x : ℝ) : HasDerivAt (fun x : ℝ => c * x) c x := by
  simpa using (hasDerivAt_id x).const_mul c

theorem fMoment {d1 d2 : ℝ} (h1 : 0 < d1) (h2 : 0 < d2) (j : ℕ) (hj : 2 * (j : ℝ) < d2) :
    IntAvg (fF d1 d2) (fun x => x ^ j) ((d2 / d1) ^ j * (betaFn (d1 / 2 + j) (d2 / 2 - j) / betaFn (d1 / 2) (d2 / 2))) := by
  have hB := betaFn_pos (half_pos h1) (half_pos h2)
  have hc : 0 < d1 / d2 := by positivity
  have hb := betaPrime (a := d1 / 2 + j) (b := d2 / 2 - j) (by positivity) (by linarith)
  have hs := ((HasOn.subst (f := fun x => d1 / d2 * x) (f' := fun _ => d1 / d2) measurableSet_Ioi
    (fun x _ => (scale_deriv _ x).hasDerivWithinAt) (scale_inj hc _) (scale_image hc)).mp hb).mul ((d2 / d1) ^ j / betaFn (d1 / 2) (d2 / 2))
  refine has_of_on (S := Ioi 0) (E := ∅) measurableSet_Ioi finite_empty (G := fun x => fF d1 d2 x * x ^ j) ?_ (fun _ _ _ => rfl) ?_
  · refine hs.congr measurableSet_Ioi (fun x hx => ?_) (by ring)
    have hx' : 0 < x := hx
    have ht : 0 < d1 / d2 * x := by positivity
    rw [fF_ratio h1 h2 hx', abs_of_pos hc]
    have e1 : d1 / 2 + j - 1 = d1 / 2 - 1 + j := by ring
    have e2 : d1 / 2 + j + (d2 / 2 - j) = d1 / 2 + d2 / 2 := by ring
    rw [e1, e2, Real.rpow_add_natCast ht.ne']
    have e3 : (d2 / d1) ^ j * (d1 / d2 * x) ^ j = x ^ j := by rw [← mul_pow]; congr 1; field_simp
    rw [← e3]; ring
  · intro x hx _
    have : ¬ 0 < x := hx
    simp [fF, this]

theorem fBeta {a b : ℝ} (ha : 0 < a) : ∀ j : ℕ, (j : ℝ) < b →
    betaFn (a + ((j + 1 : ℕ) : ℝ)) (b - ((j + 1 : ℕ) : ℝ)) = betaFn (a + j) (b - j) * ((a + j) / (b - j - 1)) ∨ b ≤ j + 1 := by
  intro j hj
  rcases le_or_gt b (j + 1) with h | h
  · exact Or.inr h
  · left
    have := betaFn_shift (a := a + j) (b := b - j) (by positivity) (by linarith)
    rw [← this]; push_cast; congr 1 <;> ring

/-- The four raw moments of F, as far as they exist. -/
theorem fRaw {d1 d2 : ℝ} (h1 : 0 < d1) (h2 : 0 < d2) :
    IntAvg (fF d1 d2) (fun _ => 1) 1 ∧
    (2 < d2 → IntAvg (fF d1 d2) (fun x => x - 0) (d2 / (d2 - 2))) ∧
    (4 < d2 → IntAvg (fF d1 d2) (fun x => (x - 0) ^ 2) (d2 ^ 2 * (d1 + 2) / (d1 * (d2 - 2) * (d2 - 4)))) ∧
    (6 < d2 → IntAvg (fF d1 d2) (fun x => (x - 0) ^ 3) (d2 ^ 3 * (d1 + 2) * (d1 + 4) / (d1 ^ 2 * (d2 - 2) * (d2 - 4) * (d2 - 6)))) ∧
    (8 < d2 → IntAvg (fF d1 d2) (fun x => (x - 0) ^ 4)
      (d2 ^ 4 * (d1 + 2) * (d1 + 4) * (d1 + 6) / (d1 ^ 3 * (d2 - 2) * (d2 - 4) * (d2 - 6) * (d2 - 8)))) := by
  have hB := (betaFn_pos (half_pos h1) (half_pos h2)).ne'
  have L := intAvg_lin (fF d1 d2)
  have ha := half_pos h1
  have b1 : 2 < d2 → betaFn (d1 / 2 + 1) (d2 / 2 - 1) = betaFn (d1 / 2) (d2 / 2) * (d1 / (d2 - 2)) := fun h => by
    have h' : d2 - 2 ≠ 0 := by linarith
    rw [betaFn_shift ha (by linarith)]; congr 1; field_simp
  have b2 : 4 < d2 → betaFn (d1 / 2 + 2) (d2 / 2 - 2) = betaFn (d1 / 2) (d2 / 2) * (d1 / (d2 - 2)) * ((d1 + 2) / (d2 - 4)) := fun h => by
    have h' : d2 - 4 ≠ 0 := by linarith
    have := betaFn_shift (a := d1 / 2 + 1) (b := d2 / 2 - 1) (by positivity) (by linarith)
    rw [b1 (by linarith)] at this
    rw [show d1 / 2 + 2 = d1 / 2 + 1 + 1 by ring, show d2 / 2 - 2 = d2 / 2 - 1 - 1 by ring, this]; congr 1
    rw [show d2 / 2 - 1 - 1 = (d2 - 4) / 2 by ring]; field_simp
  have b3 : 6 < d2 → betaFn (d1 / 2 + 3) (d2 / 2 - 3) =
      betaFn (d1 / 2) (d2 / 2) * (d1 / (d2 - 2)) * ((d1 + 2) / (d2 - 4)) * ((d1 + 4) / (d2 - 6)) := fun h => by
    have h' : d2 - 6 ≠ 0 := by linarith
    have := betaFn_shift (a := d1 / 2 + 2) (b := d2 / 2 - 2) (by positivity) (by linarith)
    rw [b2 (by linarith)] at this
    rw [show d1 / 2 + 3 = d1 / 2 + 2 + 1 by ring, show d2 / 2 - 3 = d2 / 2 - 2 - 1 by ring, this]; congr 1
    rw [show d2 / 2 - 2 - 1 = (d2 - 6) / 2 by ring]; field_simp; ring
  have b4 : 8 < d2 → betaFn (d1 / 2 + 4) (d2 / 2 - 4) =
      betaFn (d1 / 2) (d2 / 2) * (d1 / (d2 - 2)) * ((d1 + 2) / (d2 - 4)) * ((d1 + 4) / (d2 - 6)) * ((d1 + 6) / (d2 - 8)) := fun h => by
    have h' : d2 - 8 ≠ 0 := by linarith
    have := betaFn_shift (a := d1 / 2 + 3) (b := d2 / 2 - 3) (by positivity) (by linarith)
    rw [b3 (by linarith)] at this
    rw [show d1 / 2 + 4 = d1 / 2 + 3 + 1 by ring, show d2 / 2 - 4 = d2 / 2 - 3 - 1 by ring, this]; congr 1
    rw [show d2 / 2 - 3 - 1 = (d2 - 8) / 2 by ring]; field_simp; ring
  refine ⟨L.cast (fMoment h1 h2 0 (by simpa using h2)) (fun x => by simp) ?_, fun h => ?_, fun h => ?_, fun h => ?_, fun h => ?_⟩
  · rw [Nat.cast_zero, add_zero, sub_zero, div_self hB]; simp
  · have := L.cast (fMoment h1 h2 1 (by push_cast; linarith)) (h := fun x => x - 0) (fun x => by simp) rfl
    rw [Nat.cast_one, b1 h] at this
    have h' : d2 - 2 ≠ 0 := by linarith
    convert this using 1; field_simp
  · have := L.cast (fMoment h1 h2 2 (by push_cast; linarith)) (h := fun x => (x - 0) ^ 2) (fun x => by simp) rfl
    rw [Nat.cast_ofNat, b2 h] at this
    have h' : d2 - 2 ≠ 0 := by linarith
    have h'' : d2 - 4 ≠ 0 := by linarith
    convert this using 1; field_simp
  · have := L.cast (fMoment h1 h2 3 (by push_cast; linarith)) (h := fun x => (x - 0) ^ 3) (fun x => by simp) rfl
    rw [Nat.cast_ofNat, b3 h] at this
    have h' : d2 - 2 ≠ 0 := by linarith
    have h'' : d2 - 4 ≠ 0 := by linarith
    have h3 : d2 - 6 ≠ 0 := by linarith
    convert this using 1; field_simp
  · have := L.cast (fMoment h1 h2 4 (by push_cast; linarith)) (h := fun x => (x - 0) ^ 4) (fun x => by simp) rfl
    rw [Nat.cast_ofNat, b4 h] at this
    have h' : d2 - 2 ≠ 0 := by linarith
    have h'' : d2 - 4 ≠ 0 := by linarith
    have h3 : d2 - 6 ≠ 0 := by linarith
    have h4 : d2 - 8 ≠ 0 := by linarith
    convert this using 1; field_simp

/-! ## Student's t -/

/-- The density of Student's t. -/
noncomputable def tF (n x : ℝ) : ℝ :=
  Real.Gamma ((n + 1) / 2) * (1 + x * x / n) ^ (-((n + 1) / 2)) / (Real.Gamma (n / 2) * Real.sqrt (n * Real.pi))

theorem tF_nonneg {n : ℝ} (h : 0 < n) (x : ℝ) : 0 ≤ tF n x := by
  have := Real.Gamma_pos_of_pos (half_pos h)
  have := Real.Gamma_pos_of_pos (show 0 < (n + 1) / 2 by positivity)
  unfold tF
  have : 0 ≤ 1 + x * x / n := by have := mul_self_nonneg x; positivity
  positivity

theorem tF_even (n x : ℝ) : tF n (-x) = tF n x := by unfold tF; rw [neg_mul_neg]

theorem tF_continuous {n : ℝ} (h : 0 < n) : Continuous (tF n) := by
  unfold tF
  refine Continuous.div_const (Continuous.mul continuous_const ?_) _
  refine Continuous.rpow_const (by fun_prop) (fun x => Or.inl ?_)
  have : 0 ≤ x * x / n := div_nonneg (mul_self_nonneg x) h.le
  linarith

theorem neg_image : (fun x : ℝ => -x) '' Iio 0 = Ioi 0 := by
  ext y
  constructor
  · rintro ⟨x, hx, rfl⟩
    have hx' : x < 0 := hx
    exact neg_pos.mpr hx'
  · intro hy
    have hy' : 0 < y := hy
    exact ⟨-y, neg_lt_zero.mpr hy', neg_neg y⟩

/-- An even function from its right half. -/
theorem has_even {F : ℝ → ℝ} {v : ℝ} (he : ∀ x, F (-x) = F x) (h : HasOn (Ioi 0) F v) : Integrable F ∧ ∫ x, F x = 2 * v := by
  have hl : HasOn (Iio 0) F v := by
    refine ((HasOn.subst (f := fun x => -x) (f' := fun _ => -1) measurableSet_Iio (fun x _ => (hasDerivAt_neg x).hasDerivWithinAt)
      neg_injective.injOn neg_image).mp h).congr measurableSet_Iio (fun x _ => ?_) rfl
    rw [he]; simp
  have hr : HasOn (Ici 0) F v := ⟨(integrableOn_Ici_iff_integrableOn_Ioi).mpr h.1, by rw [integral_Ici_eq_integral_Ioi]; exact h.2⟩
  have hi : Integrable F := by
    rw [← integrableOn_univ, ← Iio_union_Ici (a := (0 : ℝ))]
    exact hl.1.union hr.1
  refine ⟨hi, ?_⟩
  rw [← setIntegral_univ, ← Iio_union_Ici (a := (0 : ℝ)), setIntegral_union (Iio_disjoint_Ici le_rfl) measurableSet_Ici hl.1 hr.1, hl.2, hr.2]
  ring

theorem sq_image {n : ℝ} (h : 0 < n) : (fun x : ℝ => x * x / n) '' Ioi 0 = Ioi 0 := by
  ext y
  constructor
  · rintro ⟨x, hx, rfl⟩
    have : 0 < x := hx
    exact div_pos (mul_pos this this) h
  · intro hy
    have hy' : 0 < y := hy
    refine ⟨Real.sqrt (n * y), Real.sqrt_pos.mpr (by positivity), ?_⟩
    show Real.sqrt (n * y) * Real.sqrt (n * y) / n = y
    rw [Real.mul_self_sqrt (by positivity)]; field_simp

theorem sq_inj {n : ℝ} (h : 0 < n) : InjOn (fun x : ℝ => x * x / n) (Ioi 0) := by
  intro x hx y hy e
  have e : x * x / n = y * y / n := e
  have : x * x = y * y := by field_simp at e; linarith
  exact (mul_self_inj_of_nonneg (le_of_lt hx) (le_of_lt hy)).mp this

theorem sq_deriv (n x : ℝ) : HasDerivAt (fun x : ℝ => x * x / n) (2 * x / n) x := by
  refine (((hasDerivAt_id x).mul (hasDerivAt_id x)).div_const n).congr_deriv ?_
  simp only [id]; ring

theorem tHalf {n : ℝ} (hn : 0 < n) (j : ℕ) (hj : (j : ℝ) < n) :
    HasOn (Ioi 0) (fun x => tF n x * x ^ j)
      (Real.Gamma ((n + 1) / 2) / (Real.Gamma (n / 2) * Real.sqrt (n * Real.pi)) * (n ^ (((j : ℝ) + 1) / 2) / 2 * betaFn (((j : ℝ) + 1) / 2) ((n - j) / 2))) := by
  have hj0 : (0 : ℝ) ≤ j := Nat.cast_nonneg j
  have hb := betaPrime (a := ((j : ℝ) + 1) / 2) (b := (n - j) / 2) (by positivity) (by linarith)
  have hs := ((HasOn.subst (f := fun x => x * x / n) (f' := fun x => 2 * x / n) measurableSet_Ioi
    (fun x _ => (sq_deriv n x).hasDerivWithinAt) (sq_inj hn) (sq_image hn)).mp hb).mul (n ^ (((j : ℝ) + 1) / 2) / 2)
  refine (hs.mul (Real.Gamma ((n + 1) / 2) / (Real.Gamma (n / 2) * Real.sqrt (n * Real.pi)))).congr measurableSet_Ioi (fun x hx => ?_) rfl
  have hx' : 0 < x := hx
  have e1 : ((j : ℝ) + 1) / 2 + (n - j) / 2 = (n + 1) / 2 := by ring
  have e2 : n ^ (((j : ℝ) + 1) / 2) / 2 * (|2 * x / n| * (x * x / n) ^ (((j : ℝ) + 1) / 2 - 1)) = x ^ j := by
    rw [abs_of_pos (by positivity), Real.div_rpow (by positivity) hn.le, Real.rpow_sub_one hn.ne']
    have : (x * x) ^ (((j : ℝ) + 1) / 2 - 1) = x ^ j / x := by
      rw [← pow_two, ← Real.rpow_natCast_mul hx'.le, show (((2 : ℕ) : ℝ)) * (((j : ℝ) + 1) / 2 - 1) = j - 1 by push_cast; ring,
        Real.rpow_sub_one hx'.ne', Real.rpow_natCast]
    rw [this]
    have := Real.rpow_pos_of_pos hn (((j : ℝ) + 1) / 2)
    field_simp
  rw [e1, ← e2, tF]
  ring

theorem tMoment_even {n : ℝ} (hn : 0 < n) (i : ℕ) (hi : 2 * (i : ℝ) < n) :
    IntAvg (tF n) (fun x => x ^ (2 * i)) (n ^ i * (Real.Gamma ((i : ℝ) + 1 / 2) * Real.Gamma (n / 2 - i) / (Real.sqrt Real.pi * Real.Gamma (n / 2)))) := by
  have h := has_even (F := fun x => tF n x * x ^ (2 * i)) (fun x => by rw [tF_even, pow_mul, neg_sq, ← pow_mul])
    (tHalf hn (2 * i) (by push_cast; exact hi))
  refine ⟨h.1, h.2.trans ?_⟩
  have g1 := Real.Gamma_pos_of_pos (half_pos hn)
  have g2 := Real.Gamma_pos_of_pos (show 0 < (n + 1) / 2 by positivity)
  have e1 : (((2 * i : ℕ) : ℝ) + 1) / 2 = (i : ℝ) + 1 / 2 := by push_cast; ring
  have e2 : (n - ((2 * i : ℕ) : ℝ)) / 2 = n / 2 - i := by push_cast; ring
  have e3 : (i : ℝ) + 1 / 2 + (n / 2 - i) = (n + 1) / 2 := by ring
  rw [e1, e2, betaFn, e3, Real.rpow_add hn, Real.rpow_natCast, ← Real.sqrt_eq_rpow, Real.sqrt_mul hn.le]
  have hs := Real.sqrt_pos.mpr hn
  have hp := Real.sqrt_pos.mpr Real.pi_pos
  field_simp

theorem tMoment_odd {n : ℝ} (hn : 0 < n) (j : ℕ) (ho : Odd j) (hj : (j : ℝ) < n) : IntAvg (tF n) (fun x => x ^ j) 0 := by
  have hc := tF_continuous hn
  refine ⟨?_, odd_zero (fun x => by show tF n (-x) * (-x) ^ j = _; rw [tF_even, ho.neg_pow]; ring)⟩
  have h := has_even (F := fun x => tF n x * |x| ^ j) (fun x => by rw [tF_even, abs_neg])
    ((tHalf hn j hj).congr measurableSet_Ioi (fun x hx => by rw [abs_of_pos hx]) rfl)
  refine h.1.mono' ((hc.mul (continuous_id.pow j)).aestronglyMeasurable) (Filter.Eventually.of_forall fun x => ?_)
  rw [norm_mul, Real.norm_of_nonneg (tF_nonneg hn x), norm_pow, Real.norm_eq_abs]

/-- The moments of Student's t, as far as they exist. -/
theorem tRaw {n : ℝ} (hn : 0 < n) :
    IntAvg (tF n) (fun _ => 1) 1 ∧ (1 < n → IntAvg (tF n) (fun x => x - 0) 0) ∧
    (2 < n → IntAvg (tF n) (fun x => (x - 0) ^ 2) (n / (n - 2))) ∧ (3 < n → IntAvg (tF n) (fun x => (x - 0) ^ 3) 0) ∧
    (4 < n → IntAvg (tF n) (fun x => (x - 0) ^ 4) (3 * n ^ 2 / ((n - 2) * (n - 4)))) := by
  have L := intAvg_lin (tF n)
  have hp := Real.sqrt_pos.mpr Real.pi_pos
  have g := Real.Gamma_pos_of_pos (half_pos hn)
  have g0 : Real.Gamma ((0 : ℕ) + 1 / 2) = Real.sqrt Real.pi := by
    rw [Nat.cast_zero, zero_add]; exact Real.Gamma_one_half_eq
  have g1 : Real.Gamma ((1 : ℕ) + 1 / 2) = 1 / 2 * Real.sqrt Real.pi := by
    have := Real.Gamma_add_one (s := 1 / 2) (by norm_num)
    rw [Real.Gamma_one_half_eq] at this
    rw [← this]; congr 1; push_cast; ring
  have g2 : Real.Gamma ((2 : ℕ) + 1 / 2) = 3 / 4 * Real.sqrt Real.pi := by
    have := Real.Gamma_add_one (s := (1 : ℕ) + 1 / 2) (by norm_num)
    rw [g1] at this
    rw [show ((2 : ℕ) : ℝ) + 1 / 2 = (1 : ℕ) + 1 / 2 + 1 by norm_num, this]; push_cast; ring
  have s1 : 2 < n → Real.Gamma (n / 2) = (n / 2 - 1) * Real.Gamma (n / 2 - 1) := fun h => by
    conv_lhs => rw [show n / 2 = n / 2 - 1 + 1 by ring]
    exact Real.Gamma_add_one (by linarith)
  have s2 : 4 < n → Real.Gamma (n / 2 - 1) = (n / 2 - 2) * Real.Gamma (n / 2 - 2) := fun h => by
    conv_lhs => rw [show n / 2 - 1 = n / 2 - 2 + 1 by ring]
    exact Real.Gamma_add_one (by linarith)
  refine ⟨L.cast (tMoment_even hn 0 (by simpa using hn)) (fun x => by simp) ?_,
    fun h => L.cast (tMoment_odd hn 1 (by decide) (by simpa using h)) (fun x => by simp) rfl, fun h => ?_,
    fun h => L.cast (tMoment_odd hn 3 (by decide) (by simpa using h)) (fun x => by simp) rfl, fun h => ?_⟩
  · rw [g0, Nat.cast_zero, sub_zero]; field_simp
  · refine L.cast (tMoment_even hn 1 (by simpa using h)) (fun x => by simp) ?_
    have hg := Real.Gamma_pos_of_pos (show 0 < n / 2 - 1 by linarith)
    have h' : n - 2 ≠ 0 := by linarith
    rw [g1, s1 h, Nat.cast_one, show n / 2 - 1 = (n - 2) / 2 by ring] at *
    field_simp
  · refine L.cast (tMoment_even hn 2 (by push_cast; linarith)) (fun x => by simp) ?_
    have hg := Real.Gamma_pos_of_pos (show 0 < n / 2 - 2 by linarith)
    have h' : n - 2 ≠ 0 := by linarith
    have h'' : n - 4 ≠ 0 := by linarith
    rw [g2, s1 (by linarith), s2 h, Nat.cast_ofNat]
    generalize Real.Gamma (n / 2 - 2) = G at hg
    have e1 : n / 2 - 1 = (n - 2) / 2 := by ring
    have e2 : n / 2 - 2 = (n - 4) / 2 := by ring
    rw [e1, e2]
    field_simp
    norm_num

/-! ## Moments that do not exist -/

theorem not_integrable_tail {F : ℝ → ℝ} {c e : ℝ} (hc : 0 < c) (he : -1 ≤ e) (h : ∀ x, 1 < x → c * x ^ e ≤ F x) : ¬ Integrable F := by
  intro hi
  have hm : IntegrableOn (fun x : ℝ => c * x ^ e) (Ioi 1) := by
    refine Integrable.mono' hi.integrableOn ?_ ?_
    · apply Measurable.aestronglyMeasurable; fun_prop
    · refine (ae_restrict_iff' measurableSet_Ioi).mpr (Filter.Eventually.of_forall fun x hx => ?_)
      have hx' : (1 : ℝ) < x := hx
      have : 0 ≤ c * x ^ e := by positivity
      rw [Real.norm_of_nonneg this]; exact h x hx'
  have h2 : IntegrableOn (fun x : ℝ => x ^ e) (Ioi 1) := by
    refine (hm.const_mul c⁻¹).congr (Filter.Eventually.of_forall fun x => ?_)
    show c⁻¹ * (c * x ^ e) = x ^ e
    field_simp
  rw [integrableOn_Ioi_rpow_iff one_pos] at h2
  linarith

theorem tNone {n : ℝ} (hn : 0 < n) (j : ℕ) (hj : n ≤ j) : ¬ Integrable fun x => tF n x * x ^ j := by
  have g := Real.Gamma_pos_of_pos (half_pos hn)
  have g2 := Real.Gamma_pos_of_pos (show 0 < (n + 1) / 2 by positivity)
  have hs := Real.sqrt_pos.mpr (mul_pos hn Real.pi_pos)
  refine not_integrable_tail (c := Real.Gamma ((n + 1) / 2) * (1 + 1 / n) ^ (-((n + 1) / 2)) / (Real.Gamma (n / 2) * Real.sqrt (n * Real.pi)))
    (e := j - (n + 1)) (by positivity) (by linarith) (fun x hx => ?_)
  have hx0 : 0 < x := by linarith
  have h1 : 1 + x * x / n ≤ (1 + 1 / n) * (x * x) := by
    have : 1 ≤ x * x := by nlinarith
    have e : (1 + 1 / n) * (x * x) = x * x + x * x / n := by ring
    linarith
  have h2 : ((1 + 1 / n) * (x * x)) ^ (-((n + 1) / 2)) ≤ (1 + x * x / n) ^ (-((n + 1) / 2)) :=
    Real.rpow_le_rpow_of_nonpos (by positivity) h1 (by linarith)
  have h3 : ((1 + 1 / n) * (x * x)) ^ (-((n + 1) / 2)) = (1 + 1 / n) ^ (-((n + 1) / 2)) * x ^ (-(n + 1)) := by
    rw [Real.mul_rpow (by positivity) (by positivity), ← pow_two, ← Real.rpow_natCast_mul hx0.le]; congr 2; push_cast; ring
  have h4 : x ^ ((j : ℝ) - (n + 1)) = x ^ j * x ^ (-(n + 1)) := by
    rw [sub_eq_add_neg, Real.rpow_add hx0, Real.rpow_natCast]
  rw [h3] at h2
  rw [h4, tF]
  have hk : 0 ≤ Real.Gamma ((n + 1) / 2) / (Real.Gamma (n / 2) * Real.sqrt (n * Real.pi)) * x ^ j := by positivity
  have := mul_le_mul_of_nonneg_left h2 hk
  calc _ = Real.Gamma ((n + 1) / 2) / (Real.Gamma (n / 2) * Real.sqrt (n * Real.pi)) * x ^ j * ((1 + 1 / n) ^ (-((n + 1) / 2)) * x ^ (-(n + 1))) := by ring
    _ ≤ _ := this
    _ = _ := by ring

theorem fNone {d1 d2 : ℝ} (h1 : 0 < d1) (h2 : 0 < d2) (j : ℕ) (hj : d2 ≤ 2 * j) : ¬ Integrable fun x => fF d1 d2 x * x ^ j := by
  have hB := betaFn_pos (half_pos h1) (half_pos h2)
  have hc : 0 < d1 / d2 := by positivity
  refine not_integrable_tail (c := d1 / d2 * ((d1 / d2) ^ (d1 / 2 - 1) * (1 + d1 / d2) ^ (-(d1 / 2 + d2 / 2))) / betaFn (d1 / 2) (d2 / 2))
    (e := j - (d2 / 2 + 1)) (by positivity) (by linarith) (fun x hx => ?_)
  have hx0 : 0 < x := by linarith
  rw [fF_ratio h1 h2 hx0]
  have a1 : 1 + d1 / d2 * x ≤ (1 + d1 / d2) * x := by nlinarith
  have a2 : ((1 + d1 / d2) * x) ^ (-(d1 / 2 + d2 / 2)) ≤ (1 + d1 / d2 * x) ^ (-(d1 / 2 + d2 / 2)) :=
    Real.rpow_le_rpow_of_nonpos (by positivity) a1 (by linarith)
  rw [Real.mul_rpow (by positivity) hx0.le] at a2
  have e1 : x ^ ((j : ℝ) - (d2 / 2 + 1)) = x ^ j * (x ^ (d1 / 2 - 1) * x ^ (-(d1 / 2 + d2 / 2))) := by
    rw [← Real.rpow_add hx0, ← Real.rpow_natCast, ← Real.rpow_add hx0]; congr 1; ring
  rw [e1, Real.mul_rpow hc.le hx0.le]
  have hk : 0 ≤ d1 / d2 * ((d1 / d2) ^ (d1 / 2 - 1) * x ^ (d1 / 2 - 1)) / betaFn (d1 / 2) (d2 / 2) * x ^ j := by positivity
  have := mul_le_mul_of_nonneg_left a2 hk
  calc _ = d1 / d2 * ((d1 / d2) ^ (d1 / 2 - 1) * x ^ (d1 / 2 - 1)) / betaFn (d1 / 2) (d2 / 2) * x ^ j *
        ((1 + d1 / d2) ^ (-(d1 / 2 + d2 / 2)) * x ^ (-(d1 / 2 + d2 / 2))) := by ring
    _ ≤ _ := this
    _ = _ := by ring

end Di
end LDT
