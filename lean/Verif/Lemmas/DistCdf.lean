import Verif.Lemmas.DistTF
/-! # Distribution functions -/
namespace LDT
namespace Di
open Op MeasureTheory Set

/-- The special functions satisfy their definitions. -/
def Fns.Good (S : Fns) : Prop := Special S.erfc S.erfInv S.gammaP S.gammaPInv S.iBeta S.iBetaInv

/-- A law on the positive numbers: nothing below. -/
theorem upTo_below {F : ℝ → ℝ} {E : Set ℝ} (hE : E.Finite) {x : ℝ} (h : ∀ y, y ≤ x → y ∉ E → F y = 0) : IntUpTo F x 0 := by
  have ae : F =ᵐ[volume.restrict (Iic x)] fun _ => 0 := by
    have h0 : ∀ᵐ x ∂(volume : Measure ℝ), x ∉ E := hE.measure_zero volume |> measure_eq_zero_iff_ae_notMem.mp
    refine (ae_restrict_iff' measurableSet_Iic).mpr ?_
    filter_upwards [h0] with y hy hyx
    exact h y hyx hy
  refine ⟨(integrable_zero _ _ _).congr ae.symm, ?_⟩
  rw [integral_congr_ae ae]; simp

/-- A law on the numbers above `a`: the integral over `(a, x)`. -/
theorem upTo_of {F G : ℝ → ℝ} {E : Set ℝ} (hE : E.Finite) {a x c : ℝ} (h : HasOn (Ioo a x) G c)
    (hin : ∀ y, a < y → y < x → y ∉ E → F y = G y) (hout : ∀ y, y < a → y ∉ E → F y = 0) : IntUpTo F x c := by
  have ae : (Ioo a x).indicator G =ᵐ[volume.restrict (Iic x)] F := by
    have h0 : ∀ᵐ y ∂(volume : Measure ℝ), y ∉ E ∪ {a, x} := (hE.union (toFinite {a, x})).measure_zero volume |> measure_eq_zero_iff_ae_notMem.mp
    refine (ae_restrict_iff' measurableSet_Iic).mpr ?_
    filter_upwards [h0] with y hy hyx
    have hy1 : y ∉ E := fun h => hy (Or.inl h)
    have hya : y ≠ a := fun h => hy (Or.inr (by simp [h]))
    have hyx' : y ≠ x := fun h => hy (Or.inr (by simp [h]))
    have hlt : y < x := lt_of_le_of_ne hyx hyx'
    rcases lt_or_gt_of_ne hya with h1 | h1
    · rw [indicator_of_notMem (fun hm => absurd hm.1 (not_lt.mpr h1.le)), hout y h1 hy1]
    · rw [indicator_of_mem (show y ∈ Ioo a x from ⟨h1, hlt⟩), hin y h1 hlt hy1]
  have hsub : Ioo a x ∩ Iic x = Ioo a x := inter_eq_left.mpr fun y hy => hy.2.le
  refine ⟨Integrable.congr ?_ ae, ?_⟩
  · exact ((integrable_indicator_iff measurableSet_Ioo).mpr h.1).integrableOn
  · rw [← integral_congr_ae ae, integral_indicator measurableSet_Ioo, Measure.restrict_restrict measurableSet_Ioo, hsub, h.2]

/-- A law on all numbers: the integral below `x`. -/
theorem upTo_iio {F : ℝ → ℝ} {x c : ℝ} (h : HasOn (Iio x) F c) : IntUpTo F x c :=
  ⟨Iff.mpr integrableOn_Iic_iff_integrableOn_Iio h.1, by rw [integral_Iic_eq_integral_Iio]; exact h.2⟩

theorem hasOn_of_integrable {F : ℝ → ℝ} {S : Set ℝ} (h : IntegrableOn F S) : HasOn S F (∫ x in S, F x) := ⟨h, rfl⟩

theorem IntUpTo.congr {F G : ℝ → ℝ} {E : Set ℝ} (hE : E.Finite) {x c : ℝ} (h : IntUpTo G x c) (e : ∀ y, y ∉ E → F y = G y) : IntUpTo F x c := by
  have ae : G =ᵐ[volume.restrict (Iic x)] F := by
    have h0 : ∀ᵐ x ∂(volume : Measure ℝ), x ∉ E := hE.measure_zero volume |> measure_eq_zero_iff_ae_notMem.mp
    refine (ae_restrict_iff' measurableSet_Iic).mpr ?_
    filter_upwards [h0] with y hy _
    exact (e y hy).symm
  exact ⟨h.1.congr ae, by rw [← integral_congr_ae ae]; exact h.2⟩

/-! ## Normal -/

theorem gauss_sq_integrable : Integrable fun t : ℝ => Real.exp (-t ^ 2) := by
  have := gaussHalf (b := 1) one_pos 0
  simpa using this

theorem affine_image (m k x : ℝ) (hk : 0 < k) : (fun t : ℝ => m - k * t) '' Ioi ((m - x) / k) = Iio x := by
  ext y
  constructor
  · rintro ⟨t, ht, rfl⟩
    have ht' : (m - x) / k < t := ht
    rw [div_lt_iff₀ hk] at ht'
    show m - k * t < x
    linarith
  · intro hy
    have hy' : y < x := hy
    refine ⟨(m - y) / k, ?_, ?_⟩
    · show (m - x) / k < (m - y) / k
      gcongr
    · show m - k * ((m - y) / k) = y
      field_simp; ring

theorem normal_below {S : Fns} (hS : S.Good) (m s x : ℝ) (hs : 0 < s) :
    HasOn (Iio x) (normF m s) (1 / 2 * S.erfc ((m - x) / (s * Real.sqrt 2))) := by
  have hk : 0 < s * Real.sqrt 2 := by positivity
  rw [HasOn.subst (S := Ioi ((m - x) / (s * Real.sqrt 2))) (f := fun t => m - s * Real.sqrt 2 * t) (f' := fun _ => -(s * Real.sqrt 2)) measurableSet_Ioi
    (fun t _ => by
      have := ((scale_deriv (s * Real.sqrt 2) t).const_sub m).hasDerivWithinAt (s := Ioi ((m - x) / (s * Real.sqrt 2)))
      exact this)
    (fun a _ b _ h => by
      have h : m - s * Real.sqrt 2 * a = m - s * Real.sqrt 2 * b := h
      exact mul_left_cancel₀ hk.ne' (by linarith))
    (affine_image m _ x hk)]
  refine ((hasOn_of_integrable gauss_sq_integrable.integrableOn).mul (1 / Real.sqrt Real.pi)).congr measurableSet_Ioi (fun t _ => ?_) ?_
  · have hp := Real.sqrt_pos.mpr Real.pi_pos
    rw [abs_neg, abs_of_pos hk, normF]
    have h2 : Real.sqrt 2 * Real.sqrt 2 = 2 := Real.mul_self_sqrt (by norm_num)
    have e : -(1 / 2) * ((m - s * Real.sqrt 2 * t - m) / s) * ((m - s * Real.sqrt 2 * t - m) / s) = -t ^ 2 := by
      have : (m - s * Real.sqrt 2 * t - m) / s = -(Real.sqrt 2 * t) := by field_simp; ring
      rw [this]; linear_combination (-(1 / 2) * t ^ 2) * h2
    rw [e, Real.sqrt_mul (by norm_num)]
    have : Real.sqrt 2 ≠ 0 := by positivity
    field_simp
  · rw [hS.erfc_def]; ring

theorem lognormal_below {S : Fns} (hS : S.Good) (m s x : ℝ) (hs : 0 < s) (hx : 0 < x) :
    HasOn (Ioo 0 x) (logF m s) (1 / 2 * S.erfc ((m - Real.log x) / (s * Real.sqrt 2))) := by
  have him : Real.exp '' Iio (Real.log x) = Ioo 0 x := by
    ext y
    constructor
    · rintro ⟨t, ht, rfl⟩
      exact ⟨Real.exp_pos t, (Real.lt_log_iff_exp_lt hx).mp ht⟩
    · rintro ⟨h0, h1⟩
      exact ⟨Real.log y, (Real.log_lt_log_iff h0 hx).mpr h1, Real.exp_log h0⟩
  refine (HasOn.subst (f := Real.exp) (f' := Real.exp) measurableSet_Iio (fun t _ => (Real.hasDerivAt_exp t).hasDerivWithinAt)
    Real.exp_injective.injOn him).mpr ?_
  refine (normal_below hS m s (Real.log x) hs).congr measurableSet_Iio (fun t _ => ?_) rfl
  have ht := Real.exp_pos t
  rw [abs_of_pos ht, logF, if_pos ht, Real.log_exp, normF]
  have hsp : 0 < Real.sqrt (2 * Real.pi) := Real.sqrt_pos.mpr (by positivity)
  field_simp

/-! ## Gamma -/

theorem scale_image_Ioo {c : ℝ} (hc : 0 < c) (x : ℝ) : (fun t : ℝ => c * t) '' Ioo 0 x = Ioo 0 (c * x) := by
  ext y
  constructor
  · rintro ⟨t, ht, rfl⟩
    exact ⟨mul_pos hc ht.1, mul_lt_mul_of_pos_left ht.2 hc⟩
  · rintro ⟨h0, h1⟩
    refine ⟨y / c, ⟨div_pos h0 hc, ?_⟩, ?_⟩
    · rw [div_lt_iff₀ hc]; linarith
    · show c * (y / c) = y
      field_simp

theorem gamma_below {S : Fns} (hS : S.Good) {a s x : ℝ} (ha : 0 < a) (hs : 0 < s) (hx : 0 ≤ x) :
    HasOn (Ioo 0 x) (gammaF a s) (S.gammaP a (x / s)) := by
  have him : (fun t : ℝ => s * t) '' Ioo 0 (x / s) = Ioo 0 x := by
    rw [scale_image_Ioo hs]; congr 1; field_simp
  refine (HasOn.subst (f := fun t => s * t) (f' := fun _ => s) measurableSet_Ioo (fun t _ => (scale_deriv s t).hasDerivWithinAt)
    (scale_inj hs _) him).mpr ?_
  have hg := Real.Gamma_pos_of_pos ha
  have hi : IntegrableOn (fun t : ℝ => t ^ (a - 1) * Real.exp (-t)) (Ioo 0 (x / s)) := by
    have := (gammaInt ha one_pos).1
    simp only [div_one] at this
    exact this.mono_set fun y hy => hy.1
  refine ((hasOn_of_integrable hi).mul (1 / Real.Gamma a)).congr measurableSet_Ioo (fun t ht => ?_) ?_
  · have h0 : 0 < s * t := mul_pos hs ht.1
    rw [abs_of_pos hs, gammaF, if_pos h0, Real.mul_rpow hs.le ht.1.le, Real.rpow_neg hs.le, Real.rpow_sub_one hs.ne']
    have e : -(s * t) / s = -t := by field_simp
    rw [e]
    have := Real.rpow_pos_of_pos hs a
    field_simp
  · rw [hS.gammaP_def a _ ha (by positivity)]; ring

/-! ## Beta and F -/

theorem beta_below {S : Fns} (hS : S.Good) {a b x : ℝ} (ha : 0 < a) (hb : 0 < b) (h0 : 0 ≤ x) (h1 : x ≤ 1) :
    HasOn (Ioo 0 x) (fun t => t ^ (a - 1) * (1 - t) ^ (b - 1)) (betaFn a b * S.iBeta a b x) := by
  have hi : IntegrableOn (fun t : ℝ => t ^ (a - 1) * (1 - t) ^ (b - 1)) (Ioo 0 x) :=
    (betaInt ha hb).1.mono_set fun y hy => ⟨hy.1, lt_of_lt_of_le hy.2 h1⟩
  refine (hasOn_of_integrable hi).congr measurableSet_Ioo (fun _ _ => rfl) ?_
  rw [hS.iBeta_def a b x ha hb h0 h1]
  have := betaFn_pos ha hb
  unfold betaFn at this ⊢
  field_simp

theorem ratio_image_Ioo {x : ℝ} (hx : 0 ≤ x) : (fun t : ℝ => t / (1 + t)) '' Ioo 0 x = Ioo 0 (x / (1 + x)) := by
  ext u
  constructor
  · rintro ⟨t, ht, rfl⟩
    have h0 := ht.1
    have h1 := ht.2
    refine ⟨by positivity, ?_⟩
    show t / (1 + t) < x / (1 + x)
    rw [div_lt_div_iff₀ (by positivity) (by positivity)]; nlinarith
  · rintro ⟨h0, h1⟩
    have hlt : u < 1 := lt_trans h1 (by rw [div_lt_one (by positivity)]; linarith)
    have h2 : 0 < 1 - u := by linarith
    refine ⟨u / (1 - u), ⟨div_pos h0 h2, ?_⟩, ?_⟩
    · rw [lt_div_iff₀ (by positivity)] at h1
      rw [div_lt_iff₀ h2]; nlinarith
    · show u / (1 - u) / (1 + u / (1 - u)) = u
      field_simp
      ring

theorem f_below {S : Fns} (hS : S.Good) {d1 d2 x : ℝ} (h1 : 0 < d1) (h2 : 0 < d2) (hx : 0 ≤ x) :
    HasOn (Ioo 0 x) (fF d1 d2) (S.iBeta (d1 / 2) (d2 / 2) (d1 * x / (d1 * x + d2))) := by
  have hc : 0 < d1 / d2 := by positivity
  have hB := betaFn_pos (half_pos h1) (half_pos h2)
  have e0 : d1 * x / (d1 * x + d2) = (d1 / d2 * x) / (1 + d1 / d2 * x) := by field_simp; ring
  have hcx : 0 ≤ d1 / d2 * x := by positivity
  have hb := beta_below hS (half_pos h1) (half_pos h2) (x := (d1 / d2 * x) / (1 + d1 / d2 * x)) (by positivity)
    (by rw [div_le_one (by positivity)]; linarith)
  rw [HasOn.subst (f' := fun t => 1 / (1 + t) ^ 2) measurableSet_Ioo (fun t ht => (ratio_deriv t ht.1).hasDerivWithinAt)
    (ratio_inj.mono fun t ht => ht.1) (ratio_image_Ioo hcx)] at hb
  rw [HasOn.subst (f := fun t => d1 / d2 * t) (f' := fun _ => d1 / d2) measurableSet_Ioo (fun t _ => (scale_deriv _ t).hasDerivWithinAt)
    (scale_inj hc _) (scale_image_Ioo hc x)] at hb
  rw [e0]
  refine (hb.mul (1 / betaFn (d1 / 2) (d2 / 2))).congr measurableSet_Ioo (fun t ht => ?_) (by field_simp)
  have ht0 : 0 < t := ht.1
  have ht' : 0 < d1 / d2 * t := by positivity
  rw [ratio_integrand ht', fF_ratio h1 h2 ht0, abs_of_pos hc]
  ring

/-! ## Student's t -/

theorem t_image {n x : ℝ} (hn : 0 < n) (hx : x ≤ 0) : (fun y : ℝ => n / (y * y + n)) '' Iio x = Ioo 0 (n / (x * x + n)) := by
  ext u
  constructor
  · rintro ⟨y, hy, rfl⟩
    have hy' : y < x := hy
    refine ⟨by have := mul_self_nonneg y; positivity, ?_⟩
    show n / (y * y + n) < n / (x * x + n)
    have : x * x < y * y := by nlinarith
    have := mul_self_nonneg x
    gcongr
  · rintro ⟨h0, h1⟩
    have hxx := mul_self_nonneg x
    rw [lt_div_iff₀ (by positivity)] at h1
    have hpos : 0 < n / u - n := by
      have : n < n / u := by rw [lt_div_iff₀ h0]; nlinarith
      linarith
    refine ⟨-Real.sqrt (n / u - n), ?_, ?_⟩
    · show -Real.sqrt (n / u - n) < x
      have : -x < Real.sqrt (n / u - n) := by
        rw [Real.lt_sqrt (by linarith)]
        have : x * x + n < n / u := by rw [lt_div_iff₀ h0]; linarith
        nlinarith
      linarith
    · show n / (-Real.sqrt (n / u - n) * -Real.sqrt (n / u - n) + n) = u
      rw [neg_mul_neg, Real.mul_self_sqrt hpos.le]
      field_simp
      ring

theorem t_deriv {n : ℝ} (hn : 0 < n) (y : ℝ) : HasDerivAt (fun y : ℝ => n / (y * y + n)) (-(n * (2 * y)) / (y * y + n) ^ 2) y := by
  have h0 : y * y + n ≠ 0 := by have := mul_self_nonneg y; positivity
  have h1 : HasDerivAt (fun y : ℝ => y * y + n) (2 * y) y := by
    refine (((hasDerivAt_id y).mul (hasDerivAt_id y)).add_const n).congr_deriv ?_
    simp only [id]; ring
  refine ((hasDerivAt_const y n).div h1 h0).congr_deriv ?_
  ring

theorem t_below {S : Fns} (hS : S.Good) {n x : ℝ} (hn : 0 < n) (hx : x ≤ 0) :
    HasOn (Iio x) (tF n) (1 / 2 * S.iBeta (n / 2) (1 / 2) (n / (x * x + n))) := by
  have hxx := mul_self_nonneg x
  have hb := beta_below hS (half_pos hn) one_half_pos (x := n / (x * x + n)) (by positivity) (by rw [div_le_one (by positivity)]; linarith)
  rw [HasOn.subst (f' := fun y => -(n * (2 * y)) / (y * y + n) ^ 2) measurableSet_Iio (fun y _ => (t_deriv hn y).hasDerivWithinAt) ?_ (t_image hn hx)] at hb
  · refine (hb.mul (1 / 2 / betaFn (n / 2) (1 / 2))).congr measurableSet_Iio (fun y hy => ?_) ?_
    · have hy' : y < 0 := lt_of_lt_of_le hy hx
      have hyn : 0 < -y := by linarith
      have hw : 0 < 1 + y * y / n := by have := mul_self_nonneg y; positivity
      have e1 : y * y + n = n * (1 + y * y / n) := by field_simp; ring
      have e2 : n / (y * y + n) = (1 + y * y / n)⁻¹ := by rw [e1]; field_simp
      have e3 : 1 - n / (y * y + n) = (-y) ^ 2 / (n * (1 + y * y / n)) := by rw [← e1]; field_simp; ring
      have g1 := Real.Gamma_pos_of_pos (half_pos hn)
      have g2 := Real.Gamma_pos_of_pos (show 0 < (n + 1) / 2 by positivity)
      have hp := Real.sqrt_pos.mpr Real.pi_pos
      have hsn := Real.sqrt_pos.mpr hn
      have eabs : |-(n * (2 * y)) / (y * y + n) ^ 2| = 2 * (-y) / (n * (1 + y * y / n) ^ 2) := by
        rw [abs_of_pos (by rw [e1]; apply div_pos; nlinarith; positivity), e1]; field_simp
      have esq : ((-y) ^ 2 / (n * (1 + y * y / n))) ^ ((1 : ℝ) / 2 - 1) = Real.sqrt n * (1 + y * y / n) ^ ((1 : ℝ) / 2) / (-y) := by
        rw [show (1 : ℝ) / 2 - 1 = -(1 / 2) by norm_num, Real.rpow_neg (by positivity), ← Real.sqrt_eq_rpow, Real.sqrt_div (by positivity),
          Real.sqrt_sq hyn.le, Real.sqrt_mul hn.le, inv_div, Real.sqrt_eq_rpow, Real.sqrt_eq_rpow]
      have epow : (1 + y * y / n) ^ (-((n + 1) / 2)) = (1 + y * y / n) ^ (-(n / 2 - 1)) * (1 + y * y / n) ^ ((1 : ℝ) / 2) / (1 + y * y / n) ^ 2 := by
        rw [← Real.rpow_natCast _ 2, ← Real.rpow_add hw, ← Real.rpow_sub hw]; congr 1; push_cast; ring
      rw [eabs, e3, esq, e2, Real.inv_rpow hw.le, ← Real.rpow_neg hw.le, tF, epow, betaFn, Real.Gamma_one_half_eq, Real.sqrt_mul hn.le,
        show n / 2 + 1 / 2 = (n + 1) / 2 by ring]
      have hyne : -y ≠ 0 := hyn.ne'
      have hss : Real.sqrt n * Real.sqrt n = n := Real.mul_self_sqrt hn.le
      generalize Real.sqrt n = r at hss hsn ⊢
      generalize (1 + y * y / n) ^ (-(n / 2 - 1)) = A
      generalize (1 + y * y / n) ^ ((1 : ℝ) / 2) = B
      generalize 1 + y * y / n = w at hw ⊢
      subst hss
      have hy0 : y ≠ 0 := hy'.ne
      field_simp
    · have := betaFn_pos (half_pos hn) one_half_pos
      field_simp
  · intro a ha b hb' h
    have ha' : a < 0 := lt_of_lt_of_le ha hx
    have hb'' : b < 0 := lt_of_lt_of_le hb' hx
    have h : n / (a * a + n) = n / (b * b + n) := h
    have ha0 : a * a + n ≠ 0 := by have := mul_self_nonneg a; positivity
    have hb0 : b * b + n ≠ 0 := by have := mul_self_nonneg b; positivity
    rw [div_eq_div_iff ha0 hb0] at h
    have : a * a = b * b := by
      have := mul_left_cancel₀ hn.ne' h
      linarith
    nlinarith [mul_self_eq_mul_self_iff.mp this]

/-- The upper half of Student's t. -/
theorem t_above {n x c : ℝ} (hn : 0 < n) (h : HasOn (Iio (-x)) (tF n) c) : HasOn (Iio x) (tF n) (1 - c) := by
  have ht := (tRaw hn).1
  have hi : Integrable (tF n) := by have := ht.1; simpa using this
  have hv : ∫ y, tF n y = 1 := by have := ht.2; simpa using this
  have hneg : (fun y : ℝ => -y) '' Iio (-x) = Ioi x := by
    ext y
    constructor
    · rintro ⟨t, ht, rfl⟩
      have ht' : t < -x := ht
      show x < -t
      linarith
    · intro hy
      have hy' : x < y := hy
      exact ⟨-y, by show -y < -x; linarith, neg_neg y⟩
  have hup : HasOn (Ioi x) (tF n) c := by
    refine (HasOn.subst (f := fun y => -y) (f' := fun _ => -1) measurableSet_Iio (fun y _ => (hasDerivAt_neg y).hasDerivWithinAt)
      neg_injective.injOn hneg).mpr ?_
    exact h.congr measurableSet_Iio (fun y _ => by rw [tF_even]; simp) rfl
  refine ⟨hi.integrableOn, ?_⟩
  have := intervalIntegral.integral_Iio_add_Ici (b := x) (μ := volume) (f := tF n) hi.integrableOn hi.integrableOn
  rw [integral_Ici_eq_integral_Ioi, hup.2, hv] at this
  linarith

end Di
end LDT
