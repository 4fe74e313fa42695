import Verif.Lemmas.DistInt
/-! # Moments of the continuous laws -/
namespace LDT
namespace Di
open Op MeasureTheory Set

theorem intAvg_congr {E : Set ℝ} (hE : E.Finite) {F f : ℝ → ℝ} (h : ∀ x, x ∉ E → F x = f x) {g : ℝ → ℝ} {v : ℝ} (H : IntAvg f g v) :
    IntAvg F g v := by
  have ae : (fun x => f x * g x) =ᵐ[volume] fun x => F x * g x := by
    have h0 : ∀ᵐ x ∂(volume : Measure ℝ), x ∉ E := hE.measure_zero volume |> measure_eq_zero_iff_ae_notMem.mp
    filter_upwards [h0] with x hx
    rw [h x hx]
  exact ⟨H.1.congr ae, by rw [← integral_congr_ae ae]; exact H.2⟩

theorem raw_congr {E : Set ℝ} (hE : E.Finite) {F f : ℝ → ℝ} (h : ∀ x, x ∉ E → F x = f x) {c r1 r2 r3 r4 : ℝ} (H : Raw (IntAvg f) c r1 r2 r3 r4) :
    Raw (IntAvg F) c r1 r2 r3 r4 :=
  ⟨intAvg_congr hE h H.h0, intAvg_congr hE h H.h1, intAvg_congr hE h H.h2, intAvg_congr hE h H.h3, intAvg_congr hE h H.h4⟩

/-- The value `f` of the density outside `E`. -/
theorem density_of {E : Set ℝ} (hE : E.Finite) {F : ℝ → Dbl ℝ} {f : ℝ → ℝ} (h : ∀ x, x ∉ E → F x = .num (f x)) (hn : ∀ x, x ∉ E → 0 ≤ f x)
    (ht : IntAvg f (fun _ => 1) 1) : IsDensity F E where
  few := hE
  finite x hx := ⟨f x, h x hx, hn x hx⟩
  total := intAvg_congr hE (fun x hx => by rw [h x hx]; rfl) ht

/-! ## Gamma -/

/-- The gamma density. -/
noncomputable def gammaF (a s x : ℝ) : ℝ := if 0 < x then s ^ (-a) * x ^ (a - 1) * Real.exp (-x / s) / Real.Gamma a else 0

theorem gammaF_nonneg {a s : ℝ} (ha : 0 < a) (hs : 0 < s) (x : ℝ) : 0 ≤ gammaF a s x := by
  unfold gammaF
  split_ifs with h
  · have := Real.Gamma_pos_of_pos ha
    positivity
  · exact le_rfl

theorem gammaMoment {a s : ℝ} (ha : 0 < a) (hs : 0 < s) (j : ℕ) :
    IntAvg (gammaF a s) (fun x => x ^ j) (s ^ j * (Real.Gamma (a + j) / Real.Gamma a)) := by
  have hg := Real.Gamma_pos_of_pos ha
  have hj : 0 < a + j := by positivity
  have h := (gammaInt hj hs).mul (s ^ (-a) / Real.Gamma a)
  refine has_of_on (S := Ioi 0) (E := ∅) measurableSet_Ioi finite_empty (G := fun x => gammaF a s x * x ^ j) ?_ (fun _ _ _ => rfl) ?_
  · refine h.congr measurableSet_Ioi (fun x hx => ?_) ?_
    · have hx' : 0 < x := hx
      simp only [gammaF, if_pos hx']
      have : x ^ (a + j - 1) = x ^ (a - 1) * x ^ j := by
        rw [← Real.rpow_add_natCast hx'.ne']; congr 1; ring
      rw [this]; ring
    · rw [show s ^ (a + j) = s ^ a * s ^ j from Real.rpow_add_natCast hs.ne' a j, Real.rpow_neg hs.le]
      have : s ^ a ≠ 0 := (Real.rpow_pos_of_pos hs a).ne'
      field_simp
  · intro x hx _
    have : ¬ 0 < x := hx
    simp [gammaF, this]

theorem gammaRaw {a s : ℝ} (ha : 0 < a) (hs : 0 < s) :
    Raw (IntAvg (gammaF a s)) 0 (a * s) (a * (a + 1) * s ^ 2) (a * (a + 1) * (a + 2) * s ^ 3) (a * (a + 1) * (a + 2) * (a + 3) * s ^ 4) := by
  have hg := (Real.Gamma_pos_of_pos ha).ne'
  have g1 : Real.Gamma (a + 1) = a * Real.Gamma a := Real.Gamma_add_one ha.ne'
  have g2 : Real.Gamma (a + 2) = (a + 1) * (a * Real.Gamma a) := by
    rw [← g1, ← Real.Gamma_add_one (by positivity)]; congr 1; ring
  have g3 : Real.Gamma (a + 3) = (a + 2) * ((a + 1) * (a * Real.Gamma a)) := by
    rw [← g2, ← Real.Gamma_add_one (by positivity)]; congr 1; ring
  have g4 : Real.Gamma (a + 4) = (a + 3) * ((a + 2) * ((a + 1) * (a * Real.Gamma a))) := by
    rw [← g3, ← Real.Gamma_add_one (by positivity)]; congr 1; ring
  have L := intAvg_lin (gammaF a s)
  refine ⟨L.cast (gammaMoment ha hs 0) (fun x => by simp) ?_, L.cast (gammaMoment ha hs 1) (fun x => by simp) ?_,
    L.cast (gammaMoment ha hs 2) (fun x => by simp) ?_, L.cast (gammaMoment ha hs 3) (fun x => by simp) ?_,
    L.cast (gammaMoment ha hs 4) (fun x => by simp) ?_⟩
  · rw [Nat.cast_zero, add_zero]; field_simp
  · push_cast; rw [g1]; field_simp
  · push_cast; rw [g2]; field_simp
  · push_cast; rw [g3]; field_simp
  · push_cast; rw [g4]; field_simp

/-! ## Beta -/

/-- The beta density. -/
noncomputable def betaF (a b x : ℝ) : ℝ :=
  if 0 < x ∧ x < 1 then Real.Gamma (a + b) / (Real.Gamma a * Real.Gamma b) * x ^ (a - 1) * (1 - x) ^ (b - 1) else 0

theorem betaF_nonneg {a b : ℝ} (ha : 0 < a) (hb : 0 < b) (x : ℝ) : 0 ≤ betaF a b x := by
  unfold betaF
  split_ifs with h
  · have := Real.Gamma_pos_of_pos ha
    have := Real.Gamma_pos_of_pos hb
    have := Real.Gamma_pos_of_pos (add_pos ha hb)
    have h1 : 0 ≤ 1 - x := by linarith [h.2]
    have h0 := h.1.le
    positivity
  · exact le_rfl

theorem betaMoment {a b : ℝ} (ha : 0 < a) (hb : 0 < b) (j : ℕ) :
    IntAvg (betaF a b) (fun x => x ^ j) (betaFn (a + j) b / betaFn a b) := by
  have hj : 0 < a + j := by positivity
  have h := (betaInt hj hb).mul (1 / betaFn a b)
  refine has_of_on (S := Ioo 0 1) (E := ∅) measurableSet_Ioo finite_empty (G := fun x => betaF a b x * x ^ j) ?_ (fun _ _ _ => rfl) ?_
  · refine h.congr measurableSet_Ioo (fun x hx => ?_) (by ring)
    have hx' : 0 < x ∧ x < 1 := hx
    simp only [betaF, if_pos hx']
    have : x ^ (a + j - 1) = x ^ (a - 1) * x ^ j := by
      rw [← Real.rpow_add_natCast hx'.1.ne']; congr 1; ring
    rw [this, betaFn, one_div_div]; ring
  · intro x hx _
    have : ¬ (0 < x ∧ x < 1) := hx
    simp [betaF, this]

theorem betaRaw {a b : ℝ} (ha : 0 < a) (hb : 0 < b) :
    Raw (IntAvg (betaF a b)) 0 (a / (a + b)) (a / (a + b) * ((a + 1) / (a + b + 1)))
      (a / (a + b) * ((a + 1) / (a + b + 1)) * ((a + 2) / (a + b + 2)))
      (a / (a + b) * ((a + 1) / (a + b + 1)) * ((a + 2) / (a + b + 2)) * ((a + 3) / (a + b + 3))) := by
  have hB := (betaFn_pos ha hb).ne'
  have b1 : betaFn (a + 1) b = betaFn a b * (a / (a + b)) := betaFn_up ha hb
  have b2 : betaFn (a + 2) b = betaFn a b * (a / (a + b)) * ((a + 1) / (a + b + 1)) := by
    have := betaFn_up (a := a + 1) (by positivity) hb
    rw [b1] at this
    rw [show a + 2 = a + 1 + 1 by ring, this]; congr 2; ring
  have b3 : betaFn (a + 3) b = betaFn a b * (a / (a + b)) * ((a + 1) / (a + b + 1)) * ((a + 2) / (a + b + 2)) := by
    have := betaFn_up (a := a + 2) (by positivity) hb
    rw [b2] at this
    rw [show a + 3 = a + 2 + 1 by ring, this]; congr 2; ring
  have b4 : betaFn (a + 4) b = betaFn a b * (a / (a + b)) * ((a + 1) / (a + b + 1)) * ((a + 2) / (a + b + 2)) * ((a + 3) / (a + b + 3)) := by
    have := betaFn_up (a := a + 3) (by positivity) hb
    rw [b3] at this
    rw [show a + 4 = a + 3 + 1 by ring, this]; congr 2; ring
  have L := intAvg_lin (betaF a b)
  have hab : a + b ≠ 0 := by positivity
  refine ⟨L.cast (betaMoment ha hb 0) (fun x => by simp) ?_, L.cast (betaMoment ha hb 1) (fun x => by simp) ?_,
    L.cast (betaMoment ha hb 2) (fun x => by simp) ?_, L.cast (betaMoment ha hb 3) (fun x => by simp) ?_,
    L.cast (betaMoment ha hb 4) (fun x => by simp) ?_⟩
  · rw [Nat.cast_zero, add_zero, div_self hB]
  · rw [Nat.cast_one, b1]; field_simp
  · rw [Nat.cast_ofNat, b2]; field_simp
  · rw [Nat.cast_ofNat, b3]; field_simp
  · rw [Nat.cast_ofNat, b4]; field_simp

/-! ## Uniform -/

/-- The uniform density. -/
noncomputable def uniF (a b x : ℝ) : ℝ := if a ≤ x ∧ x ≤ b then 1 / (b - a) else 0

theorem uniMoment {a b : ℝ} (h : a < b) (j : ℕ) :
    IntAvg (uniF a b) (fun x => (x - a) ^ j) ((b - a) ^ j / (j + 1)) := by
  have hb : b - a ≠ 0 := by linarith
  have hi : IntervalIntegrable (fun x : ℝ => 1 / (b - a) * (x - a) ^ j) volume a b := by
    apply Continuous.intervalIntegrable; fun_prop
  have hon : HasOn (Ioc a b) (fun x => 1 / (b - a) * (x - a) ^ j) ((b - a) ^ j / (j + 1)) := by
    refine ⟨(intervalIntegrable_iff_integrableOn_Ioc_of_le h.le).mp hi, ?_⟩
    rw [← intervalIntegral.integral_of_le h.le, intervalIntegral.integral_const_mul,
      intervalIntegral.integral_comp_sub_right (fun x => x ^ j) a, sub_self, integral_pow]
    rw [pow_succ]
    have : (j : ℝ) + 1 ≠ 0 := by positivity
    rw [zero_pow (by omega), sub_zero]
    field_simp
  refine has_of_on (S := Ioc a b) (E := {a}) measurableSet_Ioc (finite_singleton a) hon ?_ ?_
  · intro x hx _
    have : a ≤ x ∧ x ≤ b := ⟨hx.1.le, hx.2⟩
    simp only [uniF, if_pos this]
  · intro x hx hxa
    have : ¬ (a ≤ x ∧ x ≤ b) := by
      rintro ⟨h1, h2⟩
      exact hx ⟨lt_of_le_of_ne h1 (fun e => hxa e.symm), h2⟩
    simp [uniF, this]

theorem uniRaw {a b : ℝ} (h : a < b) :
    Raw (IntAvg (uniF a b)) a ((b - a) / 2) ((b - a) ^ 2 / 3) ((b - a) ^ 3 / 4) ((b - a) ^ 4 / 5) := by
  have L := intAvg_lin (uniF a b)
  refine ⟨L.cast (uniMoment h 0) (fun x => by simp) (by simp), L.cast (uniMoment h 1) (fun x => by simp) (by norm_num),
    L.cast (uniMoment h 2) (fun x => by simp) (by norm_num), L.cast (uniMoment h 3) (fun x => by simp) (by norm_num),
    L.cast (uniMoment h 4) (fun x => by simp) (by norm_num)⟩

/-! ## Normal and log-normal -/

/-- The normal density. -/
noncomputable def normF (m s x : ℝ) : ℝ := Real.exp (-(1 / 2) * ((x - m) / s) * ((x - m) / s)) / (Real.sqrt (2 * Real.pi) * s)

/-- The log-normal density. -/
noncomputable def logF (m s x : ℝ) : ℝ :=
  if 0 < x then Real.exp (-(1 / 2) * ((Real.log x - m) / s) * ((Real.log x - m) / s)) / (x * Real.sqrt (2 * Real.pi) * s) else 0

theorem exp_image : Real.exp '' univ = Ioi 0 := by
  rw [image_univ, Real.range_exp]

theorem logMoment (m s : ℝ) (hs : 0 < s) (j : ℕ) : IntAvg (logF m s) (fun x => x ^ j) (Real.exp (j * m + j ^ 2 * s ^ 2 / 2)) := by
  have hn := (gaussMoments (m + j * s ^ 2) s hs).h0
  have h1 : HasOn univ (fun x => Real.exp (j * m + j ^ 2 * s ^ 2 / 2) * normF (m + j * s ^ 2) s x) (Real.exp (j * m + j ^ 2 * s ^ 2 / 2) * 1) := by
    refine HasOn.mul _ (HasOn.univ_iff.mpr ?_)
    have := hn
    unfold IntAvg at this
    simp only [mul_one] at this
    exact this
  refine has_of_on (S := Ioi 0) (E := ∅) measurableSet_Ioi finite_empty (G := fun x => logF m s x * x ^ j) ?_ (fun _ _ _ => rfl) ?_
  · refine (HasOn.subst (f := Real.exp) (f' := Real.exp) MeasurableSet.univ (fun x _ => (Real.hasDerivAt_exp x).hasDerivWithinAt)
      Real.exp_injective.injOn exp_image).mpr ?_
    refine h1.congr MeasurableSet.univ (fun y _ => ?_) (mul_one _)
    have hy := Real.exp_pos y
    rw [abs_of_pos hy, logF, if_pos hy, Real.log_exp, normF, ← Real.exp_nat_mul]
    have e : Real.exp (j * m + j ^ 2 * s ^ 2 / 2) * Real.exp (-(1 / 2) * ((y - (m + j * s ^ 2)) / s) * ((y - (m + j * s ^ 2)) / s)) =
        Real.exp (-(1 / 2) * ((y - m) / s) * ((y - m) / s)) * Real.exp (j * y) := by
      rw [← Real.exp_add, ← Real.exp_add]; congr 1; field_simp; ring
    have hsp : 0 < Real.sqrt (2 * Real.pi) := Real.sqrt_pos.mpr (by positivity)
    rw [← mul_div_assoc, e]
    field_simp
  · intro x hx _
    have : ¬ 0 < x := hx
    simp [logF, this]

theorem logRaw (m s : ℝ) (hs : 0 < s) :
    Raw (IntAvg (logF m s)) 0 (Real.exp (m + s ^ 2 / 2)) (Real.exp (2 * m + 2 * s ^ 2)) (Real.exp (3 * m + 9 * s ^ 2 / 2))
      (Real.exp (4 * m + 8 * s ^ 2)) := by
  have L := intAvg_lin (logF m s)
  refine ⟨L.cast (logMoment m s hs 0) (fun x => by simp) (by simp), L.cast (logMoment m s hs 1) (fun x => by simp) ?_,
    L.cast (logMoment m s hs 2) (fun x => by simp) ?_, L.cast (logMoment m s hs 3) (fun x => by simp) ?_,
    L.cast (logMoment m s hs 4) (fun x => by simp) ?_⟩ <;> congr 1 <;> push_cast <;> ring

end Di
end LDT
