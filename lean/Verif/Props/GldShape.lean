import Verif.Props.GldMoments
import Verif.Lemmas.GldZero
/-! # C135: variance, skewness and kurtosis of a generalized lambda distribution -/
namespace LDT
namespace Gl
open Op MeasureTheory Filter Topology Set

section
variable {F : Fns} (hF : F.Beta) (g : Gld) (hg : 0 < g.d2) (h3 : g.d3 ≠ 0) (h4 : g.d4 ≠ 0)

/-- The mean of the sum of powers. -/
noncomputable def Gld.m1 (g : Gld) : ℝ := 1 / (g.d3 * (g.d3 + 1)) - 1 / (g.d4 * (g.d4 + 1))

include h3 h4 in
theorem value1 (F : Fns) : moment F 1 g.d3 g.d4 = .ok g.m1 := by
  show Outcome.ok (first g.d3 g.d4) = _
  congr 1
  unfold first Gld.m1
  by_cases he : g.d3 = g.d4
  · rw [if_pos he, he, sub_self]
  · rw [if_neg he, if_neg (fun h => h3 h.1), if_neg (fun h => h4 h.2)]

include h3 h4 in
theorem value2 (F : Fns) : moment F 2 g.d3 g.d4 =
    .ok (1 / (g.d3 ^ 2 * (2 * g.d3 + 1)) + 1 / (g.d4 ^ 2 * (2 * g.d4 + 1)) - 2 / (g.d3 * g.d4) * F.beta (g.d3 + 1) (g.d4 + 1)) := by
  unfold moment
  simp only
  rw [if_neg (fun h => h3 h.1), if_neg (fun h => h3 h.1), if_neg (fun h => h4 h.2)]

include h3 h4 hF in
theorem value3 (p3 : -1 / 3 < g.d3) (p4 : -1 / 3 < g.d4) : moment F 3 g.d3 g.d4 =
    .ok (1 / (g.d3 ^ 3 * (3 * g.d3 + 1)) - 1 / (g.d4 ^ 3 * (3 * g.d4 + 1)) - 3 / (g.d3 ^ 2 * g.d4) * F.beta (2 * g.d3 + 1) (g.d4 + 1) +
      3 / (g.d3 * g.d4 ^ 2) * F.beta (g.d3 + 1) (2 * g.d4 + 1)) := by
  unfold moment
  simp only
  congr 1
  by_cases he : g.d3 = g.d4
  · rw [if_pos he, he, sub_self]
    rw [beta_comm (F := F) hF g h3 h4 (x := 2 * g.d4 + 1) (y := g.d4 + 1) (by linarith) (by linarith)]
    field_simp
    ring
  · rw [if_neg he, if_neg (fun h => h3 h.1), if_neg (fun h => h4 h.2)]

include h3 h4 in
theorem value4 (F : Fns) : moment F 4 g.d3 g.d4 =
    .ok (1 / (g.d3 ^ 4 * (4 * g.d3 + 1)) + 1 / (g.d4 ^ 4 * (4 * g.d4 + 1)) + 6 / ((g.d3 * g.d4) ^ 2) * F.beta (2 * g.d3 + 1) (2 * g.d4 + 1) -
        4 / (g.d3 ^ 3 * g.d4) * F.beta (3 * g.d3 + 1) (g.d4 + 1) - 4 / (g.d3 * g.d4 ^ 3) * F.beta (g.d3 + 1) (3 * g.d4 + 1)) := by
  unfold moment
  simp only
  rw [if_neg (fun h => h3 h.1), if_neg (fun h => h4 h.2), if_neg (fun h => h3 h.1)]

/-- Central moments from those of `f`, for `x = c + f / d`. -/
theorem central {f : ℝ → ℝ} {m1 c : ℝ} (hc : ∀ p, 0 < p → p < 1 → g.curve p = c + f p / g.d2) (hd : g.d2 ≠ 0) (h1 : Int1 f m1) :
    g.IsMean (c + m1 / g.d2) ∧ ∀ k v, Int1 (fun p => (f p - m1) ^ k) v → g.IsCentral k (v / g.d2 ^ k) := by
  have hm : g.IsMean (c + m1 / g.d2) := by
    refine ((Int1.const c).add (h1.mul (1 / g.d2))).congr (fun p h0 h1 => ?_) |>.to (by ring)
    rw [hc p h0 h1]
    ring
  refine ⟨hm, fun k v hv => ⟨_, hm, ?_⟩⟩
  refine (hv.mul (1 / g.d2 ^ k)).congr (fun p h0 h1 => ?_) |>.to (by ring)
  show _ = (g.curve p - _) ^ k
  rw [hc p h0 h1, show c + f p / g.d2 - (c + m1 / g.d2) = (f p - m1) / g.d2 by ring, div_pow]
  ring

/-- The second, third and fourth central moments from the moments. -/
theorem Int1.central2 {f : ℝ → ℝ} {m1 m2 : ℝ} (h1 : Int1 f m1) (h2 : Int1 (fun p => f p ^ 2) m2) : Int1 (fun p => (f p - m1) ^ 2) (m2 - m1 * m1) :=
  ((h2.sub (h1.mul (2 * m1))).add (Int1.const (m1 ^ 2))).congr (fun p _ _ => by ring) |>.to (by ring)

theorem Int1.central3 {f : ℝ → ℝ} {m1 m2 m3 : ℝ} (h1 : Int1 f m1) (h2 : Int1 (fun p => f p ^ 2) m2) (h3 : Int1 (fun p => f p ^ 3) m3) :
    Int1 (fun p => (f p - m1) ^ 3) (m3 - 3 * m1 * m2 + 2 * m1 ^ 3) :=
  (((h3.sub (h2.mul (3 * m1))).add (h1.mul (3 * m1 ^ 2))).sub (Int1.const (m1 ^ 3))).congr (fun p _ _ => by ring) |>.to (by ring)

theorem Int1.central4 {f : ℝ → ℝ} {m1 m2 m3 m4 : ℝ} (h1 : Int1 f m1) (h2 : Int1 (fun p => f p ^ 2) m2) (h3 : Int1 (fun p => f p ^ 3) m3)
    (h4 : Int1 (fun p => f p ^ 4) m4) : Int1 (fun p => (f p - m1) ^ 4) (m4 - 4 * m1 * m3 + 6 * m1 * m1 * m2 - 3 * m1 ^ 4) :=
  ((((h4.sub (h3.mul (4 * m1))).add (h2.mul (6 * m1 ^ 2))).sub (h1.mul (4 * m1 ^ 3))).add (Int1.const (m1 ^ 4))).congr (fun p _ _ => by ring) |>.to (by ring)

include h3 h4 in
theorem curve_eq {p : ℝ} (h0 : 0 < p) (h1 : p < 1) : g.curve p = (g.d1 - (1 / g.d3 - 1 / g.d4) / g.d2) + raw g.d3 g.d4 p / g.d2 :=
  curve_raw (d1 := g.d1) (d2 := g.d2) h3 h4 h0 h1

/-- The curve without its location and scale: for shapes that are not zero the sum of powers. -/
noncomputable def base (a b p : ℝ) : ℝ := if a ≠ 0 ∧ b ≠ 0 then raw a b p else tail (.num a) p - tail (.num b) (1 - p)

theorem curve_base : ∃ c, ∀ p, 0 < p → p < 1 → g.curve p = c + base g.d3 g.d4 p / g.d2 := by
  by_cases h : g.d3 ≠ 0 ∧ g.d4 ≠ 0
  · refine ⟨g.d1 - (1 / g.d3 - 1 / g.d4) / g.d2, fun p h0 h1 => ?_⟩
    unfold base
    rw [if_pos h]
    exact curve_eq g h.1 h.2 h0 h1
  · refine ⟨g.d1, fun p h0 h1 => ?_⟩
    unfold base
    rw [if_neg h]
    rfl

include hg in
theorem base_mono : StrictMonoOn (base g.d3 g.d4) (Ioo 0 1) := by
  obtain ⟨c, hc⟩ := curve_base g
  intro x hx y hy hxy
  have h' : g.curve x < g.curve y := C135_increasing (d1 := g.d1) (d3 := .num g.d3) (d4 := .num g.d4) hg (by simp [Shape.isInf]) hx hy hxy
  rw [hc x hx.1 hx.2, hc y hy.1 hy.2] at h'
  exact (div_lt_div_iff_of_pos_right hg).1 (lt_of_add_lt_add_left h')

theorem base_left {b p : ℝ} (hb : b ≠ 0) (h0 : 0 < p) (h1 : p < 1) : base 0 b p = half b p := by
  unfold base half
  rw [if_neg (fun h => h.1 rfl), tail_num 0 h0, tail_num b (by linarith), if_pos rfl, if_neg hb]

theorem base_right {a p : ℝ} (ha : a ≠ 0) (h0 : 0 < p) (h1 : p < 1) : base a 0 p = -half a (1 - p) := by
  unfold base half
  rw [if_neg (fun h => h.2 rfl), tail_num a h0, tail_num 0 (by linarith), if_pos rfl, if_neg ha, sub_sub_cancel]
  ring

theorem base_both {p : ℝ} (h0 : 0 < p) (h1 : p < 1) : base 0 0 p = logit p := by
  unfold base logit
  rw [if_neg (fun h => h.2 rfl), tail_num 0 h0, tail_num 0 (by linarith), if_pos rfl, if_pos rfl]

theorem base_raw {a b : ℝ} (ha : a ≠ 0) (hb : b ≠ 0) : base a b = raw a b := by
  funext p
  unfold base
  rw [if_pos ⟨ha, hb⟩]

/-- The moment as computed is the integral. -/
def Momt (F : Fns) (k : ℕ) (a b : ℝ) : Prop := ∃ m, moment F k a b = .ok m ∧ Int1 (fun p => base a b p ^ k) m

section
variable {a b : ℝ} (hD : F.Digamma)

theorem momt1 (F : Fns) (pa : -1 < a) (pb : -1 < b) : Momt F 1 a b := by
  refine ⟨first a b, rfl, ?_⟩
  simp only [pow_one]
  unfold first
  by_cases ha : a = 0 <;> by_cases hb : b = 0
  · subst ha hb
    rw [if_pos rfl]
    have := (int_logit 1).congr (h := base 0 0) fun p h0 h1 => by rw [pow_one, base_both h0 h1]
    rwa [K_zero.2.1] at this
  · subst ha
    rw [if_neg (Ne.symm hb), if_pos ⟨rfl, hb⟩]
    exact (half1 hb pb).congr fun p h0 h1 => (base_left hb h0 h1).symm
  · subst hb
    rw [if_neg ha, if_neg (fun h => ha h.1), if_pos ⟨ha, rfl⟩]
    refine ((half1 ha pa).flip.mul (-1)).congr (fun p h0 h1 => ?_) |>.to (by ring)
    rw [base_right ha h0 h1]; ring
  · rw [base_raw ha hb]
    refine (raw1 ha hb pa pb).to ?_
    by_cases he : a = b
    · rw [if_pos he, he, sub_self]
    · rw [if_neg he, if_neg (fun h => ha h.1), if_neg (fun h => hb h.2)]

include hF hD

theorem momt2 (pa : -1 / 2 < a) (pb : -1 / 2 < b) : Momt F 2 a b := by
  by_cases ha : a = 0 <;> by_cases hb : b = 0
  · subst ha hb
    refine ⟨Real.pi ^ 2 / 3, by simp [moment], ?_⟩
    have := (int_logit 2).congr (h := fun p => base 0 0 p ^ 2) fun p h0 h1 => by rw [base_both h0 h1]
    rwa [K_zero.2.2.1] at this
  · subst ha
    refine ⟨m2zero F b, by simp [moment, hb], ?_⟩
    exact (half2 hD hb pb).congr fun p h0 h1 => by rw [base_left hb h0 h1]
  · subst hb
    refine ⟨m2zero F a, by simp [moment, ha], ?_⟩
    exact (half2 hD ha pa).flip.congr fun p h0 h1 => by rw [base_right ha h0 h1]; ring
  · refine ⟨_, value2 ⟨0, 1, a, b⟩ ha hb F, ?_⟩
    rw [base_raw ha hb]
    exact raw2 hF ha hb pa pb

theorem momt3 (pa : -1 / 3 < a) (pb : -1 / 3 < b) : Momt F 3 a b := by
  by_cases ha : a = 0 <;> by_cases hb : b = 0
  · subst ha hb
    refine ⟨0, by simp [moment], ?_⟩
    have := (int_logit 3).congr (h := fun p => base 0 0 p ^ 3) fun p h0 h1 => by rw [base_both h0 h1]
    rwa [K_zero.2.2.2.1] at this
  · subst ha
    refine ⟨m3zero F b (-1), by simp [moment, hb, Ne.symm hb], ?_⟩
    exact (half3 hD hb pb).congr fun p h0 h1 => by rw [base_left hb h0 h1]
  · subst hb
    refine ⟨m3zero F a 1, by simp [moment, ha], ?_⟩
    refine ((half3 hD ha pa).flip.mul (-1)).congr (fun p h0 h1 => ?_) |>.to ?_
    · rw [base_right ha h0 h1]; ring
    · unfold m3zero; simp only; ring
  · refine ⟨_, value3 hF ⟨0, 1, a, b⟩ ha hb pa pb, ?_⟩
    rw [base_raw ha hb]
    exact raw3 hF ha hb pa pb

theorem momt4 (pa : -1 / 4 < a) (pb : -1 / 4 < b) : Momt F 4 a b := by
  by_cases ha : a = 0 <;> by_cases hb : b = 0
  · subst ha hb
    refine ⟨7 * Real.pi ^ 4 / 15, by simp [moment], ?_⟩
    have := (int_logit 4).congr (h := fun p => base 0 0 p ^ 4) fun p h0 h1 => by rw [base_both h0 h1]
    rwa [K_zero.2.2.2.2] at this
  · subst ha
    refine ⟨m4zero F b, by simp [moment, hb], ?_⟩
    exact (half4 hD hb pb).congr fun p h0 h1 => by rw [base_left hb h0 h1]
  · subst hb
    refine ⟨m4zero F a, by simp [moment, ha], ?_⟩
    exact (half4 hD ha pa).flip.congr fun p h0 h1 => by rw [base_right ha h0 h1]; ring
  · refine ⟨_, value4 ⟨0, 1, a, b⟩ ha hb F, ?_⟩
    rw [base_raw ha hb]
    exact raw4 hF ha hb pa pb

end

theorem Momt.one {a b : ℝ} (h : Momt F 1 a b) : ∃ m, moment F 1 a b = .ok m ∧ Int1 (base a b) m := by
  obtain ⟨m, h1, h2⟩ := h
  simp only [pow_one] at h2
  exact ⟨m, h1, h2⟩

section
variable (hD : F.Digamma)
include hF hD hg

/-- **C135.** The variance, if both shapes are above -1/2. -/
theorem C135_variance (p3 : -1 / 2 < g.d3) (p4 : -1 / 2 < g.d4) : ∃ v, g.variance F = .ok (.num v) ∧ g.IsCentral 2 v ∧ 0 < v := by
  obtain ⟨m1, e1, r1⟩ := (momt1 (a := g.d3) (b := g.d4) F (by linarith) (by linarith)).one
  obtain ⟨m2, e2, r2⟩ := momt2 hF hD p3 p4
  obtain ⟨c, hc⟩ := curve_base g
  have c2 := r1.central2 r2
  have hpos := square_pos (base_mono g hg) c2
  refine ⟨_, ?_, (central g hc hg.ne' r1).2 2 _ c2, div_pos hpos (pow_pos hg 2)⟩
  unfold Gld.variance
  rw [if_neg (by rintro (h | h) <;> norm_num at h <;> linarith), e1, bind_ok', e2, bind_ok', pow_two g.d2]
  rfl

end

theorem skewness_of {F : Fns} {m1 m2 m3 : ℝ} (p3 : -1 / 3 < g.d3) (p4 : -1 / 3 < g.d4) (e1 : moment F 1 g.d3 g.d4 = .ok m1) (e2 : moment F 2 g.d3 g.d4 = .ok m2)
    (e3 : moment F 3 g.d3 g.d4 = .ok m3) (hpos : 0 < m2 - m1 * m1) :
    g.skewness F = .ok (.num ((m3 - 3 * m1 * m2 + 2 * m1 ^ 3) / Real.sqrt (m2 - m1 * m1) ^ 3)) := by
  unfold Gld.skewness
  rw [if_neg (by rintro (h | h) <;> linarith), e1, bind_ok', e2, bind_ok', e3, bind_ok']
  show Outcome.ok (overSd _ _) = _
  unfold overSd
  rw [if_neg (not_lt.2 (le_of_lt hpos))]
  unfold Di.quot
  rw [if_pos (pow_pos (Real.sqrt_pos.2 hpos) 3).ne']

theorem kurtosis_of {F : Fns} {m1 m2 m3 m4 : ℝ} (p3 : -1 / 4 < g.d3) (p4 : -1 / 4 < g.d4) (e1 : moment F 1 g.d3 g.d4 = .ok m1) (e2 : moment F 2 g.d3 g.d4 = .ok m2)
    (e3 : moment F 3 g.d3 g.d4 = .ok m3) (e4 : moment F 4 g.d3 g.d4 = .ok m4) (hpos : 0 < m2 - m1 * m1) :
    g.kurtosis F = .ok (.num ((m4 - 4 * m1 * m3 + 6 * m1 * m1 * m2 - 3 * m1 ^ 4) / (m2 - m1 * m1) ^ 2 - 3)) := by
  unfold Gld.kurtosis
  rw [if_neg (by rintro (h | h) <;> norm_num at h <;> linarith), e1, bind_ok', e2, bind_ok', e3, bind_ok', e4, bind_ok']
  show Outcome.ok (minus3 (Di.quot _ _)) = _
  unfold Di.quot
  rw [if_pos (pow_pos hpos 2).ne']
  rfl

section
variable (hD : F.Digamma)
include hF hD hg

/-- **C135.** The skewness, if both shapes are above -1/3. -/
theorem C135_skewness (p3 : -1 / 3 < g.d3) (p4 : -1 / 3 < g.d4) :
    ∃ s v c, g.skewness F = .ok (.num s) ∧ g.IsCentral 2 v ∧ 0 < v ∧ g.IsCentral 3 c ∧ s = c / Real.sqrt v ^ 3 := by
  obtain ⟨m1, e1, r1⟩ := (momt1 (a := g.d3) (b := g.d4) F (by linarith) (by linarith)).one
  obtain ⟨m2, e2, r2⟩ := momt2 hF hD (a := g.d3) (b := g.d4) (by linarith) (by linarith)
  obtain ⟨m3, e3, r3⟩ := momt3 hF hD p3 p4
  obtain ⟨c, hc⟩ := curve_base g
  have c2 := r1.central2 r2
  have c3 := r1.central3 r2 r3
  have hpos := square_pos (base_mono g hg) c2
  have hC := (central g hc hg.ne' r1).2
  refine ⟨_, _, _, skewness_of g p3 p4 e1 e2 e3 hpos, hC 2 _ c2, div_pos hpos (pow_pos hg 2), hC 3 _ c3, ?_⟩
  rw [Real.sqrt_div hpos.le, Real.sqrt_sq hg.le, div_pow, div_div_div_cancel_right₀ (pow_pos hg 3).ne']

/-- **C135.** The excess kurtosis, if both shapes are above -1/4. -/
theorem C135_kurtosis (p3 : -1 / 4 < g.d3) (p4 : -1 / 4 < g.d4) :
    ∃ s v c, g.kurtosis F = .ok (.num s) ∧ g.IsCentral 2 v ∧ 0 < v ∧ g.IsCentral 4 c ∧ s = c / v ^ 2 - 3 := by
  obtain ⟨m1, e1, r1⟩ := (momt1 (a := g.d3) (b := g.d4) F (by linarith) (by linarith)).one
  obtain ⟨m2, e2, r2⟩ := momt2 hF hD (a := g.d3) (b := g.d4) (by linarith) (by linarith)
  obtain ⟨m3, e3, r3⟩ := momt3 hF hD (a := g.d3) (b := g.d4) (by linarith) (by linarith)
  obtain ⟨m4, e4, r4⟩ := momt4 hF hD p3 p4
  obtain ⟨c, hc⟩ := curve_base g
  have c2 := r1.central2 r2
  have c4 := r1.central4 r2 r3 r4
  have hpos := square_pos (base_mono g hg) c2
  have hC := (central g hc hg.ne' r1).2
  refine ⟨_, _, _, kurtosis_of g p3 p4 e1 e2 e3 e4 hpos, hC 2 _ c2, div_pos hpos (pow_pos hg 2), hC 4 _ c4, ?_⟩
  rw [div_pow, ← pow_mul, div_div_div_cancel_right₀ (pow_pos hg _).ne']

end

theorem tail_cont (s : Shape) {x : ℝ} (hx : 0 < x) : ContinuousAt (tail s) x := (tail_deriv s hx).continuousAt

/-- A tail has a power only if its shape is large enough. -/
theorem tail_mem {l : ℝ} {k : ℕ} (hk : 0 < k) (h : MemLp (tail (.num l)) k (volume.restrict (Ioo (0 : ℝ) (1 / 2)))) : -1 / (k : ℝ) < l := by
  have hk' : (0 : ℝ) < k := by exact_mod_cast hk
  by_cases l0 : l = 0
  · rw [l0]; exact div_neg_of_neg_of_pos (by norm_num) hk'
  have hq : MemLp (fun x : ℝ => l * tail (.num l) x + 1) k (volume.restrict (Ioo (0 : ℝ) (1 / 2))) := (h.const_mul l).add (memLp_const 1)
  have hi := hq.integrable_norm_pow (by omega)
  have hi' : IntegrableOn (fun x : ℝ => x ^ (k * l)) (Ioo (0 : ℝ) (1 / 2)) := by
    refine (integrableOn_congr_fun (fun x hx => ?_) measurableSet_Ioo).1 hi
    have e : l * tail (.num l) x + 1 = x ^ l := by
      rw [tail_num l hx.1, if_neg l0]
      field_simp
      ring
    simp only [e]
    rw [Real.norm_of_nonneg (Real.rpow_nonneg hx.1.le l), pow_nat hx.1]
  have := (intervalIntegral.integrableOn_Ioo_rpow_iff (by norm_num : (0 : ℝ) < 1 / 2)).1 hi'
  rw [div_lt_iff₀ hk', mul_comm]
  exact this

/-- Powers of both ends. -/
theorem shapes_of_central (hg : 0 < g.d2) {k : ℕ} (hk : 0 < k) {v : ℝ} (h : g.IsCentral k v) : -1 / (k : ℝ) < g.d3 ∧ -1 / (k : ℝ) < g.d4 := by
  obtain ⟨m, -, hi, -⟩ := h
  have hk0 : (k : ENNReal) ≠ 0 := by exact_mod_cast hk.ne'
  rw [intervalIntegrable_iff_integrableOn_Ioo_of_le zero_le_one] at hi
  have hc : ∀ p ∈ Ioo (0 : ℝ) 1, ContinuousAt (fun p => g.curve p - m) p := fun p hp => by
    refine ContinuousAt.sub ?_ continuousAt_const
    unfold Gld.curve curve
    refine continuousAt_const.add (((tail_cont (.num g.d3) hp.1).sub ?_).div_const _)
    exact ContinuousAt.comp (f := fun p : ℝ => 1 - p) (tail_cont (.num g.d4) (show 0 < 1 - p by linarith [hp.2])) (by fun_prop)
  have hM : MemLp (fun p => g.curve p - m) k (volume.restrict (Ioo (0 : ℝ) 1)) := by
    rw [← integrable_norm_rpow_iff (ContinuousOn.aestronglyMeasurable (fun p hp => (hc p hp).continuousWithinAt) measurableSet_Ioo) hk0 (by simp)]
    refine hi.norm.congr (Eventually.of_forall fun p => ?_)
    simp only [ENNReal.toReal_natCast, Real.rpow_natCast, norm_pow]
  have hbound : ∀ s : Shape, MemLp (fun p => tail s (1 - p)) k (volume.restrict (Ioo (0 : ℝ) (1 / 2))) := fun s => by
    have hcon : ContinuousOn (fun p => tail s (1 - p)) (Icc (0 : ℝ) (1 / 2)) := fun p hp =>
      (ContinuousAt.comp (f := fun p : ℝ => 1 - p) (tail_cont s (show 0 < 1 - p by linarith [hp.2])) (by fun_prop)).continuousWithinAt
    obtain ⟨C, hC⟩ := isCompact_Icc.exists_bound_of_continuousOn hcon
    refine MemLp.of_bound ((hcon.mono Ioo_subset_Icc_self).aestronglyMeasurable measurableSet_Ioo) C ?_
    exact (ae_restrict_iff' measurableSet_Ioo).2 (Eventually.of_forall fun p hp => hC p (Ioo_subset_Icc_self hp))
  constructor
  · refine tail_mem hk ?_
    have h1 := hM.mono_measure (Measure.restrict_mono (Ioo_subset_Ioo_right (by norm_num : (1 / 2 : ℝ) ≤ 1)) le_rfl)
    have h2 := ((h1.add (memLp_const (m - g.d1))).const_mul g.d2).add (hbound (.num g.d4))
    refine h2.ae_eq (Eventually.of_forall fun p => ?_)
    show g.d2 * (g.curve p - m + (m - g.d1)) + tail (.num g.d4) (1 - p) = _
    unfold Gld.curve curve
    field_simp
    ring
  · refine tail_mem hk ?_
    have hflip : MemLp (fun p => g.curve (1 - p) - m) k (volume.restrict (Ioo (0 : ℝ) 1)) := by
      have mp : MeasurePreserving (fun p : ℝ => 1 - p) (volume.restrict (Ioo (0 : ℝ) 1)) (volume.restrict (Ioo (0 : ℝ) 1)) := by
        have := (Measure.measurePreserving_sub_left (volume : Measure ℝ) 1).restrict_preimage (s := Ioo (0 : ℝ) 1) measurableSet_Ioo
        have e : (fun p : ℝ => 1 - p) ⁻¹' Ioo (0 : ℝ) 1 = Ioo 0 1 := by ext p; simp
        rwa [e] at this
      exact hM.comp_measurePreserving mp
    have h1 := hflip.mono_measure (Measure.restrict_mono (Ioo_subset_Ioo_right (by norm_num : (1 / 2 : ℝ) ≤ 1)) le_rfl)
    have h2 := (hbound (.num g.d3)).sub ((h1.add (memLp_const (m - g.d1))).const_mul g.d2)
    refine h2.ae_eq (Eventually.of_forall fun p => ?_)
    show tail (.num g.d3) (1 - p) - g.d2 * (g.curve (1 - p) - m + (m - g.d1)) = _
    unfold Gld.curve curve
    rw [sub_sub_cancel]
    field_simp
    ring

/-- **C135.** Otherwise NaN is reported, and the moments do not exist. -/
theorem C135_missing (F : Fns) (hg : 0 < g.d2) : (g.d3 ≤ -1 / 2 ∨ g.d4 ≤ -1 / 2 → g.variance F = .ok .nan ∧ ¬ ∃ v, g.IsCentral 2 v) ∧
    (g.d3 ≤ -1 / 3 ∨ g.d4 ≤ -1 / 3 → g.skewness F = .ok .nan ∧ ¬ ∃ v, g.IsCentral 3 v) ∧
    (g.d3 ≤ -1 / 4 ∨ g.d4 ≤ -1 / 4 → g.kurtosis F = .ok .nan ∧ ¬ ∃ v, g.IsCentral 4 v) := by
  have none : ∀ k : ℕ, 0 < k → g.d3 ≤ -1 / (k : ℝ) ∨ g.d4 ≤ -1 / (k : ℝ) → ¬ ∃ v, g.IsCentral k v := by
    rintro k hk h ⟨v, hv⟩
    obtain ⟨h1, h2⟩ := shapes_of_central g hg hk hv
    rcases h with h | h <;> linarith
  refine ⟨fun h => ⟨?_, none 2 two_pos (by exact_mod_cast h)⟩, fun h => ⟨?_, none 3 (by norm_num) (by exact_mod_cast h)⟩,
    fun h => ⟨?_, none 4 (by norm_num) (by exact_mod_cast h)⟩⟩
  · unfold Gld.variance; rw [if_pos]; exact h.imp (fun h => by norm_num; linarith) fun h => by norm_num; linarith
  · unfold Gld.skewness; rw [if_pos h]
  · unfold Gld.kurtosis; rw [if_pos]; exact h.imp (fun h => by norm_num; linarith) fun h => by norm_num; linarith

/-- **C135.** All moments at once are the moments one by one. -/
theorem C135_moments_agree (hF : F.Beta) {a b : ℝ} (ha : -1 / 4 < a) (hb : -1 / 4 < b) :
    moment F 1 a b = .ok (ms F a b).1 ∧ moment F 2 a b = .ok (ms F a b).2.1 ∧ moment F 3 a b = .ok (ms F a b).2.2.1 ∧
    moment F 4 a b = .ok (ms F a b).2.2.2 := by
  by_cases h0 : a = 0
  · by_cases h1 : b = 0
    · have e : ms F a b = (0, Real.pi ^ 2 / 3, 0, 7 * Real.pi ^ 4 / 15) := if_pos ⟨h0, h1⟩
      rw [e]
      refine ⟨?_, ?_, ?_, ?_⟩ <;> simp [moment, h0, h1]
    · have e : ms F a b = (-b / (b + 1), msZero F b (-1)) := by unfold ms; rw [if_neg (fun h => h1 h.2), if_pos ⟨h0, h1⟩]
      rw [e]
      subst h0
      have h1' : ¬ (0 : ℝ) = b := fun h => h1 h.symm
      refine ⟨?_, ?_, ?_, ?_⟩ <;> simp [moment, h1, h1', msZero, m2zero, m3zero, m4zero]
  · by_cases h1 : b = 0
    · have e : ms F a b = (a / (a + 1), msZero F a 1) := by unfold ms; rw [if_neg (fun h => h0 h.1), if_neg (fun h => h0 h.1), if_pos ⟨h0, h1⟩]
      rw [e]
      subst h1
      refine ⟨?_, ?_, ?_, ?_⟩ <;> simp [moment, h0, msZero, m2zero, m3zero, m4zero]
    · have e := value3 hF ⟨0, 1, a, b⟩ h0 h1 (show -1 / 3 < a by linarith) (show -1 / 3 < b by linarith)
      have e1 := value1 ⟨0, 1, a, b⟩ h0 h1 F
      have e2 := value2 ⟨0, 1, a, b⟩ h0 h1 F
      have e4 := value4 ⟨0, 1, a, b⟩ h0 h1 F
      simp only at e e1 e2 e4
      unfold ms
      rw [if_neg (fun h => h0 h.1), if_neg (fun h => h0 h.1), if_neg (fun h => h1 h.2)]
      exact ⟨e1, e2, e, e4⟩

end
end Gl
end LDT
