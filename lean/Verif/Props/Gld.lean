import Verif.Lemmas.Gld
/-! # C135: the quantiles of a generalized lambda distribution -/
namespace LDT
namespace Gl
open Op MeasureTheory Filter Topology Set

/-- **C135.** A distribution is made exactly with a positive scale. -/
theorem C135_accepted (d1 d2 d3 d4 : ℝ) : ((∃ g, make d1 d2 d3 d4 = .ok g) ↔ 0 < d2) ∧ (¬ 0 < d2 → make d1 d2 d3 d4 = .throws) ∧
    ∀ g, make d1 d2 d3 d4 = .ok g → g = ⟨d1, d2, d3, d4⟩ := by
  unfold make
  by_cases h : d2 ≤ 0
  · rw [if_pos h]
    exact ⟨⟨fun ⟨g, hg⟩ => (by cases hg), fun h' => absurd h (not_le.2 h')⟩, fun _ => rfl, fun g hg => (by cases hg)⟩
  · rw [if_neg h]
    exact ⟨⟨fun _ => not_le.1 h, fun _ => ⟨_, rfl⟩⟩, fun h' => absurd (not_le.1 h) h', fun g hg => (Outcome.ok.inj hg).symm⟩

/-- **C135.** Between 0 and 1 the quantiles are those of the distribution, also if a shape is infinite. -/
theorem C135_quantile {p d1 d2 : ℝ} {d3 d4 : Shape} (h0 : 0 < p) (h1 : p < 1) (hd : 0 < d2) (hi : ¬ (d3.isInf = true ∧ d4 = .ninf)) :
    quantileFn p d1 d2 d3 d4 = .num (curve d1 d2 d3 d4 p) := quantileFn_num h0 h1 hd.ne' hi

/-- **C135.** … and the density at a quantile is the reciprocal of the slope of the quantiles. -/
theorem C135_density {p d1 d2 : ℝ} {d3 d4 : Shape} (h0 : 0 < p) (h1 : p < 1) (hd : 0 < d2) (hi : ¬ (d3.isInf = true ∧ d4.isInf = true)) :
    ∃ f, densityFn p d2 d3 d4 = .num f ∧ 0 < f ∧ HasDerivAt (curve d1 d2 d3 d4) (1 / f) p := by
  have hq : 0 < 1 - p := by linarith
  have hs : 0 < slope d3 p + slope d4 (1 - p) := by
    have n3 := slope_nonneg d3 h0
    have n4 := slope_nonneg d4 hq
    cases d3 with
    | num a =>
      have : 0 < slope (.num a) p := Real.rpow_pos_of_pos h0 _
      linarith
    | _ =>
      cases d4 with
      | num b =>
        have : 0 < slope (.num b) (1 - p) := Real.rpow_pos_of_pos hq _
        linarith
      | _ => exact absurd ⟨rfl, rfl⟩ hi
  refine ⟨_, densityFn_num h0 h1 hi, div_pos hd hs, ?_⟩
  refine (curve_deriv d1 d2 d3 d4 h0 h1).congr_deriv ?_
  field_simp

/-- **C135.** The quantiles increase. -/
theorem C135_increasing {d1 d2 : ℝ} {d3 d4 : Shape} (hd : 0 < d2) (hi : ¬ (d3.isInf = true ∧ d4.isInf = true)) :
    StrictMonoOn (curve d1 d2 d3 d4) (Ioo 0 1) := by
  refine strictMonoOn_of_deriv_pos (convex_Ioo 0 1) (fun p hp => (curve_deriv d1 d2 d3 d4 hp.1 hp.2).continuousAt.continuousWithinAt) fun p hp => ?_
  rw [interior_Ioo] at hp
  obtain ⟨f, -, hf, hder⟩ := C135_density (d1 := d1) hp.1 hp.2 hd hi
  rw [hder.deriv]
  exact one_div_pos.2 hf

section
variable (g : Gld)

theorem quantile_num (hg : 0 < g.d2) {p : ℝ} (h0 : 0 < p) (h1 : p < 1) : g.quantile p = .num (g.curve p) := by
  unfold Gld.quantile
  rw [if_neg (by linarith), if_neg (by linarith)]
  exact quantileFn_num h0 h1 hg.ne' (by simp [Shape.isInf])

/-- A tail is not positive before 1, and not below its limit at 0. -/
theorem tail_le (l : ℝ) {x : ℝ} (h0 : 0 < x) (h1 : x ≤ 1) : tail (.num l) x ≤ 0 := by
  have hm : MonotoneOn (tail (.num l)) (Ioi 0) := by
    refine monotoneOn_of_deriv_nonneg (convex_Ioi 0) (fun p hp => (tail_deriv _ hp).continuousAt.continuousWithinAt)
      (fun p hp => ((tail_deriv (.num l) (interior_subset hp)).differentiableAt).differentiableWithinAt) fun p hp => ?_
    rw [(tail_deriv (.num l) (interior_subset hp)).deriv]
    exact slope_nonneg _ (interior_subset hp)
  have := hm (show x ∈ Ioi (0 : ℝ) from h0) (show (1 : ℝ) ∈ Ioi (0 : ℝ) from mem_Ioi.2 one_pos) h1
  rwa [tail_one] at this

theorem tail_ge {l : ℝ} (hl : 0 < l) {x : ℝ} (h0 : 0 < x) : -(1 / l) ≤ tail (.num l) x := by
  rw [tail_num l h0, if_neg hl.ne', neg_le_iff_add_nonneg, ← add_div]
  have := (Real.rpow_pos_of_pos h0 l).le
  exact div_nonneg (by linarith) hl.le

theorem tail_tendsto {l : ℝ} (hl : 0 < l) : Tendsto (tail (.num l)) (𝓝[>] 0) (𝓝 (-(1 / l))) := by
  have h : Tendsto (fun x : ℝ => (x ^ l - 1) / l) (𝓝[>] 0) (𝓝 ((0 ^ l - 1) / l)) :=
    (((Real.continuousAt_rpow_const 0 l (Or.inr hl.le)).tendsto.sub_const 1).div_const l).mono_left nhdsWithin_le_nhds
  rw [Real.zero_rpow hl.ne'] at h
  have h' := h.congr' (f₂ := tail (.num l)) (by
    filter_upwards [self_mem_nhdsWithin] with x hx
    rw [tail_num l hx, if_neg hl.ne'])
  convert h' using 2
  ring

theorem tail_bot {l : ℝ} (hl : l ≤ 0) : Tendsto (tail (.num l)) (𝓝[>] 0) atBot := by
  rcases hl.lt_or_eq with hl | rfl
  · have h : Tendsto (fun x : ℝ => (x ^ l - 1) / l) (𝓝[>] 0) atBot := by
      have h1 : Tendsto (fun x : ℝ => x ^ l) (𝓝[>] 0) atTop := by
        have := (tendsto_rpow_atTop (y := -l) (by linarith)).comp tendsto_inv_nhdsGT_zero
        refine this.congr' ?_
        filter_upwards [self_mem_nhdsWithin] with x hx
        have hx' : (0 : ℝ) ≤ x := le_of_lt hx
        simp only [Function.comp]
        rw [Real.inv_rpow hx', Real.rpow_neg hx', inv_inv]
      have h2 : Tendsto (fun x : ℝ => x ^ l - 1) (𝓝[>] 0) atTop := tendsto_atTop_add_const_right _ (-1) h1
      exact h2.atTop_div_const_of_neg hl
    refine h.congr' ?_
    filter_upwards [self_mem_nhdsWithin] with x hx
    rw [tail_num l hx, if_neg hl.ne]
  · refine Real.tendsto_log_nhdsGT_zero.congr' ?_
    filter_upwards [self_mem_nhdsWithin] with x hx
    rw [tail_num 0 hx, if_pos rfl]

theorem flip_tendsto : Tendsto (fun p : ℝ => 1 - p) (𝓝[<] 1) (𝓝[>] 0) := by
  refine tendsto_nhdsWithin_of_tendsto_nhds_of_eventually_within _ ?_ ?_
  · have : Tendsto (fun p : ℝ => 1 - p) (𝓝 1) (𝓝 (1 - 1)) := (continuous_const.sub continuous_id).tendsto 1
    rw [sub_self] at this
    exact this.mono_left nhdsWithin_le_nhds
  · filter_upwards [self_mem_nhdsWithin] with p hp
    have : p < 1 := hp
    show (0 : ℝ) < 1 - p
    linarith

theorem tail_at_one (s : Shape) : Tendsto (tail s) (𝓝 1) (𝓝 0) := by
  have := (tail_deriv s one_pos).continuousAt.tendsto
  rwa [tail_one] at this

/-- The limit of the quantiles at 0. -/
theorem curve_zero : (0 < g.d3 → Tendsto g.curve (𝓝[>] 0) (𝓝 (g.d1 - 1 / (g.d2 * g.d3)))) ∧
    (g.d3 ≤ 0 → 0 < g.d2 → Tendsto g.curve (𝓝[>] 0) atBot) := by
  have hb : Tendsto (fun p : ℝ => tail (.num g.d4) (1 - p)) (𝓝[>] 0) (𝓝 0) := by
    refine (tail_at_one (.num g.d4)).comp ?_
    have : Tendsto (fun p : ℝ => 1 - p) (𝓝 0) (𝓝 (1 - 0)) := (continuous_const.sub continuous_id).tendsto 0
    rw [sub_zero] at this
    exact this.mono_left nhdsWithin_le_nhds
  refine ⟨fun h => ?_, fun h hd => ?_⟩
  · have := (((tail_tendsto h).sub hb).div_const g.d2).const_add g.d1
    refine Eq.subst (motive := fun x => Tendsto g.curve (𝓝[>] 0) (𝓝 x)) ?_ this
    rw [sub_zero, neg_div, div_div, mul_comm g.d2, ← sub_eq_add_neg]
  · have h1 : Tendsto (fun p : ℝ => tail (.num g.d3) p - tail (.num g.d4) (1 - p)) (𝓝[>] 0) atBot := by
      have := (tail_bot h).atBot_add hb.neg
      refine this.congr fun p => ?_
      ring
    exact tendsto_atBot_add_const_left _ _ (h1.atBot_div_const hd)

/-- … and at 1. -/
theorem curve_one : (0 < g.d4 → Tendsto g.curve (𝓝[<] 1) (𝓝 (g.d1 + 1 / (g.d2 * g.d4)))) ∧
    (g.d4 ≤ 0 → 0 < g.d2 → Tendsto g.curve (𝓝[<] 1) atTop) := by
  have ha : Tendsto (tail (.num g.d3)) (𝓝[<] 1) (𝓝 0) := (tail_at_one (.num g.d3)).mono_left nhdsWithin_le_nhds
  refine ⟨fun h => ?_, fun h hd => ?_⟩
  · have := ((ha.sub ((tail_tendsto h).comp flip_tendsto)).div_const g.d2).const_add g.d1
    refine Eq.subst (motive := fun x => Tendsto g.curve (𝓝[<] 1) (𝓝 x)) ?_ this
    rw [zero_sub, neg_neg, div_div, mul_comm g.d2]
  · have h1 : Tendsto (fun p : ℝ => tail (.num g.d3) p - tail (.num g.d4) (1 - p)) (𝓝[<] 1) atTop := by
      have h2 : Tendsto (fun p : ℝ => -tail (.num g.d4) (1 - p)) (𝓝[<] 1) atTop := tendsto_neg_atBot_atTop.comp ((tail_bot h).comp flip_tendsto)
      have := h2.atTop_add ha
      refine this.congr fun p => ?_
      ring
    exact tendsto_atTop_add_const_left _ _ (h1.atTop_div_const hd)

/-- **C135.** The smallest value that is reported is the greatest lower bound of the quantiles; it is minus infinity exactly if they have none. The largest likewise. -/
theorem C135_range (hg : 0 < g.d2) :
    (∀ m, g.minimum = .num m → IsGLB (g.curve '' Ioo 0 1) m) ∧ ((∀ m, g.minimum ≠ .num m) → g.minimum = .ninf ∧ ¬ BddBelow (g.curve '' Ioo 0 1)) ∧
    (∀ m, g.maximum = .num m → IsLUB (g.curve '' Ioo 0 1) m) ∧ ((∀ m, g.maximum ≠ .num m) → g.maximum = .pinf ∧ ¬ BddAbove (g.curve '' Ioo 0 1)) := by
  have hlow : ∀ᶠ p : ℝ in 𝓝[>] 0, p ∈ Ioo (0 : ℝ) 1 := Ioo_mem_nhdsGT one_pos
  have hupp : ∀ᶠ p : ℝ in 𝓝[<] 1, p ∈ Ioo (0 : ℝ) 1 := Ioo_mem_nhdsLT one_pos
  have hmin : (0 < g.d3 ∧ g.minimum = .num (g.d1 - 1 / (g.d2 * g.d3))) ∨ (g.d3 ≤ 0 ∧ g.minimum = .ninf) := by
    unfold Gld.minimum region
    by_cases h : g.d3 ≤ 0
    · refine Or.inr ⟨h, ?_⟩
      rw [if_pos h]
      by_cases h' : g.d4 > 0 <;> simp [h']
    · refine Or.inl ⟨not_le.1 h, ?_⟩
      rw [if_neg h]
      by_cases h' : g.d4 > 0 <;> simp [h']
  have hmax : (0 < g.d4 ∧ g.maximum = .num (g.d1 + 1 / (g.d2 * g.d4))) ∨ (g.d4 ≤ 0 ∧ g.maximum = .pinf) := by
    unfold Gld.maximum region
    by_cases h : g.d4 > 0
    · refine Or.inl ⟨h, ?_⟩
      by_cases h' : g.d3 ≤ 0 <;> simp [h, h']
    · refine Or.inr ⟨not_lt.1 h, ?_⟩
      by_cases h' : g.d3 ≤ 0 <;> simp [h, h']
  have bounded : ∀ a b x y : ℝ, x - y ≤ (a - b) → g.d1 + (x - y) / g.d2 ≤ g.d1 + (a - b) / g.d2 := fun a b x y h => by
    have := div_le_div_of_nonneg_right h hg.le
    linarith
  refine ⟨fun m hm => ?_, fun hm => ?_, fun m hm => ?_, fun hm => ?_⟩
  · rcases hmin with ⟨h, e⟩ | ⟨-, e⟩
    · rw [e] at hm
      obtain rfl := Dbl.num.inj hm
      refine ⟨?_, fun m hm => ?_⟩
      · rintro _ ⟨p, hp, rfl⟩
        have := bounded _ _ (-(1 / g.d3)) 0 (show -(1 / g.d3) - 0 ≤ tail (.num g.d3) p - tail (.num g.d4) (1 - p) by
          have := tail_ge h hp.1
          have := tail_le g.d4 (show 0 < 1 - p by linarith [hp.2]) (show 1 - p ≤ 1 by linarith [hp.1])
          linarith)
        refine le_trans (le_of_eq ?_) this
        rw [sub_zero, neg_div, div_div, mul_comm g.d2, ← sub_eq_add_neg]
      · exact ge_of_tendsto ((curve_zero g).1 h) (hlow.mono fun p hp => hm ⟨p, hp, rfl⟩)
    · rw [e] at hm; cases hm
  · rcases hmin with ⟨h, e⟩ | ⟨h, e⟩
    · exact absurd e (hm _)
    · refine ⟨e, fun ⟨m, hm⟩ => ?_⟩
      obtain ⟨p, hp, hlt⟩ := (hlow.and (((curve_zero g).2 h hg).eventually (eventually_lt_atBot m))).exists
      exact absurd (hm ⟨p, hp, rfl⟩) (not_le.2 hlt)
  · rcases hmax with ⟨h, e⟩ | ⟨-, e⟩
    · rw [e] at hm
      obtain rfl := Dbl.num.inj hm
      refine ⟨?_, fun m hm => ?_⟩
      · rintro _ ⟨p, hp, rfl⟩
        have := bounded 0 (-(1 / g.d4)) _ _ (show tail (.num g.d3) p - tail (.num g.d4) (1 - p) ≤ 0 - -(1 / g.d4) by
          have := tail_ge h (show 0 < 1 - p by linarith [hp.2])
          have := tail_le g.d3 hp.1 hp.2.le
          linarith)
        refine le_trans this (le_of_eq ?_)
        rw [zero_sub, neg_neg, div_div, mul_comm g.d2]
      · exact le_of_tendsto ((curve_one g).1 h) (hupp.mono fun p hp => hm ⟨p, hp, rfl⟩)
    · rw [e] at hm; cases hm
  · rcases hmax with ⟨h, e⟩ | ⟨h, e⟩
    · exact absurd e (hm _)
    · refine ⟨e, fun ⟨m, hm⟩ => ?_⟩
      obtain ⟨p, hp, hlt⟩ := (hupp.and (((curve_one g).2 h hg).eventually (eventually_gt_atTop m))).exists
      exact absurd (hm ⟨p, hp, rfl⟩) (not_le.2 hlt)

/-- **C135.** The quantile of a probability outside the open unit interval is the smallest or the largest value. -/
theorem C135_quantiles (hg : 0 < g.d2) (p : ℝ) : (0 < p → p < 1 → g.quantile p = .num (g.curve p)) ∧ (p ≤ 0 → g.quantile p = g.minimum) ∧
    (1 ≤ p → g.quantile p = g.maximum) := by
  refine ⟨quantile_num g hg, fun h => ?_, fun h => ?_⟩
  · unfold Gld.quantile; rw [if_pos h]
  · unfold Gld.quantile; rw [if_neg (by linarith), if_pos h]

/-- **C135.** The density of the distribution at its quantile is the reciprocal of the slope of its quantiles. -/
theorem C135_density_of (hg : 0 < g.d2) {p : ℝ} (h0 : 0 < p) (h1 : p < 1) :
    ∃ f, g.density p = .num f ∧ 0 < f ∧ HasDerivAt g.curve (1 / f) p :=
  C135_density (d1 := g.d1) h0 h1 hg (by simp [Shape.isInf])

/-- **C135.** With equal shapes the distribution is symmetric around its location. -/
theorem C135_symmetric (h : g.d3 = g.d4) (p : ℝ) : g.curve (1 - p) - g.d1 = g.d1 - g.curve p := by
  unfold Gld.curve curve
  rw [h, sub_sub_cancel]
  ring

end
end Gl
end LDT
