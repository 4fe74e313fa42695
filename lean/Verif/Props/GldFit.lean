import Verif.Props.GldShape
/-! # C135: fitting a generalized lambda distribution to moments; what does not hold -/
namespace LDT
namespace Gl
open Op MeasureTheory Set

/-- The second shape that is used. -/
noncomputable def second (type : ℤ) (found : ℝ × ℝ) : ℝ := if symmetric type then found.1 else found.2

section
variable {F : Fns} (hF : F.Beta) (hD : F.Digamma)

/-- The constant of the curve that makes up for `base`. -/
noncomputable def offset (a b d2 : ℝ) : ℝ := if a ≠ 0 ∧ b ≠ 0 then (1 / a - 1 / b) / d2 else 0

theorem curve_offset (g : Gld) {p : ℝ} (h0 : 0 < p) (h1 : p < 1) : g.curve p = (g.d1 - offset g.d3 g.d4 g.d2) + base g.d3 g.d4 p / g.d2 := by
  unfold offset base
  by_cases h : g.d3 ≠ 0 ∧ g.d4 ≠ 0
  · rw [if_pos h, if_pos h]
    exact curve_eq g h.1 h.2 h0 h1
  · rw [if_neg h, if_neg h, sub_zero]
    rfl

include hF hD

/-- **C135.** The parameters that are returned are those of a distribution with the mean and the variance, whatever shapes were found. -/
theorem C135_from_moments {mean variance : ℝ} (hv : 0 < variance) (type : ℤ) (found : ℝ × ℝ) (h3 : -1 / 2 < found.1) (h4 : -1 / 2 < second type found) :
    ∃ d1 d2, fromFound F mean variance type found = .ok (d1, d2, found.1, second type found) ∧
      ∃ g, make d1 d2 found.1 (second type found) = .ok g ∧ g.IsMean mean ∧ g.IsCentral 2 variance ∧
        g.mean F = .ok (.num mean) ∧ g.variance F = .ok (.num variance) := by
  obtain ⟨l3, l4⟩ := found
  generalize hl : second type (l3, l4) = b at h4
  simp only at h3
  have hl' : (if symmetric type then l3 else l4) = b := hl
  -- the variance for the scale 1
  obtain ⟨m1, e1, r1⟩ := (momt1 (a := l3) (b := b) F (by linarith) (by linarith)).one
  obtain ⟨m2, e2, r2⟩ := momt2 hF hD h3 h4
  have hpos := square_pos (base_mono ⟨0, 1, l3, b⟩ one_pos) (r1.central2 r2)
  have hq : 0 < (m2 - m1 * m1) / variance := div_pos hpos hv
  have hd2 : 0 < Real.sqrt ((m2 - m1 * m1) / variance) := Real.sqrt_pos.2 hq
  have hsq : Real.sqrt ((m2 - m1 * m1) / variance) ^ 2 = (m2 - m1 * m1) / variance := Real.sq_sqrt hq.le
  have hrun : fromFound F mean variance type (l3, l4) = .ok ((if l3 = 0 ∨ b = 0 ∨ l3 = b then mean - 1 / Real.sqrt ((m2 - m1 * m1) / variance) * m1
      else mean - 1 / Real.sqrt ((m2 - m1 * m1) / variance) * (m1 - 1 / l3 + 1 / b)), Real.sqrt ((m2 - m1 * m1) / variance), l3, b) := by
    unfold fromFound
    simp only [hl']
    rw [e1, bind_ok', e2, bind_ok']
    rfl
  generalize Real.sqrt ((m2 - m1 * m1) / variance) = d2 at *
  have hloc : (if l3 = 0 ∨ b = 0 ∨ l3 = b then mean - 1 / d2 * m1 else mean - 1 / d2 * (m1 - 1 / l3 + 1 / b)) = mean - m1 / d2 + offset l3 b d2 := by
    unfold offset
    by_cases hz : l3 ≠ 0 ∧ b ≠ 0
    · rw [if_pos hz]
      by_cases he : l3 = b
      · rw [if_pos (Or.inr (Or.inr he)), he, sub_self]; ring
      · rw [if_neg (by rintro (h | h | h); exacts [hz.1 h, hz.2 h, he h])]; ring
    · have hz' : l3 = 0 ∨ b = 0 ∨ l3 = b := by
        by_cases h : l3 = 0
        · exact Or.inl h
        · exact Or.inr (Or.inl (not_not.1 fun h' => hz ⟨h, h'⟩))
      rw [if_neg hz, if_pos hz']; ring
  rw [hloc] at hrun
  generalize hd1 : mean - m1 / d2 + offset l3 b d2 = d1 at hrun
  have hc := central ⟨d1, d2, l3, b⟩ (fun p => curve_offset ⟨d1, d2, l3, b⟩) hd2.ne' r1
  simp only at hc
  have hmean : Gld.IsMean ⟨d1, d2, l3, b⟩ mean := by
    have := hc.1
    rw [← hd1] at this ⊢
    convert this using 1
    ring
  have hvar : m2 - m1 * m1 = variance * d2 ^ 2 := by rw [hsq]; field_simp
  refine ⟨d1, d2, hrun, ⟨d1, d2, l3, b⟩, if_neg (not_le.2 hd2), hmean, ?_, ?_, ?_⟩
  · have := hc.2 2 _ (r1.central2 r2)
    rw [hvar, mul_div_cancel_right₀ _ (pow_pos hd2 2).ne'] at this
    exact this
  · have h := mean_eq F ⟨d1, d2, l3, b⟩ (show -1 < l3 by linarith) (show -1 < b by linarith)
    rw [h]
    congr 2
    exact Int1.unique (int_curve ⟨d1, d2, l3, b⟩ (show -1 < l3 by linarith) (show -1 < b by linarith)) hmean
  · unfold Gld.variance
    rw [if_neg (show ¬ (l3 ≤ -0.5 ∨ b ≤ -0.5) by rintro (h | h) <;> norm_num at h <;> linarith)]
    show (do let m1 ← moment F 1 l3 b; let m2 ← moment F 2 l3 b; pure (Dbl.num ((m2 - m1 * m1) / (d2 * d2)))) = _
    rw [e1, bind_ok', e2, bind_ok', hvar, ← pow_two, mul_div_cancel_right₀ _ (pow_pos hd2 2).ne']
    rfl

omit hF hD in
theorem sqrt_three {v : ℝ} (hv : 0 < v) : v ^ (1.5 : ℝ) = Real.sqrt v ^ 3 := by
  rw [Real.sqrt_eq_rpow, ← Real.rpow_natCast, ← Real.rpow_mul hv.le]
  norm_num

/-- **C135.** The shapes are searched for by the squared distances of skewness and excess kurtosis from those that are asked for. -/
theorem C135_objective (eps : ℝ) {type : ℤ} (ht : type ≠ 8) (skewness kurtosis : ℝ) (x : ℝ × ℝ) (g : Gld) (hg : 0 < g.d2) (h3 : g.d3 = x.1)
    (h4 : g.d4 = second type x) (p3 : -1 / 4 < g.d3) (p4 : -1 / 4 < g.d4) :
    ∃ s k, g.skewness F = .ok (.num s) ∧ g.kurtosis F = .ok (.num k) ∧
      objective F eps type skewness kurtosis x.1 x.2 = (kurtosis - k) ^ 2 + (s - skewness) ^ 2 := by
  obtain ⟨m1, f1, r1⟩ := (momt1 (a := g.d3) (b := g.d4) F (by linarith) (by linarith)).one
  obtain ⟨m2, f2, r2⟩ := momt2 hF hD (a := g.d3) (b := g.d4) (by linarith) (by linarith)
  have hpos := square_pos (base_mono g hg) (r1.central2 r2)
  obtain ⟨e1, e2, e3, e4⟩ := C135_moments_agree hF p3 p4
  have i1 := Outcome.ok.inj (f1.symm.trans e1)
  have i2 := Outcome.ok.inj (f2.symm.trans e2)
  rw [i1, i2] at hpos
  refine ⟨_, _, skewness_of g (by linarith) (by linarith) e1 e2 e3 hpos, kurtosis_of g p3 p4 e1 e2 e3 e4 hpos, ?_⟩
  rw [← sqrt_three hpos]
  have key : ∀ a b, a = g.d3 → b = g.d4 → (kurtosis - kurtAt F a b) ^ 2 + (skewAt F a b - skewness) ^ 2 = (kurtosis - kurtAt F g.d3 g.d4) ^ 2 +
      (skewAt F g.d3 g.d4 - skewness) ^ 2 := by rintro a b rfl rfl; rfl
  have goal : objective F eps type skewness kurtosis x.1 x.2 = (kurtosis - kurtAt F g.d3 g.d4) ^ 2 + (skewAt F g.d3 g.d4 - skewness) ^ 2 := by
    unfold objective
    by_cases hs : symmetric type = true
    · rw [if_pos hs]
      exact key _ _ h3.symm (by rw [h4, second, if_pos hs])
    · rw [if_neg hs, if_neg ht]
      exact key _ _ h3.symm (by rw [h4, second, if_neg hs])
  rw [goal]
  unfold kurtAt skewAt
  simp only
  ring

end

/-- **C135.** Shapes within the bounds are those of the type, and all four moments exist. -/
theorem C135_types {eps : ℝ} (he : 0 < eps) {type : ℤ} (ht : type ≠ 8) {found : ℝ × ℝ} (h1 : Within found.1 (bounds eps type).1)
    (h2 : symmetric type = false → Within found.2 (bounds eps type).2) :
    OfType type found.1 (second type found) ∧ -1 / 4 < found.1 ∧ -1 / 4 < second type found := by
  obtain ⟨a, b⟩ := found
  simp only at h1 h2 ⊢
  by_cases hs : symmetric type = true
  · have hb : second type (a, b) = a := if_pos hs
    rw [hb]
    have hs' := hs
    unfold symmetric at hs'
    simp only [Bool.or_eq_true, decide_eq_true_eq] at hs'
    unfold bounds at h1
    rw [if_pos hs] at h1
    rcases hs' with (((rfl | rfl) | rfl) | rfl) | rfl <;> norm_num [Within, OfType] at h1 ⊢ <;> (repeat' apply And.intro) <;> linarith
  · have hs0 : symmetric type = false := by simpa using hs
    have hb : second type (a, b) = b := if_neg hs
    rw [hb]
    have h2 := h2 hs0
    unfold bounds at h1 h2
    rw [if_neg hs] at h1 h2
    unfold symmetric at hs
    simp only [Bool.or_eq_true, decide_eq_true_eq, not_or] at hs
    obtain ⟨⟨⟨⟨t1, t3⟩, t5⟩, t7⟩, t10⟩ := hs
    by_cases t2 : type = 2
    · subst t2; norm_num [Within, OfType] at h1 h2 ⊢; refine ⟨⟨?_, ?_⟩, ?_, ?_⟩ <;> linarith
    by_cases t4 : type = 4
    · subst t4; norm_num [Within, OfType] at h1 h2 ⊢; refine ⟨⟨?_, ?_⟩, ?_, ?_⟩ <;> linarith
    by_cases t6 : type = 6
    · subst t6; norm_num [Within, OfType] at h1 h2 ⊢; refine ⟨⟨?_, ?_⟩, ?_, ?_⟩ <;> linarith
    by_cases t9 : type = 9
    · subst t9; norm_num [Within, OfType] at h1 h2 ⊢; refine ⟨⟨?_, ?_, ?_, ?_⟩, ?_, ?_⟩ <;> linarith
    by_cases t11 : type = 11
    · subst t11; norm_num [Within, OfType] at h1 h2 ⊢; refine ⟨⟨?_, ?_⟩, ?_, ?_⟩ <;> linarith
    rw [if_neg t2, if_neg t4, if_neg t6, if_neg t9, if_neg t11] at h1 h2
    norm_num [Within] at h1 h2
    refine ⟨?_, ?_, ?_⟩
    · unfold OfType; split <;> first | trivial | omega
    · linarith
    · linarith

/-- **C135** is violated for the type 8: the penalty multiplies the distance of the kurtosis. So for S-shaped curves the kurtosis that is asked for is ignored; and
for a skewness of 0 the shapes 1.5 and 1.5, which are not S-shaped, are optimal whatever the kurtosis is. -/
theorem C135_type8_violated {F : Fns} (hF : F.Beta) {eps : ℝ} (he : 0 < eps) (h4 : eps < 1 / 4) :
    (∀ a b skewness k k', a > 2 + eps → b > 1 + eps → b < 2 - eps → objective F eps 8 skewness k a b = objective F eps 8 skewness k' a b) ∧
    (∀ k, objective F eps 8 0 k 1.5 1.5 = 0 ∧ ∀ a b, 0 ≤ objective F eps 8 0 k a b) ∧ ¬ OfType 8 1.5 1.5 ∧
    Within (1.5 : ℝ) (bounds eps 8).1 ∧ Within (1.5 : ℝ) (bounds eps 8).2 := by
  have e8 : ∀ s k a b, objective F eps 8 s k a b = penalty8 eps a b * (k - kurtAt F a b) ^ 2 + (skewAt F a b - s) ^ 2 := by
    intro s k a b
    unfold objective
    rw [if_neg (by decide), if_pos rfl]
  have hpen : ∀ a b, 0 ≤ penalty8 eps a b := by
    intro a b
    unfold penalty8
    split
    · exact le_rfl
    · split
      · exact le_rfl
      · positivity
  have hb : bounds eps 8 = ((-0.25 + eps, none), (-0.25 + eps, none)) := by
    unfold bounds
    rw [if_neg (by decide), if_neg (by decide), if_neg (by decide), if_neg (by decide), if_neg (by decide), if_neg (by decide)]
  refine ⟨fun a b s k k' ha hb hb' => ?_, fun k => ⟨?_, fun a b => ?_⟩, ?_, ?_, ?_⟩
  · have : penalty8 eps a b = 0 := if_pos ⟨ha, hb, hb'⟩
    rw [e8, e8, this, zero_mul, zero_mul]
  · have p0 : penalty8 eps 1.5 1.5 = 0 := by
      unfold penalty8
      rw [if_neg (by rintro ⟨h, _⟩; norm_num at h; linarith), if_neg (by rintro ⟨h, _⟩; norm_num at h; linarith)]
      norm_num
    obtain ⟨m1, _, m3, _⟩ := C135_moments_agree hF (a := 1.5) (b := 1.5) (by norm_num) (by norm_num)
    have z1 : (ms F 1.5 1.5).1 = 0 := (Outcome.ok.inj (m1.symm.trans (congrArg Outcome.ok (if_pos rfl)))) 
    have z3 : (ms F 1.5 1.5).2.2.1 = 0 := (Outcome.ok.inj (m3.symm.trans (congrArg Outcome.ok (if_pos rfl))))
    rw [e8, p0]
    unfold skewAt
    simp only [z1, z3]
    norm_num
  · rw [e8]
    have := hpen a b
    positivity
  · norm_num [OfType]
  · rw [hb]
    exact ⟨by norm_num; linarith, by simp⟩
  · rw [hb]
    exact ⟨by norm_num; linarith, by simp⟩

/-- **C135** is violated for samples: `GetSample1` returns the number between 0 and 1 that it draws, `GetSample` the quantile of it. -/
theorem C135_sample_violated (g : Gld) (hg : 0 < g.d2) {u : ℝ} (h0 : 0 < u) (h1 : u < 1) : g.sample [u] = [.num (g.curve u)] ∧ g.sample1 u = .num u ∧
    (g.sample [u] = [g.sample1 u] ↔ g.curve u = u) ∧ (Gld.mk 10 1 1 1).sample [1 / 2] ≠ [(Gld.mk 10 1 1 1).sample1 (1 / 2)] := by
  have h : ∀ (g : Gld), 0 < g.d2 → ∀ {u : ℝ}, 0 < u → u < 1 → g.sample [u] = [.num (g.curve u)] := by
    intro g hg u h0 h1
    show [_] = _
    congr 1
    exact C135_quantile h0 h1 hg (by rintro ⟨h, _⟩; exact absurd h (by simp [Shape.isInf]))
  refine ⟨h g hg h0 h1, rfl, ?_, ?_⟩
  · rw [h g hg h0 h1]
    show [Dbl.num _] = [Dbl.num u] ↔ _
    constructor
    · intro e
      injection e with e
      injection e
    · intro e
      rw [e]
  · rw [h _ one_pos (by norm_num) (by norm_num)]
    intro e
    injection e with e
    have e' : (Gld.mk 10 1 1 1).curve (1 / 2) = 1 / 2 := by
      injection e
    have := C135_symmetric (g := ⟨10, 1, 1, 1⟩) rfl (1 / 2)
    rw [show (1 : ℝ) - 1 / 2 = 1 / 2 by norm_num, e'] at this
    norm_num at this

/-- **C135** is violated outside of the unit interval by `GetQuantile` with parameters (which is `GldQuantile` of R): it is not checked, and numbers above the
maximum can be returned. -/
theorem C135_outside_violated : quantileFn 2 0 1 (.num 2) (.num 2) = .num 1.5 ∧ (Gld.mk 0 1 2 2).maximum = .num 0.5 ∧ (Gld.mk 0 1 2 2).quantile 2 = .num 0.5 := by
  have hm : (Gld.mk 0 1 2 2).maximum = .num 0.5 := by
    have hr : region 2 2 = 3 := by unfold region; norm_num
    unfold Gld.maximum
    simp only [hr]
    norm_num
  refine ⟨?_, hm, ?_⟩
  · have p2 : powD 2 2 = .num 4 := by unfold powD; norm_num
    have pm : powD (1 - 2) 2 = .num 1 := by
      unfold powD
      rw [if_neg (by norm_num), if_neg (by norm_num)]
      have h : ∃ n : ℤ, (2 : ℝ) = n := ⟨2, by norm_num⟩
      rw [dif_pos h]
      have : h.choose = 2 := by
        have := h.choose_spec
        exact_mod_cast this.symm
      rw [this]
      norm_num
    unfold quantileFn
    have n2 : Shape.isZero (.num 2) = false := by simp [Shape.isZero]
    rw [n2]
    simp only [Bool.false_eq_true, if_false, Shape.isInf, Shape.val, p2, pm]
    rw [sub_num, sub_num, div_num (by norm_num), div_num (by norm_num), div_num (by norm_num), sub_num, mul_num, add_num]
    norm_num
  · unfold Gld.quantile
    rw [if_neg (by norm_num), if_pos (by norm_num), hm]

end Gl
end LDT
