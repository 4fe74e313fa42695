import Verif.Model.Mixture
import Verif.Props.DistContinuous
/-! # Weighted averages of components -/
namespace LDT
namespace Di
open Op MeasureTheory Set

theorem divD_num {a b : ℝ} (h : b ≠ 0) : divD (.num a) (.num b) = .num (a / b) := quot_ne h

theorem push1_num (s m x w : ℝ) (h : s + w ≠ 0) : push1 (s, .num m) (.num x) w = (s + w, .num ((s * m + w * x) / (s + w))) := by
  show (s + w, divD (.num (s * m + w * x)) (.num (s + w))) = _
  rw [divD_num h]

/-- Sums over a list of pairs. -/
def sumW (l : List (ℝ × ℝ)) : ℝ := (l.map fun p => p.1).sum
def sumWX (l : List (ℝ × ℝ)) : ℝ := (l.map fun p => p.1 * p.2).sum

theorem foldl_push (l : List (ℝ × ℝ)) (hl : ∀ p ∈ l, 0 < p.1) (s t : ℝ) (hs : 0 < s) :
    (l.map fun p => (p.1, Dbl.num p.2)).foldl (fun s p => push1 s p.2 p.1) (s, .num (t / s)) = (s + sumW l, .num ((t + sumWX l) / (s + sumW l))) := by
  induction l generalizing s t with
  | nil => simp [sumW, sumWX]
  | cons p l ih =>
    have hp := hl p (by simp)
    rw [List.map_cons, List.foldl_cons]
    dsimp only
    rw [push1_num _ _ _ _ (by linarith)]
    have e : (s * (t / s) + p.1 * p.2) / (s + p.1) = (t + p.1 * p.2) / (s + p.1) := by field_simp
    rw [e, ih (fun q hq => hl q (by simp [hq])) (s + p.1) (t + p.1 * p.2) (by linarith)]
    simp [sumW, sumWX, add_assoc]

theorem wavg_num {l : List (ℝ × ℝ)} (hl : ∀ p ∈ l, 0 < p.1) (hne : l ≠ []) : 0 < sumW l ∧ wavg (l.map fun p => (p.1, .num p.2)) = .num (sumWX l / sumW l) := by
  obtain ⟨p, l, rfl⟩ := List.exists_cons_of_ne_nil hne
  have hp := hl p (by simp)
  have hpos : 0 ≤ sumW l := List.sum_nonneg (by
    intro x hx
    obtain ⟨q, hq, rfl⟩ := List.mem_map.mp hx
    exact (hl q (by simp [hq])).le)
  have e0 : sumW (p :: l) = p.1 + sumW l := by simp [sumW]
  have h0 : 0 < sumW (p :: l) := by rw [e0]; linarith
  refine ⟨h0, ?_⟩
  unfold wavg
  rw [List.map_cons, List.foldl_cons]
  dsimp only
  rw [push1_num _ _ _ _ (by linarith)]
  have e : (0 * 0 + p.1 * p.2) / (0 + p.1) = (p.1 * p.2) / p.1 := by simp
  rw [e, zero_add, foldl_push l (fun q hq => hl q (by simp [hq])) p.1 _ hp]
  dsimp only
  rw [if_neg (by linarith)]
  simp [sumW, sumWX]

/-! ## The average of a number over the components -/

/-- The weighted average of a number attached to each component. -/
noncomputable def Mix.A (m : Mix) (h : Dist → ℝ) : ℝ := (m.parts.map fun p => p.1 * h p.2).sum / (m.parts.map fun p => p.1).sum

/-- What the constructor guarantees. -/
structure Mix.Good (m : Mix) : Prop where
  len : m.ws.length = m.ds.length
  pos : ∀ w ∈ m.ws, 0 < w
  ne : m.ws ≠ []

theorem good_of_make {ws : List ℝ} {ds : List Dist} {m : Mix} (h : makeMix ws ds = .ok m) : m = ⟨ws, ds⟩ ∧ m.Good := by
  unfold makeMix at h
  split_ifs at h with h1 h2 h3
  · have := (Outcome.ok.inj h).symm
    subst this
    refine ⟨rfl, not_not.mp h1, fun w hw => ?_, fun e => h3 (by simpa using congrArg List.length e)⟩
    by_contra hn
    exact h2 ⟨w, hw, not_lt.mp hn⟩

theorem Mix.Good.parts_pos {m : Mix} (G : m.Good) : ∀ p ∈ m.parts, 0 < p.1 := fun p hp => G.pos _ (List.of_mem_zip (a := p.1) (b := p.2) hp).1

theorem Mix.Good.parts_mem {m : Mix} (_ : m.Good) : ∀ p ∈ m.parts, p.2 ∈ m.ds := fun p hp => (List.of_mem_zip (a := p.1) (b := p.2) hp).2

theorem Mix.Good.parts_ne {m : Mix} (G : m.Good) : m.parts ≠ [] := by
  intro h
  have := congrArg List.length h
  rw [Mix.parts, List.length_zip, ← G.len, min_self] at this
  exact G.ne (List.length_eq_zero_iff.mp this)

theorem Mix.Good.total {m : Mix} (G : m.Good) : 0 < (m.parts.map fun p => p.1).sum := by
  have := (wavg_num (l := m.parts.map fun p => (p.1, (0 : ℝ))) (fun q hq => by obtain ⟨p, hp, rfl⟩ := List.mem_map.mp hq; exact G.parts_pos p hp) (by simpa using G.parts_ne)).1
  simpa [sumW, Function.comp_def] using this

theorem Mix.avg_num {m : Mix} (G : m.Good) {f : Dist → Dbl ℝ} {h : Dist → ℝ} (hf : ∀ d ∈ m.ds, f d = .num (h d)) : m.avg f = .num (m.A h) := by
  have := (wavg_num (l := m.parts.map fun p => (p.1, h p.2)) (fun q hq => by obtain ⟨p, hp, rfl⟩ := List.mem_map.mp hq; exact G.parts_pos p hp) (by simpa using G.parts_ne)).2
  unfold Mix.avg
  have e : (m.parts.map fun p => (p.1, f p.2)) = (m.parts.map fun p => (p.1, h p.2)).map fun p => (p.1, Dbl.num p.2) := by
    rw [List.map_map]
    refine List.map_congr_left fun p hp => ?_
    simp [hf p.2 (G.parts_mem p hp)]
  rw [e, this]
  simp [sumW, sumWX, Mix.A, Function.comp_def]

theorem Mix.A_congr {m : Mix} (G : m.Good) {h k : Dist → ℝ} (e : ∀ d ∈ m.ds, h d = k d) : m.A h = m.A k := by
  unfold Mix.A
  congr 2
  exact List.map_congr_left fun p hp => by rw [e p.2 (G.parts_mem p hp)]

theorem Mix.A_add (m : Mix) (h k : Dist → ℝ) : m.A (fun d => h d + k d) = m.A h + m.A k := by
  unfold Mix.A
  rw [← add_div]
  congr 1
  induction m.parts with
  | nil => simp
  | cons p l ih => simp only [List.map_cons, List.sum_cons, ih]; ring

theorem Mix.A_smul (m : Mix) (c : ℝ) (h : Dist → ℝ) : m.A (fun d => c * h d) = c * m.A h := by
  unfold Mix.A
  rw [mul_div_assoc']
  congr 1
  induction m.parts with
  | nil => simp
  | cons p l ih => simp only [List.map_cons, List.sum_cons, ih]; ring

theorem Mix.A_one {m : Mix} (G : m.Good) : m.A (fun _ => 1) = 1 := by
  unfold Mix.A
  simp only [mul_one]
  exact div_self G.total.ne'

theorem Mix.A_mono {m : Mix} (G : m.Good) {h k : Dist → ℝ} (e : ∀ d ∈ m.ds, h d ≤ k d) : m.A h ≤ m.A k := by
  unfold Mix.A
  refine div_le_div_of_nonneg_right ?_ G.total.le
  refine List.sum_le_sum fun p hp => ?_
  exact mul_le_mul_of_nonneg_left (e p.2 (G.parts_mem p hp)) (G.parts_pos p hp).le

theorem Mix.A_pos {m : Mix} (G : m.Good) {h : Dist → ℝ} (e : ∀ d ∈ m.ds, 0 < h d) : 0 < m.A h := by
  unfold Mix.A
  refine div_pos (List.sum_pos _ (fun x hx => ?_) (by simpa using G.parts_ne)) G.total
  obtain ⟨p, hp, rfl⟩ := List.mem_map.mp hx
  exact mul_pos (G.parts_pos p hp) (e p.2 (G.parts_mem p hp))

/-! ## Averages under the mixture -/

theorem intAvg_mix (m : Mix) (g : ℝ → ℝ) (c : Dist → ℝ) (f : Dist → ℝ → ℝ) (h : ∀ p ∈ m.parts, IntAvg (f p.2) g (c p.2)) :
    IntAvg (fun x => m.A fun d => f d x) g (m.A c) := by
  unfold Mix.A
  generalize (m.parts.map fun p => p.1).sum = W
  generalize m.parts = L at h ⊢
  have key : IntAvg (fun x => (L.map fun p => p.1 * f p.2 x).sum) g (L.map fun p => p.1 * c p.2).sum := by
    induction L with
    | nil => exact ⟨by simp, by simp⟩
    | cons p l ih =>
      obtain ⟨i1, i2⟩ := ih fun q hq => h q (by simp [hq])
      obtain ⟨j1, j2⟩ := h p (by simp)
      have e : (fun x => (List.map (fun p => p.1 * f p.2 x) (p :: l)).sum * g x) =
          fun x => p.1 * (f p.2 x * g x) + (List.map (fun p => p.1 * f p.2 x) l).sum * g x := by
        funext x; simp only [List.map_cons, List.sum_cons]; ring
      refine ⟨?_, ?_⟩
      · rw [e]; exact (j1.const_mul _).add i1
      · rw [e, integral_add (j1.const_mul _) i1, integral_const_mul, i2, j2]; simp
  have e : (fun x => (L.map fun p => p.1 * f p.2 x).sum / W * g x) = fun x => (1 / W) * ((L.map fun p => p.1 * f p.2 x).sum * g x) := by
    funext x; ring
  refine ⟨?_, ?_⟩
  · rw [e]; exact key.1.const_mul _
  · rw [e, integral_const_mul, key.2]; ring

theorem sumAvg_mix (m : Mix) (g : ℝ → ℝ) (c : Dist → ℝ) (f : Dist → ℤ → ℝ) (h : ∀ p ∈ m.parts, SumAvg (f p.2) g (c p.2)) :
    SumAvg (fun x => m.A fun d => f d x) g (m.A c) := by
  unfold Mix.A
  generalize (m.parts.map fun p => p.1).sum = W
  generalize m.parts = L at h ⊢
  have key : SumAvg (fun x => (L.map fun p => p.1 * f p.2 x).sum) g (L.map fun p => p.1 * c p.2).sum := by
    unfold SumAvg
    induction L with
    | nil => simpa using hasSum_zero
    | cons p l ih =>
      have i := ih fun q hq => h q (by simp [hq])
      have j : HasSum (fun k : ℤ => f p.2 k * g k) (c p.2) := h p (by simp)
      have := (j.mul_left p.1).add i
      simp only [List.map_cons, List.sum_cons]
      refine this.congr_fun fun k => ?_
      ring
  have key : HasSum (fun k : ℤ => (L.map fun p => p.1 * f p.2 k).sum * g k) _ := key
  have := key.mul_left (1 / W)
  unfold SumAvg
  have e1 : (fun k : ℤ => (L.map fun p => p.1 * f p.2 k).sum / W * g k) = fun k : ℤ => (1 / W) * ((L.map fun p => p.1 * f p.2 k).sum * g k) := by
    funext k; ring
  have e2 : (L.map fun p => p.1 * c p.2).sum / W = (1 / W) * (L.map fun p => p.1 * c p.2).sum := by ring
  rw [e1, e2]; exact this

/-! ## Moments -/

theorem rpow15 {v : ℝ} (h : 0 ≤ v) : v ^ (3 / 2 : ℝ) = v * Real.sqrt v := by
  rcases h.eq_or_lt with e | e
  · rw [← e, Real.zero_rpow (by norm_num)]; simp
  · rw [show (3 / 2 : ℝ) = 1 + 1 / 2 by norm_num, Real.rpow_add e, Real.rpow_one, Real.sqrt_eq_rpow]

/-- The components' mean and variance are numbers and describe their averages. -/
structure Parts2 (m : Mix) (avg : Dist → (ℝ → ℝ) → ℝ → Prop) : Prop where
  lin : ∀ d ∈ m.ds, Lin (avg d)
  ok : ∀ d ∈ m.ds, ∃ a v, d.mean = .num a ∧ d.variance = .num v ∧ MeanVar (avg d) a v

/-- And the higher moments. -/
structure Parts4 (m : Mix) (avg : Dist → (ℝ → ℝ) → ℝ → Prop) : Prop where
  lin : ∀ d ∈ m.ds, Lin (avg d)
  ok : ∀ d ∈ m.ds, ∃ a v s k, d.mean = .num a ∧ d.variance = .num v ∧ MeanVar (avg d) a v ∧ 0 < v ∧
    d.skewness = .num s ∧ d.kurtosis = .num k ∧ Skew (avg d) a v s ∧ Kurt (avg d) a v k

theorem Parts4.two {m : Mix} {avg : Dist → (ℝ → ℝ) → ℝ → Prop} (P : Parts4 m avg) : Parts2 m avg where
  lin := P.lin
  ok := fun d hd => by obtain ⟨a, v, s, k, h1, h2, h3, -⟩ := P.ok d hd; exact ⟨a, v, h1, h2, h3⟩

theorem shift2 {avg : (ℝ → ℝ) → ℝ → Prop} (L : Lin avg) {a v : ℝ} (M : MeanVar avg a v) (c : ℝ) : avg (fun x => (x - c) ^ 2) (v + (a - c) ^ 2) :=
  L.cast (L.add M.variance (L.add (L.smul (2 * (a - c)) M.mean) (L.smul ((a - c) ^ 2 - 2 * (a - c) * a) M.total))) (fun x => by ring) (by ring)

theorem shift3 {avg : (ℝ → ℝ) → ℝ → Prop} (L : Lin avg) {a v t : ℝ} (M : MeanVar avg a v) (h3 : avg (fun x => (x - a) ^ 3) t) (c : ℝ) :
    avg (fun x => (x - c) ^ 3) ((a - c) ^ 3 + 3 * (a - c) * v + t) :=
  L.cast (L.add h3 (L.add (L.smul (3 * (a - c)) M.variance) (L.add (L.smul (3 * (a - c) ^ 2) M.mean) (L.smul ((a - c) ^ 3 - 3 * (a - c) ^ 2 * a) M.total))))
    (fun x => by ring) (by ring)

theorem shift4 {avg : (ℝ → ℝ) → ℝ → Prop} (L : Lin avg) {a v t q : ℝ} (M : MeanVar avg a v) (h3 : avg (fun x => (x - a) ^ 3) t)
    (h4 : avg (fun x => (x - a) ^ 4) q) (c : ℝ) :
    avg (fun x => (x - c) ^ 4) ((a - c) ^ 4 + 6 * (a - c) ^ 2 * v + 4 * (a - c) * t + q) :=
  L.cast (L.add h4 (L.add (L.smul (4 * (a - c)) h3) (L.add (L.smul (6 * (a - c) ^ 2) M.variance)
    (L.add (L.smul (4 * (a - c) ^ 3) M.mean) (L.smul ((a - c) ^ 4 - 4 * (a - c) ^ 3 * a) M.total)))))
    (fun x => by ring) (by ring)

theorem moments2_of {m : Mix} (G : m.Good) {avg : Dist → (ℝ → ℝ) → ℝ → Prop} (P : Parts2 m avg) {avgM : (ℝ → ℝ) → ℝ → Prop}
    (hM : ∀ g c, (∀ p ∈ m.parts, avg p.2 g (c p.2)) → avgM g (m.A c)) :
    m.mean = .num (m.A fun d => real d.mean) ∧
    m.variance = .num (m.A fun d => real d.variance + (real d.mean - m.A fun d => real d.mean) ^ 2) ∧
    MeanVar avgM (m.A fun d => real d.mean) (m.A fun d => real d.variance + (real d.mean - m.A fun d => real d.mean) ^ 2) := by
  have hmean : ∀ d ∈ m.ds, d.mean = .num (real d.mean) := fun d hd => by obtain ⟨a, v, h1, -⟩ := P.ok d hd; rw [h1]; rfl
  have hvar : ∀ d ∈ m.ds, d.variance = .num (real d.variance) := fun d hd => by obtain ⟨a, v, -, h1, -⟩ := P.ok d hd; rw [h1]; rfl
  have hmv : ∀ d ∈ m.ds, MeanVar (avg d) (real d.mean) (real d.variance) := fun d hd => by obtain ⟨a, v, h1, h2, h3⟩ := P.ok d hd; rw [h1, h2]; exact h3
  have e1 : m.mean = .num (m.A fun d => real d.mean) := Mix.avg_num G hmean
  generalize hc : (m.A fun d => real d.mean) = c at *
  refine ⟨e1, ?_, ?_, ?_, ?_⟩
  · unfold Mix.variance
    rw [Mix.avg_num G (h := fun d => real d.mean ^ 2 + real d.variance) (fun d hd => by rw [hmean d hd, hvar d hd]; rfl), e1]
    show Dbl.num _ = _
    congr 1
    have := m.A_add (fun d => real d.mean ^ 2 + real d.variance) (fun d => -2 * c * real d.mean + c ^ 2 * 1)
    rw [m.A_add (fun d => -2 * c * real d.mean), m.A_smul, m.A_smul, Mix.A_one G, hc] at this
    have e2 : (m.A fun d => real d.variance + (real d.mean - c) ^ 2) = m.A fun d => real d.mean ^ 2 + real d.variance + (-2 * c * real d.mean + c ^ 2 * 1) := by
      congr 1; funext d; ring
    rw [e2, this]; ring
  · have := hM (fun _ => 1) (fun _ => 1) (fun p hp => (hmv p.2 (G.parts_mem p hp)).total)
    rwa [Mix.A_one G] at this
  · rw [← hc]; exact hM _ _ (fun p hp => (hmv p.2 (G.parts_mem p hp)).mean)
  · exact hM _ _ (fun p hp => shift2 (P.lin _ (G.parts_mem p hp)) (hmv p.2 (G.parts_mem p hp)) c)

theorem moments4_of {m : Mix} (G : m.Good) {avg : Dist → (ℝ → ℝ) → ℝ → Prop} (P : Parts4 m avg) {avgM : (ℝ → ℝ) → ℝ → Prop}
    (hM : ∀ g c, (∀ p ∈ m.parts, avg p.2 g (c p.2)) → avgM g (m.A c)) :
    ∃ a v s k, m.moments4 = (.num a, .num v, .num s, .num k) ∧ 0 < v ∧ MeanVar avgM a v ∧ Skew avgM a v s ∧ Kurt avgM a v k := by
  obtain ⟨e1, e2, M⟩ := moments2_of G P.two hM
  have hmean : ∀ d ∈ m.ds, d.mean = .num (real d.mean) := fun d hd => by obtain ⟨a, v, s, k, h1, -⟩ := P.ok d hd; rw [h1]; rfl
  have hvar : ∀ d ∈ m.ds, d.variance = .num (real d.variance) := fun d hd => by obtain ⟨a, v, s, k, -, h1, -⟩ := P.ok d hd; rw [h1]; rfl
  have hall : ∀ d ∈ m.ds, MeanVar (avg d) (real d.mean) (real d.variance) ∧ 0 < real d.variance ∧ d.skewness = .num (real d.skewness) ∧ d.kurtosis = .num (real d.kurtosis) ∧
      Skew (avg d) (real d.mean) (real d.variance) (real d.skewness) ∧ Kurt (avg d) (real d.mean) (real d.variance) (real d.kurtosis) := fun d hd => by
    obtain ⟨a, v, s, k, h1, h2, h3, h4, h5, h6, h7, h8⟩ := P.ok d hd
    rw [h1, h2, h5, h6]; exact ⟨h3, h4, rfl, rfl, h7, h8⟩
  have hv : 0 < m.A fun d => real d.variance + (real d.mean - m.A fun d => real d.mean) ^ 2 :=
    Mix.A_pos G fun d hd => add_pos_of_pos_of_nonneg (hall d hd).2.1 (sq_nonneg _)
  generalize (m.A fun d => real d.mean) = c at *
  generalize (m.A fun d => real d.variance + (real d.mean - c) ^ 2) = V at *
  have hdiff : ∀ d ∈ m.ds, subD d.mean m.mean = .num (real d.mean - c) := fun d hd => by
    have h : ∀ a : ℝ, d.mean = .num a → subD d.mean m.mean = .num (a - c) := fun a ha => by
      rw [ha, e1]
      show Dbl.num (a + -1 * c) = _
      congr 1
      ring
    exact h _ (hmean d hd)
  have hp15 : ∀ d ∈ m.ds, pow15D d.variance = .num (real d.variance * Real.sqrt (real d.variance)) := fun d hd => by
    have h0 := (hall d hd).2.1
    rw [hvar d hd]
    simp only [pow15D, if_pos h0.le, rpow15 h0.le]
    rfl
  have hV15 : pow15D m.variance = .num (V * Real.sqrt V) := by rw [e2]; simp only [pow15D, if_pos hv.le, rpow15 hv.le]
  have hVne : V * Real.sqrt V ≠ 0 := by positivity
  have hsk : (m.avg fun d => addD (addD (powD 3 (subD d.mean m.mean)) (mulD (scaleD 3 (subD d.mean m.mean)) d.variance)) (mulD d.skewness (pow15D d.variance))) =
      .num (m.A fun d => (real d.mean - c) ^ 3 + 3 * (real d.mean - c) * real d.variance + real d.skewness * (real d.variance * Real.sqrt (real d.variance))) :=
    Mix.avg_num G fun d hd => by
      rw [hdiff d hd, hp15 d hd, hvar d hd, (hall d hd).2.2.1]; rfl
  have hku : (m.avg fun d => addD (addD (addD (powD 4 (subD d.mean m.mean)) (mulD (scaleD 6 (powD 2 (subD d.mean m.mean))) d.variance))
          (mulD (mulD (scaleD 4 (subD d.mean m.mean)) d.skewness) (pow15D d.variance)))
        (mulD (addD d.kurtosis (.num 3)) (powD 2 d.variance))) =
      .num (m.A fun d => (real d.mean - c) ^ 4 + 6 * (real d.mean - c) ^ 2 * real d.variance +
        4 * (real d.mean - c) * (real d.skewness * (real d.variance * Real.sqrt (real d.variance))) + (real d.kurtosis + 3) * real d.variance ^ 2) :=
    Mix.avg_num G fun d hd => by
      rw [hdiff d hd, hp15 d hd, hvar d hd, (hall d hd).2.2.1, (hall d hd).2.2.2.1]
      show Dbl.num _ = _
      congr 1
      show _ + 4 * (real d.mean - c) * real d.skewness * (real d.variance * Real.sqrt (real d.variance)) + _ = _
      simp only [real]
      ring
  have hS := hM (fun x => (x - c) ^ 3) (fun d => (real d.mean - c) ^ 3 + 3 * (real d.mean - c) * real d.variance + real d.skewness * (real d.variance * Real.sqrt (real d.variance))) (fun p hp => shift3 (P.lin _ (G.parts_mem p hp)) (hall p.2 (G.parts_mem p hp)).1 (hall p.2 (G.parts_mem p hp)).2.2.2.2.1 c)
  have hK := hM (fun x => (x - c) ^ 4) (fun d => (real d.mean - c) ^ 4 + 6 * (real d.mean - c) ^ 2 * real d.variance +
    4 * (real d.mean - c) * (real d.skewness * (real d.variance * Real.sqrt (real d.variance))) + (real d.kurtosis + 3) * real d.variance ^ 2) (fun p hp => shift4 (P.lin _ (G.parts_mem p hp)) (hall p.2 (G.parts_mem p hp)).1 (hall p.2 (G.parts_mem p hp)).2.2.2.2.1 (hall p.2 (G.parts_mem p hp)).2.2.2.2.2 c)
  generalize (m.A fun d => (real d.mean - c) ^ 3 + 3 * (real d.mean - c) * real d.variance + real d.skewness * (real d.variance * Real.sqrt (real d.variance))) = T at *
  generalize (m.A fun d => (real d.mean - c) ^ 4 + 6 * (real d.mean - c) ^ 2 * real d.variance +
    4 * (real d.mean - c) * (real d.skewness * (real d.variance * Real.sqrt (real d.variance))) + (real d.kurtosis + 3) * real d.variance ^ 2) = Q at *
  refine ⟨c, V, T / (V * Real.sqrt V), Q / V ^ 2 + -1 * 3, ?_, hv, M, ?_, ?_⟩
  · unfold Mix.moments4 Mix.skewness Mix.kurtosis
    dsimp only
    rw [e1] at hsk hku ⊢
    rw [hsk, hku, hV15, divD_num hVne, e2]
    show (Dbl.num c, Dbl.num V, _, subD (divD (Dbl.num _) (Dbl.num (V ^ 2))) _) = _
    rw [divD_num (by positivity)]
    rfl
  · show avgM _ _
    rw [div_mul_cancel₀ _ hVne]
    exact hS
  · show avgM _ _
    have : (V ^ 2) ≠ 0 := by positivity
    have e : ∀ q : ℝ, (q / V ^ 2 + -1 * 3 + 3) * V ^ 2 = q := fun q => by field_simp; ring
    rw [e]
    exact hK

end Di
end LDT
