import Verif.Props.Roc
/-!
# C41 (pessimistic area) and C42 (partial area)
-/
namespace LDT
namespace Roc
open Arr

variable {K : Type} [Field K] [LinearOrder K] [IsStrictOrderedRing K]

/-! ## C41 -/

/-- The two loops side by side. -/
theorem pess_fold (eps : K) (ms : List (Move K)) (hms : ∀ m ∈ ms, 0 ≤ m.h ∧ 0 ≤ m.v) (a b : St K)
    (h : a.thPre = b.thPre ∧ a.sumFP = b.sumFP ∧ a.sumTP = b.sumTP ∧ a.horiz = b.horiz ∧ a.verti = b.verti)
    (hn : 0 ≤ b.horiz ∧ 0 ≤ b.verti ∧ 0 ≤ b.sumTP)
    (hs : (scan a.points).1 = a.sumFP ∧ (scan a.points).2.1 = a.sumTP)
    (hs' : (scan b.points).1 = b.sumFP ∧ (scan b.points).2.1 = b.sumTP)
    (ho : (∃ l, a.points = (0, 0) :: l) ∧ (∃ l, b.points = (0, 0) :: l))
    (hle : (scan a.points).2.2 ≤ (scan b.points).2.2) :
    let a' := ms.foldl (step eps true) a
    let b' := ms.foldl (step eps false) b
    (a'.thPre = b'.thPre ∧ a'.sumFP = b'.sumFP ∧ a'.sumTP = b'.sumTP ∧ a'.horiz = b'.horiz ∧ a'.verti = b'.verti) ∧
      ((scan a'.points).1 = a'.sumFP ∧ (scan a'.points).2.1 = a'.sumTP) ∧
      ((scan b'.points).1 = b'.sumFP ∧ (scan b'.points).2.1 = b'.sumTP) ∧
      ((∃ l, a'.points = (0, 0) :: l) ∧ (∃ l, b'.points = (0, 0) :: l)) ∧
      (scan a'.points).2.2 ≤ (scan b'.points).2.2 := by
  induction ms generalizing a b with
  | nil => exact ⟨h, hs, hs', ho, hle⟩
  | cons m ms ih =>
    simp only [List.foldl_cons]
    obtain ⟨h1, h2, h3, h4, h5⟩ := h
    obtain ⟨n1, n2, n3⟩ := hn
    obtain ⟨m1, m2⟩ := hms m (by simp)
    obtain ⟨⟨la, hla⟩, lb, hlb⟩ := ho
    by_cases hc : |m.s - b.thPre| > eps
    · have hca : |m.s - a.thPre| > eps := by rw [h1]; exact hc
      apply ih (fun x hx => hms x (List.mem_cons_of_mem _ hx)) <;>
        simp only [step, if_pos hc, if_pos hca, Bool.false_eq_true, if_false, if_true]
      · exact ⟨trivial, by rw [h2, h4], by rw [h3, h5], trivial, trivial⟩
      · exact ⟨by linarith, by linarith, by linarith⟩
      · rw [scan_append, scan_append]; exact ⟨rfl, rfl⟩
      · rw [scan_append]; exact ⟨rfl, rfl⟩
      · exact ⟨⟨_, by rw [hla]; rfl⟩, ⟨_, by rw [hlb]; rfl⟩⟩
      · rw [scan_append, scan_append, scan_append]
        simp only [aucStep, hs.1, hs.2, hs'.1, hs'.2, h2, h3, h4, h5]
        have hb2 : 0 ≤ b.horiz * b.verti := mul_nonneg n1 n2
        have hb3 : 0 ≤ b.horiz * b.sumTP := mul_nonneg n1 n3
        nlinarith
    · have hca : ¬ |m.s - a.thPre| > eps := by rw [h1]; exact hc
      apply ih (fun x hx => hms x (List.mem_cons_of_mem _ hx)) <;>
        simp only [step, if_neg hc, if_neg hca]
      · exact ⟨h1, h2, h3, by rw [h4], by rw [h5]⟩
      · exact ⟨by linarith, by linarith, n3⟩
      · exact hs
      · exact hs'
      · exact ⟨⟨la, hla⟩, lb, hlb⟩
      · exact hle

/-- **C41** (partial): the pessimistic area never exceeds the ordinary one (same data, non-negative weights).
Missing: it is not the area with ties counted as losses, see `C41_violated_perfect`. -/
theorem C41_below_ordinary_partial (o : Options K) (hb : o.lower = none ∨ o.upper = none) (obs : List (Obs K))
    (hw : ∀ a ∈ obs, 0 ≤ a.w) (r : K) (pts : List (K × K))
    (h : calculate { o with pessimistic := true } obs = .ok (some r, pts)) :
    ∃ r' pts', calculate { o with pessimistic := false } obs = .ok (some r', pts') ∧ r ≤ r' := by
  classical
  rw [calculate_cases, boundsOf_none { o with pessimistic := true } hb] at h
  rw [calculate_cases, boundsOf_none { o with pessimistic := false } hb]
  simp only at h ⊢
  split_ifs at h ⊢ with h1 h2
  have hms : ∀ m ∈ (sortObs obs).map (anyMove o.cost), 0 ≤ m.h ∧ 0 ≤ m.v := by
    intro m hm
    obtain ⟨a, ha, rfl⟩ := List.mem_map.1 hm
    have ha' := (sortObs_perm obs).mem_iff.1 ha
    exact anyMove_nonneg o.cost a (hw a ha') (fun h => h2 ⟨a, ha', h⟩)
  obtain ⟨r1, r2, r3, r4⟩ := curve_range o.epsilon true _ (((sortObs obs).head?.map (·.score)).getD 0) hms
  have key : ∀ th, (curve o.epsilon true ((sortObs obs).map (anyMove o.cost)) th).2 =
        (curve o.epsilon false ((sortObs obs).map (anyMove o.cost)) th).2 ∧
      aucPoints (curve o.epsilon true ((sortObs obs).map (anyMove o.cost)) th).1 0 ≤
        aucPoints (curve o.epsilon false ((sortObs obs).map (anyMove o.cost)) th).1 0 := by
    intro th
    have hf := pess_fold o.epsilon _ hms (⟨[(0, 0)], th, 0, 0, 0, 0⟩ : St K) ⟨[(0, 0)], th, 0, 0, 0, 0⟩
      ⟨rfl, rfl, rfl, rfl, rfl⟩ ⟨le_refl _, le_refl _, le_refl _⟩ (by simp [scan, aucStep]) (by simp [scan, aucStep])
      ⟨⟨[], rfl⟩, [], rfl⟩ (le_refl _)
    unfold curve
    generalize List.foldl (step o.epsilon true) ⟨[(0, 0)], th, 0, 0, 0, 0⟩ _ = a at hf ⊢
    generalize List.foldl (step o.epsilon false) ⟨[(0, 0)], th, 0, 0, 0, 0⟩ _ = b at hf ⊢
    obtain ⟨⟨g1, g2, g3, g4, g5⟩, g6, g7, ⟨⟨la, hla⟩, lb, hlb⟩, g8⟩ := hf
    simp only
    refine ⟨by rw [g2, g3, g4, g5], ?_⟩
    rw [hla, hlb, List.cons_append, List.cons_append, aucPoints_origin, aucPoints_origin, ← List.cons_append,
      ← List.cons_append, ← hla, ← hlb, scan_append, scan_append]
    simp only [aucStep, g6.1, g6.2, g7.1, g7.2, g2, g3, g4, g5]
    linarith
  obtain ⟨k1, k2⟩ := key (((sortObs obs).head?.map (·.score)).getD 0)
  generalize curve o.epsilon true _ _ = c at h r1 r2 r3 r4 k1 k2
  generalize curve o.epsilon false _ _ = d at k1 k2 ⊢
  simp only [Outcome.ok.injEq] at h ⊢
  unfold finish at h ⊢
  rw [← k1]
  cases hn : o.normalizePoints with
  | true =>
    rw [hn] at h
    simp only [if_true] at h ⊢
    split_ifs at h ⊢ with hz
    · exact absurd (Prod.mk.inj h).1 (by simp)
    · have h3 := Option.some.inj (Prod.mk.inj h).1
      refine ⟨_, _, rfl, ?_⟩
      rw [← h3, aucPoints_scale, aucPoints_scale]
      exact div_le_div_of_nonneg_right k2 (mul_nonneg r3 r4)
  | false =>
    rw [hn] at h
    simp only [Bool.false_eq_true, if_false, vdiv] at h ⊢
    split_ifs at h ⊢ with hz
    · exact absurd (Prod.mk.inj h).1 (by simp)
    · have h3 := Option.some.inj (Prod.mk.inj h).1
      refine ⟨_, _, rfl, ?_⟩
      rw [← h3]
      exact div_le_div_of_nonneg_right k2 (mul_nonneg r3 r4)

/-- C41 fails without any ties: a perfect ranking (one positive before two negatives, all scores different) has
pessimistic area 1 by definition, the code reports 3/4. -/
theorem C41_violated_perfect :
    let obs : List (Obs Rat) := [⟨1, 1/10, 1, 1⟩, ⟨0, 1/2, 1, 1⟩, ⟨0, 9/10, 1, 1⟩]
    rankProbPessimistic (positives obs) (negatives obs) = 1 ∧
      ∃ pts, calculate (K := Rat) { epsilon := 0, pessimistic := true } obs = .ok (some (3/4), pts) :=
  ⟨by decide +kernel, [(0, 0), (0, 0), (0, 1), (1/2, 0), (1/2, 1), (1, 1)], by decide +kernel⟩

/-- The last group of ties is counted as half-wins: everything tied has pessimistic area 0, the code reports 1/2. -/
theorem C41_violated_last_group :
    let obs : List (Obs Rat) := [⟨1, 1/2, 1, 1⟩, ⟨0, 1/2, 1, 1⟩]
    rankProbPessimistic (positives obs) (negatives obs) = 0 ∧
      ∃ pts, calculate (K := Rat) { epsilon := 0, pessimistic := true } obs = .ok (some (1/2), pts) :=
  ⟨by decide +kernel, [(0, 0), (1, 1)], by decide +kernel⟩

/-! ## C42 -/

theorem segLeft_eq_zero (t : K) (p q : K × K) (h : t ≤ p.1) (hpq : p.1 ≤ q.1) : segLeft t p q = 0 := by
  unfold segLeft
  rw [min_eq_right (h.trans hpq), max_eq_left h]; simp

theorem segLeft_full (t : K) (p q : K × K) (h : q.1 ≤ t) (hpq : p.1 ≤ q.1) :
    segLeft t p q = (q.1 - p.1) * (p.2 + (q.2 - p.2) / 2) := by
  unfold segLeft
  rw [min_eq_left h, max_eq_right hpq]
  rcases eq_or_lt_of_le hpq with h' | h'
  · rw [h']; simp
  · have : q.1 - p.1 ≠ 0 := sub_ne_zero.2 h'.ne'
    simp only; field_simp

theorem segLeft_mid (t : K) (p q : K × K) (h1 : p.1 ≤ t) (h2 : t ≤ q.1) :
    segLeft t p q = (t - p.1) * (p.2 + (t - p.1) * ((q.2 - p.2) / (q.1 - p.1)) / 2) := by
  unfold segLeft
  rw [min_eq_right h2, max_eq_right h1]

/-- Loop invariant of the clipping loop. -/
def ClipInv (lo up : K) (a : K × K × List (K × K)) (S : K) : Prop :=
  (a.1 < lo ∧ a.2.2 = [] ∧ S = 0) ∨
  (lo ≤ a.1 ∧ a.1 ≤ up ∧ ∃ q l, a.2.2 = q :: l ∧ l.foldl (aucStep 0) (q.1, q.2, 0) = (a.1, a.2.1, S)) ∨
  (up < a.1 ∧ aucPoints a.2.2 0 = S)

theorem clip_step_inv (lo up : K) (hlu : lo ≤ up) (a : K × K × List (K × K)) (S : K) (p : K × K)
    (h : ClipInv lo up a S) (hx : a.1 ≤ p.1) :
    ClipInv lo up (clipStep lo up a p)
      (S + (segLeft up (a.1, a.2.1) p - segLeft lo (a.1, a.2.1) p)) := by
  obtain ⟨x0, y0, new⟩ := a
  obtain ⟨x, y⟩ := p
  simp only at hx
  have hd : x0 < x → x - x0 ≠ 0 := fun h => sub_ne_zero.2 h.ne'
  rcases h with ⟨h1, h2, h3⟩ | ⟨h1, h2, q, l, h3, h4⟩ | ⟨h1, h2⟩
  · simp only at h1 h2
    subst h2 h3
    rcases lt_trichotomy x lo with hlo | hlo | hlo
    · -- still left of the interval
      left
      have c1 : ¬ (x ≥ lo ∧ x0 ≤ up) := fun h => absurd hlo (not_lt.2 h.1)
      refine ⟨hlo, by simp only [clipStep, if_neg c1], ?_⟩
      rw [segLeft_full up _ _ (hlo.le.trans hlu) hx, segLeft_full lo _ _ hlo.le hx]; ring
    · right; left
      subst hlo
      have c1 : (x ≥ x ∧ x0 ≤ up) := ⟨le_refl _, h1.le.trans hlu⟩
      have c2 : ¬ (x > x ∧ x0 < x) := fun h => absurd h.1 (lt_irrefl _)
      have c3 : (x ≥ x ∧ x ≤ up) := ⟨le_refl _, hlu⟩
      have c4 : ¬ (x > up ∧ x0 < up) := fun h => absurd h.1 (not_lt.2 hlu)
      refine ⟨le_refl _, hlu, (x, y), [], by simp only [clipStep, if_pos c1, if_neg c2, if_pos c3, if_neg c4]; rfl, ?_⟩
      rw [segLeft_full up _ _ hlu hx, segLeft_full x _ _ (le_refl _) hx]
      simp [clipStep]
    · rcases le_or_gt x up with hup | hup
      · right; left
        have c1 : (x ≥ lo ∧ x0 ≤ up) := ⟨hlo.le, h1.le.trans hlu⟩
        have c2 : (x > lo ∧ x0 < lo) := ⟨hlo, h1⟩
        have c3 : (x ≥ lo ∧ x ≤ up) := ⟨hlo.le, hup⟩
        have c4 : ¬ (x > up ∧ x0 < up) := fun h => absurd h.1 (not_lt.2 hup)
        refine ⟨hlo.le, hup, (lo, y0 + (lo - x0) * ((y - y0) / (x - x0))), [(x, y)],
          by simp only [clipStep, if_pos c1, if_pos c2, if_pos c3, if_neg c4]; rfl, ?_⟩
        rw [segLeft_full up _ _ hup hx, segLeft_mid lo _ _ h1.le hlo.le]
        simp only [clipStep, List.foldl_cons, List.foldl_nil, aucStep]
        refine Prod.ext rfl (Prod.ext rfl ?_)
        have := hd (h1.trans hlo)
        simp only; field_simp; ring
      · right; right
        have c1 : (x ≥ lo ∧ x0 ≤ up) := ⟨hlo.le, h1.le.trans hlu⟩
        have c2 : (x > lo ∧ x0 < lo) := ⟨hlo, h1⟩
        have c3 : ¬ (x ≥ lo ∧ x ≤ up) := fun h => absurd hup (not_lt.2 h.2)
        have c4 : (x > up ∧ x0 < up) := ⟨hup, lt_of_lt_of_le h1 hlu⟩
        refine ⟨hup, ?_⟩
        simp only [clipStep, if_pos c1, if_pos c2, if_neg c3, if_pos c4]
        rw [segLeft_mid up _ _ (h1.le.trans hlu) hup.le, segLeft_mid lo _ _ h1.le hlo.le]
        simp only [List.nil_append, List.cons_append, aucPoints_cons, List.foldl_cons, List.foldl_nil, aucStep]
        have := hd (h1.trans hlo)
        field_simp; ring
  · simp only at h1 h2 h3 h4
    subst h3
    rcases le_or_gt x up with hup | hup
    · right; left
      have c1 : (x ≥ lo ∧ x0 ≤ up) := ⟨h1.trans hx, h2⟩
      have c2 : ¬ (x > lo ∧ x0 < lo) := fun h => absurd h.2 (not_lt.2 h1)
      have c3 : (x ≥ lo ∧ x ≤ up) := ⟨h1.trans hx, hup⟩
      have c4 : ¬ (x > up ∧ x0 < up) := fun h => absurd h.1 (not_lt.2 hup)
      refine ⟨h1.trans hx, hup, q, l ++ [(x, y)],
        by simp only [clipStep, if_pos c1, if_neg c2, if_pos c3, if_neg c4]; rfl, ?_⟩
      rw [List.foldl_append, h4, segLeft_full up _ _ hup hx, segLeft_eq_zero lo _ _ h1 hx]
      simp only [clipStep, List.foldl_cons, List.foldl_nil, aucStep]
      refine Prod.ext rfl (Prod.ext rfl ?_)
      simp only; ring
    · right; right
      refine ⟨hup, ?_⟩
      have c1 : (x ≥ lo ∧ x0 ≤ up) := ⟨h1.trans hx, h2⟩
      have c2 : ¬ (x > lo ∧ x0 < lo) := fun h => absurd h.2 (not_lt.2 h1)
      have c3 : ¬ (x ≥ lo ∧ x ≤ up) := fun h => absurd hup (not_lt.2 h.2)
      rw [segLeft_mid up _ _ h2 hup.le, segLeft_eq_zero lo _ _ h1 hx]
      rcases eq_or_lt_of_le h2 with he | hlt
      · have c4 : ¬ (x > up ∧ x0 < up) := fun h => absurd h.2 (by rw [he]; exact lt_irrefl _)
        simp only [clipStep, if_pos c1, if_neg c2, if_neg c3, if_neg c4]
        rw [aucPoints_cons, h4, he]; simp
      · have c4 : (x > up ∧ x0 < up) := ⟨hup, hlt⟩
        simp only [clipStep, if_pos c1, if_neg c2, if_neg c3, if_pos c4]
        rw [List.cons_append, aucPoints_cons, List.foldl_append, h4]
        simp only [List.foldl_cons, List.foldl_nil, aucStep]
        have := hd (hlt.trans hup)
        field_simp; ring
  · right; right
    simp only at h1 h2
    have c1 : ¬ (x ≥ lo ∧ x0 ≤ up) := fun h => absurd h1 (not_lt.2 h.2)
    refine ⟨lt_of_lt_of_le h1 hx, ?_⟩
    simp only [clipStep, if_neg c1]
    rw [h2, segLeft_eq_zero up _ _ h1.le hx, segLeft_eq_zero lo _ _ (hlu.trans h1.le) hx]; ring

theorem clip_fold_inv (lo up : K) (hlu : lo ≤ up) (l : List (K × K)) (a : K × K × List (K × K)) (S : K)
    (h : ClipInv lo up a S) (hx : ((a.1, a.2.1) :: l).Pairwise fun p q => p.1 ≤ q.1) :
    ClipInv lo up (l.foldl (clipStep lo up) a)
      (S + (areaLeft up ((a.1, a.2.1) :: l) - areaLeft lo ((a.1, a.2.1) :: l))) := by
  induction l generalizing a S with
  | nil => simpa [areaLeft] using h
  | cons p l ih =>
    rw [List.pairwise_cons] at hx
    have h1 := clip_step_inv lo up hlu a S p h (hx.1 p (by simp))
    have h2 := ih (clipStep lo up a p) _ h1 (by simpa [clipStep] using hx.2)
    rw [List.foldl_cons]
    convert h2 using 1
    simp only [areaLeft, clipStep]
    ring

omit [IsStrictOrderedRing K] in
theorem clipInv_area (lo up : K) (a : K × K × List (K × K)) (S : K) (h : ClipInv lo up a S) :
    aucPoints a.2.2 0 = S := by
  rcases h with ⟨_, h2, h3⟩ | ⟨_, _, q, l, h3, h4⟩ | ⟨_, h⟩
  · rw [h2, h3]; rfl
  · rw [h3, aucPoints_cons, h4]
  · exact h

/-- The clipped points span the area of the curve between the thresholds. -/
theorem clip_area (lo up : K) (h0 : 0 ≤ lo) (hlu : lo ≤ up) (l : List (K × K))
    (hx : ((0, 0) :: l).Pairwise fun p q : K × K => p.1 ≤ q.1) :
    aucPoints (clip lo up ((0, 0) :: l)) 0 = areaLeft up ((0, 0) :: l) - areaLeft lo ((0, 0) :: l) := by
  unfold clip
  rw [List.foldl_cons]
  have hinit : ClipInv lo up (clipStep lo up (0, 0, []) (0, 0)) 0 := by
    rcases eq_or_lt_of_le h0 with h | h
    · subst h
      right; left
      refine ⟨le_refl _, hlu, (0, 0), [], ?_, rfl⟩
      simp [clipStep, hlu, not_lt.2 hlu]
    · left
      refine ⟨h, ?_, rfl⟩
      simp [clipStep, not_le.2 h]
  have := clipInv_area _ _ _ _ (clip_fold_inv lo up hlu l _ 0 hinit (by simpa [clipStep] using hx))
  simpa [clipStep] using this

/-- Shape of the curve: starts at the origin, moves right, stays in the rectangle. -/
theorem fold_shape (eps : K) (pess : Bool) (ms : List (Move K)) (hms : ∀ m ∈ ms, 0 ≤ m.h ∧ 0 ≤ m.v) (st : St K)
    (h : (∃ l, st.points = (0, 0) :: l) ∧ st.points.Pairwise (fun p q => p.1 ≤ q.1) ∧
      (∀ p ∈ st.points, 0 ≤ p.1 ∧ p.1 ≤ st.sumFP ∧ 0 ≤ p.2 ∧ p.2 ≤ st.sumTP) ∧ 0 ≤ st.horiz ∧ 0 ≤ st.verti) :
    let st' := ms.foldl (step eps pess) st
    (∃ l, st'.points = (0, 0) :: l) ∧ st'.points.Pairwise (fun p q => p.1 ≤ q.1) ∧
      (∀ p ∈ st'.points, 0 ≤ p.1 ∧ p.1 ≤ st'.sumFP ∧ 0 ≤ p.2 ∧ p.2 ≤ st'.sumTP) ∧ 0 ≤ st'.horiz ∧ 0 ≤ st'.verti := by
  induction ms generalizing st with
  | nil => exact h
  | cons m ms ih =>
    rw [List.foldl_cons]
    apply ih (fun x hx => hms x (List.mem_cons_of_mem _ hx))
    obtain ⟨m1, m2⟩ := hms m (by simp)
    obtain ⟨⟨l, hl⟩, h2, h3, h4, h5⟩ := h
    unfold step
    by_cases hc : |m.s - st.thPre| > eps
    · have hz := h3 (0, 0) (by rw [hl]; simp)
      simp only [if_pos hc]
      have hfp : 0 ≤ st.sumFP := hz.2.1
      have htp : 0 ≤ st.sumTP := hz.2.2.2
      cases pess with
      | true =>
        simp only [if_true]
        refine ⟨⟨_, by rw [hl]; rfl⟩, ?_, ?_, by linarith, by linarith⟩
        · rw [List.pairwise_append, List.pairwise_append]
          refine ⟨⟨h2, by simp, ?_⟩, by simp, ?_⟩
          · intro p hp q hq; simp only [List.mem_singleton] at hq; subst hq; have := (h3 p hp).2.1; simp only; linarith
          · intro p hp q hq
            simp only [List.mem_singleton] at hq; subst hq
            rcases List.mem_append.1 hp with hp | hp
            · have := (h3 p hp).2.1; simp only; linarith
            · simp only [List.mem_singleton] at hp; subst hp; exact le_refl _
        · intro p hp
          rcases List.mem_append.1 hp with hp | hp
          · rcases List.mem_append.1 hp with hp | hp
            · obtain ⟨a1, a2, a3, a4⟩ := h3 p hp
              exact ⟨a1, by linarith, a3, by linarith⟩
            · simp only [List.mem_singleton] at hp; subst hp
              exact ⟨by simp only; linarith, by simp only; linarith, by simp, by simp only; linarith⟩
          · simp only [List.mem_singleton] at hp; subst hp
            exact ⟨by simp only; linarith, by simp only; linarith, by simp only; linarith, by simp only; linarith⟩
      | false =>
        simp only [Bool.false_eq_true, if_false]
        refine ⟨⟨_, by rw [hl]; rfl⟩, ?_, ?_, by linarith, by linarith⟩
        · rw [List.pairwise_append]
          refine ⟨h2, by simp, ?_⟩
          intro p hp q hq; simp only [List.mem_singleton] at hq; subst hq; have := (h3 p hp).2.1; simp only; linarith
        · intro p hp
          rcases List.mem_append.1 hp with hp | hp
          · obtain ⟨a1, a2, a3, a4⟩ := h3 p hp
            exact ⟨a1, by linarith, a3, by linarith⟩
          · simp only [List.mem_singleton] at hp; subst hp
            exact ⟨by simp only; linarith, by simp only; linarith, by simp only; linarith, by simp only; linarith⟩
    · simp only [if_neg hc]
      exact ⟨⟨l, hl⟩, h2, h3, by linarith, by linarith⟩

/-- Shape of the finished curve. -/
theorem curve_shape (eps : K) (pess : Bool) (ms : List (Move K)) (hms : ∀ m ∈ ms, 0 ≤ m.h ∧ 0 ≤ m.v) (th : K) :
    let c := curve eps pess ms th
    (∃ l, c.1 = (0, 0) :: l) ∧ c.1.Pairwise (fun p q => p.1 ≤ q.1) ∧
      (∀ p ∈ c.1, 0 ≤ p.1 ∧ p.1 ≤ c.2.1 ∧ 0 ≤ p.2 ∧ p.2 ≤ c.2.2) ∧ 0 ≤ c.2.1 ∧ 0 ≤ c.2.2 := by
  have h := fold_shape eps pess ms hms (⟨[(0, 0)], th, 0, 0, 0, 0⟩ : St K)
    ⟨⟨[], rfl⟩, by simp, by simp, le_refl _, le_refl _⟩
  unfold curve
  generalize List.foldl (step eps pess) ⟨[(0, 0)], th, 0, 0, 0, 0⟩ ms = st at h ⊢
  obtain ⟨⟨l, hl⟩, h2, h3, h4, h5⟩ := h
  have hz := h3 (0, 0) (by rw [hl]; simp)
  have hfp : 0 ≤ st.sumFP := hz.2.1
  have htp : 0 ≤ st.sumTP := hz.2.2.2
  simp only
  refine ⟨⟨_, by rw [hl]; rfl⟩, ?_, ?_, by linarith, by linarith⟩
  · rw [List.pairwise_append]
    refine ⟨h2, by simp, ?_⟩
    intro p hp q hq; simp only [List.mem_singleton] at hq; subst hq; have := (h3 p hp).2.1; simp only; linarith
  · intro p hp
    rcases List.mem_append.1 hp with hp | hp
    · obtain ⟨a1, a2, a3, a4⟩ := h3 p hp
      exact ⟨a1, by linarith, a3, by linarith⟩
    · simp only [List.mem_singleton] at hp; subst hp
      exact ⟨by simp only; linarith, by simp only; linarith, by simp only; linarith, by simp only; linarith⟩

/-- What a call with thresholds returns. -/
theorem calculate_bounds (o : Options K) (lo up : K) (hl : o.lower = some lo) (hu : o.upper = some up)
    (obs : List (Obs K)) (hw : ∀ a ∈ obs, 0 ≤ a.w) (r : K) (pts : List (K × K))
    (h : calculate o obs = .ok (some r, pts)) :
    0 ≤ lo ∧ lo < up ∧ up ≤ 1 ∧ (∃ l, pts = (0, 0) :: l) ∧ pts.Pairwise (fun p q => p.1 ≤ q.1) ∧
      (∀ p ∈ pts, 0 ≤ p.1 ∧ p.1 ≤ 1 ∧ 0 ≤ p.2 ∧ p.2 ≤ 1) ∧
      r * (up - lo) = areaLeft up pts - areaLeft lo pts := by
  classical
  have hb : boundsOf o = some (lo, up) := by unfold boundsOf; rw [hl, hu]
  rw [calculate_cases, hb] at h
  simp only at h
  split_ifs at h with h0 h1 h2
  rw [not_or, not_or, not_lt, not_lt, not_lt] at h0
  have hms : ∀ m ∈ (sortObs obs).map (anyMove o.cost), 0 ≤ m.h ∧ 0 ≤ m.v := by
    intro m hm
    obtain ⟨a, ha, rfl⟩ := List.mem_map.1 hm
    have ha' := (sortObs_perm obs).mem_iff.1 ha
    exact anyMove_nonneg o.cost a (hw a ha') (fun h => h2 ⟨a, ha', h⟩)
  obtain ⟨⟨l, s1⟩, s2, s3, s4, s5⟩ := curve_shape o.epsilon o.pessimistic _ hms
    (((sortObs obs).head?.map (·.score)).getD 0)
  generalize curve o.epsilon o.pessimistic _ _ = c at h s1 s2 s3 s4 s5
  simp only [Outcome.ok.injEq, finish, if_true] at h
  split_ifs at h with hz
  · exact absurd (Prod.mk.inj h).1 (by simp)
  rw [not_or] at hz
  have p1 : 0 < c.2.1 := lt_of_le_of_ne s4 (Ne.symm hz.1)
  have p2 : 0 < c.2.2 := lt_of_le_of_ne s5 (Ne.symm hz.2)
  obtain ⟨h3, h4⟩ := Prod.mk.inj h
  unfold vdiv at h3
  split_ifs at h3 with hlu
  have h3 := Option.some.inj h3
  have hne : up ≠ lo := fun e => hlu (sub_eq_zero.2 e)
  have hlt : lo < up := lt_of_le_of_ne h0.1 hne.symm
  have e1 : pts = (0, 0) :: l.map fun p => (p.1 / c.2.1, p.2 / c.2.2) := by
    rw [← h4, s1]; simp
  have e2 : pts.Pairwise (fun p q => p.1 ≤ q.1) := by
    rw [← h4, List.pairwise_map]
    exact s2.imp (fun h => div_le_div_of_nonneg_right h p1.le)
  refine ⟨h0.2.2, hlt, h0.2.1, ⟨_, e1⟩, e2, ?_, ?_⟩
  · intro p hp
    rw [← h4] at hp
    obtain ⟨q, hq, rfl⟩ := List.mem_map.1 hp
    obtain ⟨q1, q2, q3, q4⟩ := s3 q hq
    exact ⟨div_nonneg q1 p1.le, (div_le_one p1).2 q2, div_nonneg q3 p2.le, (div_le_one p2).2 q4⟩
  · rw [← h3, h4, e1, clip_area lo up h0.2.2 h0.1 _ (by rw [← e1]; exact e2)]
    rw [div_mul_cancel₀ _ hlu]

/-- **C42**: the partial area times the length of the interval is the area under the reported curve between the two
thresholds, and the thresholds satisfy `0 ≤ lower < upper ≤ 1`. -/
theorem C42_area_between (o : Options K) (lo up : K) (hl : o.lower = some lo) (hu : o.upper = some up)
    (obs : List (Obs K)) (hw : ∀ a ∈ obs, 0 ≤ a.w) (r : K) (pts : List (K × K))
    (h : calculate o obs = .ok (some r, pts)) :
    0 ≤ lo ∧ lo < up ∧ up ≤ 1 ∧ r * (up - lo) = areaLeft up pts - areaLeft lo pts := by
  obtain ⟨a, b, c, _, _, _, d⟩ := calculate_bounds o lo up hl hu obs hw r pts h
  exact ⟨a, b, c, d⟩

/-- The points of a call with thresholds do not depend on the thresholds. -/
theorem points_indep (o o' : Options K) (lo up lo' up' : K) (hl : o.lower = some lo) (hu : o.upper = some up)
    (ho : o' = { o with lower := some lo', upper := some up' }) (obs : List (Obs K))
    (r r' : K) (pts pts' : List (K × K)) (h : calculate o obs = .ok (some r, pts))
    (h' : calculate o' obs = .ok (some r', pts')) : pts = pts' := by
  classical
  have hb : boundsOf o = some (lo, up) := by unfold boundsOf; rw [hl, hu]
  have hb' : boundsOf o' = some (lo', up') := by subst ho; rfl
  rw [calculate_cases, hb] at h
  rw [calculate_cases, hb'] at h'
  subst ho
  simp only at h h'
  split_ifs at h h' with h0 h1 h2
  generalize curve o.epsilon o.pessimistic _ _ = c at h h'
  simp only [Outcome.ok.injEq, finish, if_true] at h h'
  split_ifs at h h' with hz
  · exact absurd (Prod.mk.inj h).1 (by simp)
  · rw [← (Prod.mk.inj h).2, ← (Prod.mk.inj h').2]

/-- **C42**: partial areas (times their lengths) over adjacent intervals add up. -/
theorem C42_additive (o : Options K) (a b c : K) (obs : List (Obs K)) (hw : ∀ x ∈ obs, 0 ≤ x.w)
    (r1 r2 r : K) (p1 p2 p : List (K × K))
    (h1 : calculate { o with lower := some a, upper := some b } obs = .ok (some r1, p1))
    (h2 : calculate { o with lower := some b, upper := some c } obs = .ok (some r2, p2))
    (h : calculate { o with lower := some a, upper := some c } obs = .ok (some r, p)) :
    r * (c - a) = r1 * (b - a) + r2 * (c - b) := by
  have e1 := points_indep _ _ a b a c rfl rfl rfl obs _ _ _ _ h1 h
  have e2 := points_indep _ _ b c a c rfl rfl rfl obs _ _ _ _ h2 h
  obtain ⟨_, _, _, d1⟩ := C42_area_between _ a b rfl rfl obs hw _ _ h1
  obtain ⟨_, _, _, d2⟩ := C42_area_between _ b c rfl rfl obs hw _ _ h2
  obtain ⟨_, _, _, d⟩ := C42_area_between _ a c rfl rfl obs hw _ _ h
  subst e1 e2
  rw [d, d1, d2]; ring

omit [IsStrictOrderedRing K] in
theorem clip_all (l : List (K × K)) (h : ∀ p ∈ l, 0 ≤ p.1 ∧ p.1 ≤ 1) (a : K × K × List (K × K))
    (ha : 0 ≤ a.1 ∧ a.1 ≤ 1) : (l.foldl (clipStep 0 1) a).2.2 = a.2.2 ++ l := by
  induction l generalizing a with
  | nil => simp
  | cons p l ih =>
    obtain ⟨h1, h2⟩ := h p (by simp)
    have c1 : (p.1 ≥ 0 ∧ a.1 ≤ 1) := ⟨h1, ha.2⟩
    have c2 : ¬ (p.1 > 0 ∧ a.1 < 0) := fun h => absurd h.2 (not_lt.2 ha.1)
    have c3 : (p.1 ≥ 0 ∧ p.1 ≤ 1) := ⟨h1, h2⟩
    have c4 : ¬ (p.1 > 1 ∧ a.1 < 1) := fun h => absurd h.1 (not_lt.2 h2)
    rw [List.foldl_cons, ih (fun q hq => h q (List.mem_cons_of_mem _ hq)) _ (by simpa [clipStep] using c3)]
    simp only [clipStep, if_pos c1, if_neg c2, if_pos c3, if_neg c4]
    simp

/-- **C42**: over the whole range the partial area is the ordinary (normalized) area. -/
theorem C42_full_range (o : Options K) (obs : List (Obs K)) (hw : ∀ a ∈ obs, 0 ≤ a.w) :
    calculate { o with lower := some 0, upper := some 1 } obs =
      calculate { o with lower := none, upper := none, normalizePoints := true } obs := by
  classical
  rw [calculate_cases, calculate_cases]
  have hb : boundsOf { o with lower := some (0 : K), upper := some 1 } = some (0, 1) := rfl
  have hb' : boundsOf { o with lower := (none : Val K), upper := none, normalizePoints := true } = none := rfl
  rw [hb, hb']
  simp only
  rw [if_neg (by simp [zero_le_one])]
  by_cases h1 : obs = []
  · rw [if_pos h1, if_pos h1]
  rw [if_neg h1, if_neg h1]
  by_cases h2 : ∃ a ∈ obs, moveOf o.cost a = .throws
  · rw [if_pos h2, if_pos h2]
  rw [if_neg h2, if_neg h2]
  have hms : ∀ m ∈ (sortObs obs).map (anyMove o.cost), 0 ≤ m.h ∧ 0 ≤ m.v := by
    intro m hm
    obtain ⟨a, ha, rfl⟩ := List.mem_map.1 hm
    have ha' := (sortObs_perm obs).mem_iff.1 ha
    exact anyMove_nonneg o.cost a (hw a ha') (fun h => h2 ⟨a, ha', h⟩)
  obtain ⟨_, _, s3, s4, s5⟩ := curve_shape o.epsilon o.pessimistic _ hms
    (((sortObs obs).head?.map (·.score)).getD 0)
  generalize curve o.epsilon o.pessimistic _ _ = c at s3 s4 s5
  unfold finish
  simp only [if_true]
  by_cases hz : c.2.1 = 0 ∨ c.2.2 = 0
  · rw [if_pos hz, if_pos hz]
  · rw [if_neg hz, if_neg hz]
    rw [not_or] at hz
    have p1 : 0 < c.2.1 := lt_of_le_of_ne s4 (Ne.symm hz.1)
    have e : clip 0 1 (c.1.map fun p => (p.1 / c.2.1, p.2 / c.2.2)) = c.1.map fun p => (p.1 / c.2.1, p.2 / c.2.2) := by
      unfold clip
      rw [clip_all _ _ _ ⟨le_refl _, zero_le_one⟩]
      · simp
      · intro p hp
        obtain ⟨q, hq, rfl⟩ := List.mem_map.1 hp
        obtain ⟨q1, q2, _, _⟩ := s3 q hq
        exact ⟨div_nonneg q1 p1.le, (div_le_one p1).2 q2⟩
    rw [e]
    simp [vdiv]

/-- A segment inside the strip `0 ≤ y ≤ 1` has between 0 and its length of area between two thresholds. -/
theorem seg_range (lo up : K) (hlu : lo ≤ up) (p q : K × K) (hpq : p.1 ≤ q.1) (hp : 0 ≤ p.2 ∧ p.2 ≤ 1)
    (hq : 0 ≤ q.2 ∧ q.2 ≤ 1) :
    0 ≤ segLeft up p q - segLeft lo p q ∧
      segLeft up p q - segLeft lo p q ≤ max p.1 (min q.1 up) - max p.1 (min q.1 lo) := by
  unfold segLeft
  simp only
  have hc : max p.1 (min q.1 lo) ≤ max p.1 (min q.1 up) := max_le_max (le_refl _) (min_le_min (le_refl _) hlu)
  have h1 : 0 ≤ max p.1 (min q.1 lo) - p.1 := sub_nonneg.2 (le_max_left _ _)
  have h2 : max p.1 (min q.1 up) - p.1 ≤ q.1 - p.1 := by
    have : max p.1 (min q.1 up) ≤ q.1 := max_le hpq (min_le_left _ _)
    linarith
  have h3 : max p.1 (min q.1 up) - max p.1 (min q.1 lo) =
      (max p.1 (min q.1 up) - p.1) - (max p.1 (min q.1 lo) - p.1) := by ring
  rw [h3]
  generalize max p.1 (min q.1 up) - p.1 = u at *
  generalize max p.1 (min q.1 lo) - p.1 = v at *
  have hvu : v ≤ u := by linarith
  rcases eq_or_lt_of_le hpq with he | hlt
  · have hu0 : u = 0 := by rw [he] at h2; linarith
    have hv0 : v = 0 := by linarith
    rw [hu0, hv0]; simp
  · have hd : 0 < q.1 - p.1 := by linarith
    -- heights at the two ends
    have key : ∀ w, 0 ≤ w → w ≤ q.1 - p.1 →
        0 ≤ p.2 + w * ((q.2 - p.2) / (q.1 - p.1)) ∧ p.2 + w * ((q.2 - p.2) / (q.1 - p.1)) ≤ 1 := by
      intro w w0 w1
      have e : p.2 + w * ((q.2 - p.2) / (q.1 - p.1)) =
          (p.2 * ((q.1 - p.1) - w) + q.2 * w) / (q.1 - p.1) := by field_simp; ring
      rw [e]
      constructor
      · apply div_nonneg _ hd.le
        exact add_nonneg (mul_nonneg hp.1 (by linarith)) (mul_nonneg hq.1 w0)
      · rw [div_le_one hd]
        have a1 : p.2 * ((q.1 - p.1) - w) ≤ 1 * ((q.1 - p.1) - w) := mul_le_mul_of_nonneg_right hp.2 (by linarith)
        have a2 : q.2 * w ≤ 1 * w := mul_le_mul_of_nonneg_right hq.2 w0
        linarith
    obtain ⟨ku0, ku1⟩ := key u (by linarith) h2
    obtain ⟨kv0, kv1⟩ := key v h1 (by linarith)
    generalize (q.2 - p.2) / (q.1 - p.1) = m at *
    have e : u * (p.2 + u * m / 2) - v * (p.2 + v * m / 2) = (u - v) * (((p.2 + u * m) + (p.2 + v * m)) / 2) := by ring
    rw [e]
    have huv : 0 ≤ u - v := by linarith
    constructor
    · exact mul_nonneg huv (by linarith)
    · calc (u - v) * (((p.2 + u * m) + (p.2 + v * m)) / 2) ≤ (u - v) * 1 :=
            mul_le_mul_of_nonneg_left (by linarith) huv
        _ = u - v := by ring

theorem area_range (lo up : K) (hlu : lo ≤ up) : ∀ (l : List (K × K)) (p : K × K),
    (p :: l).Pairwise (fun p q => p.1 ≤ q.1) → (∀ q ∈ p :: l, 0 ≤ q.2 ∧ q.2 ≤ 1) →
    0 ≤ areaLeft up (p :: l) - areaLeft lo (p :: l) ∧
      areaLeft up (p :: l) - areaLeft lo (p :: l) ≤ max p.1 up - max p.1 lo
  | [], p, _, _ => by
    simp only [areaLeft, sub_self, le_refl, true_and]
    exact sub_nonneg.2 (max_le_max (le_refl _) hlu)
  | q :: l, p, hx, hy => by
    rw [List.pairwise_cons] at hx
    obtain ⟨i1, i2⟩ := area_range lo up hlu l q hx.2 (fun r hr => hy r (List.mem_cons_of_mem _ hr))
    have hpq := hx.1 q (by simp)
    obtain ⟨s1, s2⟩ := seg_range lo up hlu p q hpq (hy p (by simp)) (hy q (by simp))
    simp only [areaLeft]
    have tele : ∀ t, max p.1 (min q.1 t) + max q.1 t = max p.1 t + q.1 := by
      intro t
      rcases le_total q.1 t with h | h
      · rw [min_eq_left h, max_eq_right hpq, max_eq_right h, max_eq_right (hpq.trans h)]; ring
      · rw [min_eq_right h, max_eq_left h]
    have t1 := tele up
    have t2 := tele lo
    constructor
    · linarith
    · linarith

/-- **C42**: the partial area (divided by the length of the interval) lies between 0 and 1. -/
theorem C42_range (o : Options K) (lo up : K) (hl : o.lower = some lo) (hu : o.upper = some up)
    (obs : List (Obs K)) (hw : ∀ a ∈ obs, 0 ≤ a.w) (r : K) (pts : List (K × K))
    (h : calculate o obs = .ok (some r, pts)) : 0 ≤ r ∧ r ≤ 1 := by
  obtain ⟨h0, h1, h2, ⟨l, hl'⟩, h3, h4, h5⟩ := calculate_bounds o lo up hl hu obs hw r pts h
  subst hl'
  obtain ⟨r1, r2⟩ := area_range lo up h1.le l (0, 0) h3 (fun q hq => (h4 q hq).2.2)
  have hd : 0 < up - lo := by linarith
  have e1 : max (0, 0).1 up - max ((0, 0) : K × K).1 lo = up - lo := by
    simp only
    rw [max_eq_right (h0.trans h1.le), max_eq_right h0]
  rw [e1, ← h5] at r2
  rw [← h5] at r1
  constructor
  · by_contra hneg
    have := mul_neg_of_neg_of_pos (not_le.1 hneg) hd
    linarith
  · by_contra hgt
    have := mul_lt_mul_of_pos_right (not_le.1 hgt) hd
    linarith

/-- Invalid thresholds are rejected. -/
theorem C42_rejects (o : Options K) (lo up : K) (hl : o.lower = some lo) (hu : o.upper = some up) (obs : List (Obs K))
    (h : up < lo ∨ 1 < up ∨ lo < 0) : calculate o obs = .throws := by
  classical
  rw [calculate_cases, show boundsOf o = some (lo, up) by unfold boundsOf; rw [hl, hu]]
  simp only
  rw [if_pos h]

/-- Hypotheses met: a partial area over `[1/4, 3/4]` of a curve with a corner inside. -/
example : calculate (K := Rat) { epsilon := 0, lower := some (1/4), upper := some (3/4) }
    [⟨1, 1/4, 2, 1⟩, ⟨0, 1/2, 1, 1⟩, ⟨1, 1/2, 1, 1⟩, ⟨0, 3/4, 1, 1⟩] =
    .ok (some (23/24), [(0, 0), (0, 2/3), (1/2, 1), (1, 1)]) := by decide +kernel

end Roc
end LDT
