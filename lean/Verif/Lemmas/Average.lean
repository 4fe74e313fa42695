import Verif.Model.Average
import Verif.Spec.Average
import Verif.Lemmas.Moments
import Verif.Lemmas.Outcome
import Verif.Props.Moments
import Verif.Props.DistCdf
/-! # Averages over models: lemmas -/
namespace LDT
namespace Srch
open Arr Di

/-! ## What an accumulator has seen -/

/-- The accumulator has been fed with the sample `l` of positive weights, in `n` steps. -/
structure Sees (l : List (ℝ × ℝ)) (n : Nat) (r : RM ℝ) : Prop where
  pos : ∀ p ∈ l, 0 < p.2
  count : r.count = n
  empty : l = [] → n = 0 ∧ r = RM.empty
  rep : ∃ m, r.mom = some m ∧ Rep l r.sumW m

theorem sees_empty : Sees [] 0 (RM.empty : RM ℝ) :=
  ⟨by simp, rfl, fun _ => ⟨rfl, rfl⟩, ⟨0, 0, 0, 0⟩, rfl, rep_nil 0⟩

theorem Sees.push {l : List (ℝ × ℝ)} {n : Nat} {r : RM ℝ} (h : Sees l n r) {x w : ℝ} (hw : 0 < w) :
    Sees (l ++ [(x, w)]) (n + 1) (r.push true true (some x) w) := by
  obtain ⟨m, h1, h2⟩ := h.rep
  have hpos : ∀ p ∈ l ++ [(x, w)], 0 < p.2 := by
    intro p hp
    rcases List.mem_append.1 hp with hp | hp
    · exact h.pos p hp
    · simp at hp; subst hp; exact hw
  have hs : r.sumW + w ≠ 0 := by
    have := wsum_pos (l ++ [(x, w)]) (by simp) hpos
    rw [wsum_append, ← h2.hw] at this
    simp [wsum] at this
    exact this.ne'
  obtain ⟨m', e1, e2⟩ := rep_update l x w r.sumW m h2 hs
  refine ⟨hpos, ?_, by simp, m', ?_, ?_⟩
  · simp [RM.push, h.count]
  · simp [RM.push, h1, e1]
  · simpa [RM.push] using e2

theorem Sees.push1 {l : List (ℝ × ℝ)} {n : Nat} {r : RM ℝ} (h : Sees l n r) (x y : ℝ) :
    Sees (l ++ [(x, 1)]) (n + 1) (r.push false true (some x) y) := h.push (x := x) one_pos

theorem Sees.skip {l : List (ℝ × ℝ)} {n : Nat} {r : RM ℝ} (h : Sees l n r) (b : Bool) (w : ℝ) :
    Sees l n (r.push b true none w) := h

theorem Sees.combine {l l' : List (ℝ × ℝ)} {n n' : Nat} {r r' : RM ℝ} (h : Sees l n r) (h' : Sees l' n' r') :
    Sees (l ++ l') (n + n') (RM.combine true r r') := by
  obtain ⟨a, a1, a2⟩ := h.rep
  obtain ⟨b, b1, b2⟩ := h'.rep
  have hpos : ∀ p ∈ l ++ l', 0 < p.2 := fun p hp => (List.mem_append.1 hp).elim (h.pos p) (h'.pos p)
  by_cases hne : l ++ l' = []
  · obtain ⟨e, e'⟩ := List.append_eq_nil_iff.1 hne
    subst e; subst e'
    have w1 : r.sumW = 0 := a2.hw
    have w2 : r'.sumW = 0 := b2.hw
    have : RM.combine true r r' = r := by
      unfold RM.combine
      rw [a1, b1]
      simp [w1, w2, Arr.combine]
    rw [this, (h'.empty rfl).1]
    exact h
  · have hs : r'.sumW + r.sumW ≠ 0 := by
      have := wsum_pos _ hne hpos
      rw [wsum_append, ← a2.hw, ← b2.hw] at this
      rw [add_comm]; exact this.ne'
    obtain ⟨m, e1, e2⟩ := rep_combine l' l _ _ b a b2 a2 hs
    have e : RM.combine true r r' = { count := r.count + r'.count, sumW := r'.sumW + r.sumW, mom := some m } := by
      unfold RM.combine
      rw [a1, b1]
      simp only [e1]
    rw [e]
    refine ⟨hpos, by simp [h.count, h'.count], fun hh => absurd hh hne, m, rfl, rep_perm e2 List.perm_append_comm⟩

theorem Sees.perm {l l' : List (ℝ × ℝ)} {n : Nat} {r : RM ℝ} (h : Sees l n r) (hp : l.Perm l') : Sees l' n r := by
  obtain ⟨m, h1, h2⟩ := h.rep
  exact ⟨fun p hq => h.pos p (hp.mem_iff.2 hq), h.count, fun e => h.empty (by subst e; exact hp.eq_nil), m, h1, rep_perm h2 hp⟩

theorem Sees.unique {l l' : List (ℝ × ℝ)} {n : Nat} {r r' : RM ℝ} (h : Sees l n r) (h' : Sees l' n r') (hp : l.Perm l') : r = r' := by
  by_cases hl : l = []
  · subst hl
    have : l' = [] := hp.symm.eq_nil
    subst this
    rw [(h.empty rfl).2, (h'.empty rfl).2]
  · have h := h.perm hp
    have hl' : l' ≠ [] := fun e => hl (by subst e; exact hp.eq_nil)
    obtain ⟨m, h1, h2⟩ := h.rep
    obtain ⟨m', h1', h2'⟩ := h'.rep
    have hs : r.sumW = wsum l' := h2.hw
    have hs' : r'.sumW = wsum l' := h2'.hw
    have hw : wsum l' ≠ 0 := (wsum_pos l' hl' h.pos).ne'
    apply rm_ext
    · rw [h.count, h'.count]
    · rw [hs, hs']
    · rw [h1, h1', rep_unique h2 (by rw [hs]; exact hw), rep_unique h2' (by rw [hs']; exact hw)]

theorem Sees.none {l : List (ℝ × ℝ)} {n : Nat} {r : RM ℝ} (h : Sees l n r) (hl : l = []) :
    r.count = 0 ∧ r.getMean = none ∧ r.getVariance = none ∧ r.getSkewness = none ∧ r.getKurtosis = none := by
  obtain ⟨m, h1, h2⟩ := h.rep
  subst hl
  have : r.sumW = 0 := h2.hw
  refine ⟨by rw [h.count, (h.empty rfl).1]; rfl, ?_, ?_, ?_, ?_⟩ <;>
    simp [RM.getMean, RM.getVariance, RM.getSkewness, RM.getKurtosis, this]

theorem Sees.mean {l : List (ℝ × ℝ)} {n : Nat} {r : RM ℝ} (h : Sees l n r) (hl : l ≠ []) :
    r.sumW = wsum l ∧ r.getMean = some (wmean l) ∧ r.getVariance = some (wcentral 2 l / wsum l) := by
  obtain ⟨m, h1, h2⟩ := h.rep
  have hs : r.sumW = wsum l := h2.hw
  have hw : r.sumW ≠ 0 := by rw [hs]; exact (wsum_pos l hl h.pos).ne'
  rw [rep_unique h2 hw] at h1
  refine ⟨hs, ?_, ?_⟩
  · unfold RM.getMean; rw [if_neg hw, h1]; rfl
  · unfold RM.getVariance; rw [if_neg hw, h1, hs]; rfl

theorem Sees.shape {l : List (ℝ × ℝ)} {n : Nat} {r : RM ℝ} (h : Sees l n r) (hl : l ≠ []) (hv : 0 < wcentral 2 l) :
    r.getSkewness = some ((wcentral 3 l / wsum l) / (wcentral 2 l / wsum l) ^ (3 / 2 : ℝ)) ∧
    r.getKurtosis = some ((wcentral 4 l / wsum l) / (wcentral 2 l / wsum l) ^ 2 - 3) := by
  obtain ⟨m, h1, h2⟩ := h.rep
  have hs : r.sumW = wsum l := h2.hw
  have hw : r.sumW ≠ 0 := by rw [hs]; exact (wsum_pos l hl h.pos).ne'
  rw [rep_unique h2 hw] at h1
  obtain ⟨m', m1, m2, -, -⟩ := run_rep l h.pos
  have hs' : (run l).sumW = wsum l := m2.hw
  have hw' : (run l).sumW ≠ 0 := by rw [hs']; exact (wsum_pos l hl h.pos).ne'
  rw [rep_unique m2 hw'] at m1
  obtain ⟨e1, e2⟩ := C15_skewness_kurtosis l hl h.pos hv
  constructor
  · rw [← e1]; unfold RM.getSkewness; rw [h1, m1, hs, hs']
  · rw [← e2]; unfold RM.getKurtosis; rw [h1, m1, hs, hs']

/-! ## A normal part as a sample of three points

The points `m`, `m ± √(3v)` with weights `2w/3`, `w/6`, `w/6` have the first five moments of the normal
distribution with mean `m` and variance `v`. -/

/-- The three points of a part. -/
noncomputable def three (p : Part) : List (ℝ × ℝ) :=
  [(p.m, 2 / 3 * p.w), (p.m - Real.sqrt (3 * p.v), p.w / 6), (p.m + Real.sqrt (3 * p.v), p.w / 6)]

theorem three_pos (p : Part) (hw : 0 < p.w) : ∀ q ∈ three p, 0 < q.2 := by
  intro q hq
  simp [three] at hq
  rcases hq with rfl | rfl | rfl <;> simp <;> linarith

theorem three_sums (p : Part) (hv : 0 ≤ p.v) (c : ℝ) :
    wsum (three p) = p.w ∧ ((three p).map fun q => q.2 * q.1).sum = p.w * p.m ∧ csum 1 c (three p) = p.w * (p.m - c) ∧
    csum 2 c (three p) = p.w * (p.v + (p.m - c) ^ 2) ∧
    csum 3 c (three p) = p.w * (3 * p.v * (p.m - c) + (p.m - c) ^ 3) ∧
    csum 4 c (three p) = p.w * (3 * p.v ^ 2 + 6 * p.v * (p.m - c) ^ 2 + (p.m - c) ^ 4) := by
  have hs : Real.sqrt (3 * p.v) ^ 2 = 3 * p.v := Real.sq_sqrt (by linarith)
  have hs4 : Real.sqrt (3 * p.v) ^ 4 = 9 * p.v ^ 2 := by
    rw [show Real.sqrt (3 * p.v) ^ 4 = (Real.sqrt (3 * p.v) ^ 2) ^ 2 by ring, hs]; ring
  simp only [wsum, csum, three, List.map_cons, List.map_nil, List.sum_cons, List.sum_nil]
  refine ⟨by ring, by ring, by ring, ?_, ?_, ?_⟩
  · linear_combination p.w / 3 * hs
  · linear_combination p.w * (p.m - c) * hs
  · linear_combination p.w / 3 * hs4 + 2 * p.w * (p.m - c) ^ 2 * hs

theorem three_rep (p : Part) (hv : 0 ≤ p.v) : Rep (three p) p.w ⟨p.m, p.v * p.w, 0, 3 * (p.v * p.w * (p.v * p.w)) / p.w⟩ := by
  obtain ⟨h1, h2, -, h3, h4, h5⟩ := three_sums p hv p.m
  constructor
  · exact h1.symm
  · exact h2.symm
  · rw [h3]; ring
  · rw [h4]; ring
  · rw [h5]
    by_cases hw : p.w = 0
    · simp [hw]
    · field_simp; ring

/-- The parts that the mixture uses: positive weight, a mean and a non-negative variance. -/
noncomputable def partOf (e : Est) : Option Part := do
  let m ← e.mean
  let v ← e.variance
  if 0 < e.weight ∧ 0 ≤ v then some ⟨e.weight, m, v⟩ else none

theorem fromStats_normal {m v w : ℝ} (hw : 0 < w) (hv : 0 ≤ v) :
    fromStats 4 (some m) (some v) (some 0) (some 0) w = some ⟨m, v * w, 0, 3 * (v * w * (v * w)) / w⟩ := by
  have h2 : 0 ≤ v * w := mul_nonneg hv hw.le
  unfold fromStats pow15V sqrtV divV
  simp [not_lt.2 h2, not_lt.2 hw.le, (Real.sqrt_pos.2 hw).ne', hw.ne']

theorem Sees.part {l : List (ℝ × ℝ)} {n : Nat} {r : RM ℝ} (h : Sees l n r) {p : Part} (hw : 0 < p.w) (hv : 0 ≤ p.v) :
    Sees (l ++ three p) (n + 1) (r.combineStats 4 (some p.m) (some p.v) (some 0) (some 0) p.w 1) := by
  unfold RM.combineStats
  rw [fromStats_normal hw hv]
  refine h.combine (n' := 1) ⟨three_pos p hw, rfl, fun e => ?_, _, rfl, three_rep p hv⟩
  simp [three] at e

/-- Without a positive weight, a mean and a non-negative variance nothing happens. -/
theorem part_none {e : Est} (h : partOf e = none) (r : RM ℝ) :
    r.combineStats 4 e.mean e.variance (some 0) (some 0) e.weight 1 = r := by
  have : fromStats 4 e.mean e.variance (some 0) (some 0) e.weight = none := by
    unfold partOf at h
    unfold fromStats
    cases hm : e.mean with
    | none => rfl
    | some m =>
      cases hv : e.variance with
      | none => rfl
      | some v =>
        rw [hm, hv] at h
        simp only [Option.bind_eq_bind, Option.bind_some] at h ⊢
        have h' : ¬ (0 < e.weight ∧ 0 ≤ v) := by
          intro hc; rw [if_pos hc] at h; cases h
        simp only [Nat.le_refl, ge_iff_le, Nat.reduceLeDiff, if_true, Option.map_some, Option.bind_some]
        unfold pow15V sqrtV divV
        rcases lt_trichotomy e.weight 0 with hw | hw | hw
        · by_cases h2 : v * e.weight < 0
          · simp [h2]
          · simp [h2, hw]
        · simp [hw]
        · have hv' : v < 0 := by
            by_contra hc
            exact h' ⟨hw, not_lt.1 hc⟩
          have : v * e.weight < 0 := mul_neg_of_neg_of_pos hv' hw
          simp [this]
  unfold RM.combineStats
  rw [this]

theorem mix_step {l : List (ℝ × ℝ)} {n : Nat} {r : RM ℝ} (h : Sees l n r) (e : Est) :
    Sees (l ++ ((partOf e).toList.flatMap three)) (n + (partOf e).toList.length)
      (r.combineStats 4 e.mean e.variance (some 0) (some 0) e.weight 1) := by
  cases hp : partOf e with
  | none => rw [part_none hp]; simpa using h
  | some p =>
    unfold partOf at hp
    cases hm : e.mean with
    | none => rw [hm] at hp; cases hp
    | some m =>
      cases hv : e.variance with
      | none => rw [hm, hv] at hp; cases hp
      | some v =>
        rw [hm, hv] at hp
        simp only [Option.bind_eq_bind, Option.bind_some] at hp
        split_ifs at hp with hc
        cases hp
        simpa using h.part (p := ⟨e.weight, m, v⟩) hc.1 hc.2

end Srch
end LDT
