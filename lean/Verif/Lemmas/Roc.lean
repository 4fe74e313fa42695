import Verif.Model.Roc
import Verif.Lemmas.Outcome
import Verif.Spec.Roc
import Verif.Lemmas.Sort
import Mathlib.Tactic.Ring
import Mathlib.Tactic.Linarith
import Mathlib.Tactic.FieldSimp
import Mathlib.Tactic.SplitIfs
import Mathlib.Algebra.Order.Field.Rat
import Mathlib.Algebra.Order.BigOperators.Group.List
/-! # The ROC loop -/
namespace LDT
namespace Roc
open Arr

variable {K : Type} [Field K] [LinearOrder K]

/-- total horizontal move -/
def hs (l : List (Move K)) : K := (l.map (·.h)).sum
/-- total vertical move -/
def vs (l : List (Move K)) : K := (l.map (·.v)).sum
/-- weighted wins of the vertical moves of `X` against the horizontal moves of `Y` -/
def cross (X Y : List (Move K)) : K := (X.map fun a => (Y.map fun b => a.v * b.h * win a.s b.s).sum).sum

@[simp] theorem hs_nil : hs ([] : List (Move K)) = 0 := rfl
@[simp] theorem vs_nil : vs ([] : List (Move K)) = 0 := rfl
@[simp] theorem hs_append (a b : List (Move K)) : hs (a ++ b) = hs a + hs b := by simp [hs]
@[simp] theorem vs_append (a b : List (Move K)) : vs (a ++ b) = vs a + vs b := by simp [vs]
@[simp] theorem hs_single (m : Move K) : hs [m] = m.h := by simp [hs]
@[simp] theorem vs_single (m : Move K) : vs [m] = m.v := by simp [vs]

theorem cross_append_left (X Y Z : List (Move K)) : cross (X ++ Y) Z = cross X Z + cross Y Z := by simp [cross]

theorem cross_append_right (X Y Z : List (Move K)) : cross X (Y ++ Z) = cross X Y + cross X Z := by
  induction X with
  | nil => simp [cross]
  | cons a X ih =>
    simp only [cross, List.map_cons, List.sum_cons, List.map_append, List.sum_append] at ih ⊢
    rw [ih]; ring

theorem cross_const (c : K) (X Y : List (Move K)) (h : ∀ a ∈ X, ∀ b ∈ Y, win a.s b.s = c) :
    cross X Y = vs X * hs Y * c := by
  induction X with
  | nil => simp [cross, vs]
  | cons a X ih =>
    have h1 : ∀ (Y : List (Move K)), (∀ b ∈ Y, win a.s b.s = c) →
        (Y.map fun b => a.v * b.h * win a.s b.s).sum = a.v * hs Y * c := by
      intro Y
      induction Y with
      | nil => intro _; simp [hs]
      | cons b Y ih =>
        intro hb
        have := ih (fun b' hb' => hb b' (List.mem_cons_of_mem _ hb'))
        simp only [List.map_cons, List.sum_cons, hs] at this ⊢
        rw [this, hb b (by simp)]; ring
    have h2 := ih (fun a' ha' => h a' (List.mem_cons_of_mem _ ha'))
    simp only [cross, List.map_cons, List.sum_cons, vs] at h2 ⊢
    rw [h2, h1 Y (h a (by simp))]; ring

theorem cross_perm {X X' Y Y' : List (Move K)} (hX : X.Perm X') (hY : Y.Perm Y') : cross X Y = cross X' Y' := by
  unfold cross
  have : ∀ a : Move K, (Y.map fun b => a.v * b.h * win a.s b.s).sum = (Y'.map fun b => a.v * b.h * win a.s b.s).sum :=
    fun a => (hY.map _).sum_eq
  simp only [this]
  exact (hX.map _).sum_eq

theorem hs_perm {X X' : List (Move K)} (h : X.Perm X') : hs X = hs X' := (h.map _).sum_eq
theorem vs_perm {X X' : List (Move K)} (h : X.Perm X') : vs X = vs X' := (h.map _).sum_eq

/-- Area scanned from the origin: last point and area. -/
def scan (pts : List (K × K)) : K × K × K := pts.foldl (aucStep 0) (0, 0, 0)

theorem scan_append (pts : List (K × K)) (p : K × K) : scan (pts ++ [p]) = aucStep 0 (scan pts) p := by
  simp [scan]

theorem aucPoints_cons (p : K × K) (l : List (K × K)) (base : K) :
    aucPoints (p :: l) base = (l.foldl (aucStep base) (p.1, p.2, 0)).2.2 := by
  cases l with
  | nil => rfl
  | cons q l => simp [aucPoints, aucStep]

theorem aucPoints_origin (l : List (K × K)) : aucPoints ((0, 0) :: l) 0 = (scan ((0, 0) :: l)).2.2 := by
  rw [aucPoints_cons]; simp [scan, aucStep]

theorem aucFold_scale (a b : K) (l : List (K × K)) (s : K × K × K) :
    (l.map fun p => (p.1 / a, p.2 / b)).foldl (aucStep 0) (s.1 / a, s.2.1 / b, s.2.2 / (a * b)) =
      ((l.foldl (aucStep 0) s).1 / a, (l.foldl (aucStep 0) s).2.1 / b, (l.foldl (aucStep 0) s).2.2 / (a * b)) := by
  induction l generalizing s with
  | nil => rfl
  | cons p l ih =>
    simp only [List.map_cons, List.foldl_cons]
    rw [← ih]
    congr 1
    simp only [aucStep]
    refine Prod.ext rfl (Prod.ext rfl ?_)
    simp only [div_eq_mul_inv, mul_inv]; ring

theorem aucPoints_scale (a b : K) (l : List (K × K)) :
    aucPoints (l.map fun p => (p.1 / a, p.2 / b)) 0 = aucPoints l 0 / (a * b) := by
  cases l with
  | nil => simp [aucPoints]
  | cons p l =>
    rw [List.map_cons, aucPoints_cons, aucPoints_cons]
    have := aucFold_scale a b l (p.1, p.2, 0)
    simp only [zero_div] at this
    rw [this]

variable [IsStrictOrderedRing K]

/-- Loop invariant for `Epsilon = 0`: `E` is closed, `G` is the current group. -/
structure Inv (st : St K) (E G : List (Move K)) : Prop where
  area : scan st.points = (hs E, vs E, cross E E)
  fp : st.sumFP = hs E
  tp : st.sumTP = vs E
  hz : st.horiz = hs G
  ve : st.verti = vs G
  grp : ∀ g ∈ G, g.s = st.thPre
  bef : ∀ e ∈ E, e.s < st.thPre
  org : ∃ l, st.points = (0, 0) :: l

theorem cross_group (E G : List (Move K)) (th : K) (hG : ∀ g ∈ G, g.s = th) (hE : ∀ e ∈ E, e.s < th) :
    cross (E ++ G) (E ++ G) = cross E E + hs G * (vs E + vs G / 2) := by
  have h1 : cross E G = vs E * hs G * 1 := cross_const 1 E G (fun a ha b hb => by
    simp [win, hG b hb, hE a ha])
  have h2 : cross G E = vs G * hs E * 0 := cross_const 0 G E (fun a ha b hb => by
    have := hE b hb
    simp [win, hG a ha, not_lt.2 this.le, this.ne'])
  have h3 : cross G G = vs G * hs G * (1 / 2) := cross_const (1 / 2) G G (fun a ha b hb => by
    simp [win, hG a ha, hG b hb])
  rw [cross_append_left, cross_append_right, cross_append_right, h1, h2, h3]; ring

theorem step_inv (st : St K) (E G : List (Move K)) (h : Inv st E G) (m : Move K) (hm : st.thPre ≤ m.s) :
    ∃ E' G', Inv (step 0 false st m) E' G' ∧ E' ++ G' = E ++ G ++ [m] ∧ (step 0 false st m).thPre = m.s := by
  unfold step
  by_cases hne : |m.s - st.thPre| > 0
  · have hlt : st.thPre < m.s := lt_of_le_of_ne hm (fun e => by simp [e] at hne)
    refine ⟨E ++ G, [m], ?_, rfl, ?_⟩
    · simp only [if_pos hne]
      obtain ⟨l, hl⟩ := h.org
      refine ⟨?_, by simp [h.fp, h.hz], by simp [h.tp, h.ve], by simp, by simp, by simp, ?_,
        ⟨l ++ [(st.sumFP + st.horiz, st.sumTP + st.verti)], by simp [hl]⟩⟩
      · simp only [Bool.false_eq_true, if_false]
        rw [scan_append, h.area, cross_group E G st.thPre h.grp h.bef]
        simp only [aucStep, h.fp, h.tp, h.hz, h.ve, hs_append, vs_append]
        refine Prod.ext rfl (Prod.ext rfl ?_)
        simp only; ring
      · intro e he
        rcases List.mem_append.1 he with he | he
        · exact (h.bef e he).trans hlt
        · rw [h.grp e he]; exact hlt
    · simp only [if_pos hne]
  · have he : m.s = st.thPre := by
      have := abs_nonneg (m.s - st.thPre)
      have h0 : m.s - st.thPre = 0 := abs_eq_zero.1 (le_antisymm (not_lt.1 hne) this)
      exact sub_eq_zero.1 h0
    refine ⟨E, G ++ [m], ?_, by simp, ?_⟩
    · simp only [if_neg hne]
      exact ⟨h.area, h.fp, h.tp, by simp [h.hz], by simp [h.ve], by
        intro g hg
        rcases List.mem_append.1 hg with hg | hg
        · exact h.grp g hg
        · simp only [List.mem_singleton] at hg; subst hg; exact he, h.bef, h.org⟩
    · simp only [if_neg hne]; exact he.symm

theorem fold_inv (ms : List (Move K)) (st : St K) (E G : List (Move K)) (h : Inv st E G)
    (hs : ms.Pairwise fun a b => a.s ≤ b.s) (hb : ∀ m ∈ ms, st.thPre ≤ m.s) :
    ∃ E' G', Inv (ms.foldl (step 0 false) st) E' G' ∧ E' ++ G' = E ++ G ++ ms := by
  induction ms generalizing st E G with
  | nil => exact ⟨E, G, h, by simp⟩
  | cons m ms ih =>
    rw [List.pairwise_cons] at hs
    obtain ⟨E1, G1, h1, e1, t1⟩ := step_inv st E G h m (hb m (by simp))
    obtain ⟨E2, G2, h2, e2⟩ := ih _ E1 G1 h1 hs.2 (fun b hb' => by rw [t1]; exact hs.1 b hb')
    exact ⟨E2, G2, h2, by rw [e2, e1]; simp⟩

/-- The curve of sorted moves: area, end point. -/
theorem curve_area (ms : List (Move K)) (hsort : ms.Pairwise fun a b => a.s ≤ b.s) (th0 : K)
    (h0 : ∀ m ∈ ms, th0 ≤ m.s) :
    aucPoints (curve 0 false ms th0).1 0 = cross ms ms ∧ (curve 0 false ms th0).2.1 = hs ms ∧
      (curve 0 false ms th0).2.2 = vs ms := by
  obtain ⟨E, G, h, e⟩ := fold_inv ms (⟨[(0, 0)], th0, 0, 0, 0, 0⟩ : St K) [] []
    ⟨by simp [scan, aucStep, cross], rfl, rfl, rfl, rfl, by simp, by simp, ⟨[], rfl⟩⟩ hsort h0
  simp only [List.nil_append] at e
  unfold curve
  generalize List.foldl (step 0 false) ⟨[(0, 0)], th0, 0, 0, 0, 0⟩ ms = st at h ⊢
  simp only
  obtain ⟨l, hl⟩ := h.org
  refine ⟨?_, by rw [h.fp, h.hz, ← hs_append, e], by rw [h.tp, h.ve, ← vs_append, e]⟩
  rw [hl, List.cons_append, aucPoints_origin, ← List.cons_append, ← hl, scan_append, h.area, ← e,
    cross_group E G _ h.grp h.bef]
  simp only [aucStep, h.fp, h.tp, h.hz, h.ve]; ring

theorem mapO_ok {α β : Type} (f : α → Outcome β) (g : α → β) (l : List α) (h : ∀ a ∈ l, f a = .ok (g a)) :
    l.mapM f = .ok (l.map g) := by
  rw [← List.mapM'_eq_mapM]
  induction l with
  | nil => rfl
  | cons a l ih =>
    rw [List.mapM'_cons, h a (by simp), ih (fun b hb => h b (List.mem_cons_of_mem _ hb))]; rfl

/-- The scores of the observations sorted as `Calculate` sorts them. -/
def sortObs (obs : List (Obs K)) : List (Obs K) := stableSort (fun a b : Obs K => decide (a.score < b.score)) obs

omit [Field K] [IsStrictOrderedRing K] in
theorem sortObs_sorted (obs : List (Obs K)) : (sortObs obs).Pairwise fun a b => a.score ≤ b.score := by
  have := stableSort_pairwise (fun a b : Obs K => decide (a.score < b.score)) (fun _ _ => True)
    (fun a b c h1 h2 => by simp at h1 h2 ⊢; exact h2.trans h1)
    (fun a b h => by simp at h ⊢; exact h.le) obs (by
      rw [List.pairwise_iff_forall_sublist]; intros; trivial)
  exact this.imp (fun h => by have := h.1; simpa using this)

omit [Field K] [IsStrictOrderedRing K] in
theorem sortObs_perm (obs : List (Obs K)) : (sortObs obs).Perm obs := stableSort_perm _ _

omit [Field K] [IsStrictOrderedRing K] in
/-- Folding over two sorted permutations gives the same result if elements with equal keys commute. -/
theorem fold_perm_sorted {α β : Type} (key : α → K) (f : β → α → β)
    (hc : ∀ st a b, key a = key b → f (f st a) b = f (f st b) a) :
    ∀ (l1 l2 : List α) (st : β), l1.Perm l2 → l1.Pairwise (fun a b => key a ≤ key b) →
      l2.Pairwise (fun a b => key a ≤ key b) → l1.foldl f st = l2.foldl f st
  | [], l2, st, hp, _, _ => by rw [hp.symm.eq_nil]
  | a :: t, l2, st, hp, h1, h2 => by
    obtain ⟨p, q, rfl⟩ := List.append_of_mem (hp.mem_iff.1 (List.mem_cons_self))
    rw [List.pairwise_cons] at h1
    have hk : ∀ x ∈ p, key x = key a := by
      intro x hx
      apply le_antisymm
      · rw [List.pairwise_append] at h2
        exact h2.2.2 x hx a (by simp)
      · rcases List.mem_cons.1 (hp.mem_iff.2 (List.mem_append_left _ hx)) with rfl | h
        · exact le_refl _
        · exact h1.1 x h
    have hmove : ∀ (p : List α) (st : β), (∀ x ∈ p, key x = key a) →
        (p ++ a :: q).foldl f st = (a :: (p ++ q)).foldl f st := by
      intro p
      induction p with
      | nil => intro st _; rfl
      | cons x p ih =>
        intro st hx
        rw [List.cons_append, List.foldl_cons, ih _ (fun y hy => hx y (List.mem_cons_of_mem _ hy))]
        simp only [List.foldl_cons, List.cons_append]
        rw [hc st x a (hx x (by simp))]
    rw [hmove p st hk, List.foldl_cons, List.foldl_cons]
    have hp' : t.Perm (p ++ q) := by
      have := hp.trans List.perm_middle
      exact (List.perm_cons a).1 this
    refine fold_perm_sorted key f hc t (p ++ q) _ hp' h1.2 ?_
    exact h2.sublist (List.Sublist.append_left (List.sublist_cons_self a q) p)

theorem step_comm (eps : K) (heps : 0 ≤ eps) (pess : Bool) (st : St K) (a b : Move K) (h : a.s = b.s) :
    step eps pess (step eps pess st a) b = step eps pess (step eps pess st b) a := by
  have h0 : ¬ |b.s - b.s| > eps := by simp [heps]
  unfold step
  rw [h]
  by_cases hc : |b.s - st.thPre| > eps
  · simp only [if_pos hc, if_neg h0]
    simp only [St.mk.injEq, true_and]
    exact ⟨by ring, by ring⟩
  · simp only [if_neg hc]
    simp only [St.mk.injEq, true_and]
    exact ⟨by ring, by ring⟩

end Roc
end LDT
