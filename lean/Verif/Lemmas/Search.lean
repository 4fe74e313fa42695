import Verif.Model.Search
import Mathlib.Data.List.Basic
import Mathlib.Data.List.Nodup
import Mathlib.Data.List.Range
import Mathlib.Algebra.BigOperators.Group.List.Basic
import Mathlib.Algebra.Order.Ring.Nat
import Mathlib.Algebra.Group.Action.Defs
import Mathlib.Tactic.Linarith
import Mathlib.Tactic.SplitIfs
/-! # The order in which the searcher visits the models -/
namespace LDT
namespace Srch

/-! ## Chains of steps -/

/-- Following `step` from the head runs through the list; the step from the last element is `e`. -/
def Seg {α : Type} (step : α → Option α) : List α → Option α → Prop
  | [], _ => False
  | [s], e => step s = e
  | s :: s' :: r, e => step s = some s' ∧ Seg step (s' :: r) e

theorem Seg.append {α : Type} {step : α → Option α} {b : α} {L2 : List α} {e : Option α} :
    ∀ {L1 : List α}, Seg step L1 (some b) → Seg step (b :: L2) e → Seg step (L1 ++ b :: L2) e
  | [], h, _ => h.elim
  | [_], h, h2 => ⟨h, h2⟩
  | _ :: s' :: r, h, h2 => ⟨h.1, Seg.append (L1 := s' :: r) h.2 h2⟩

theorem Seg.map {α β : Type} {s1 : α → Option α} {s2 : β → Option β} (f : α → β) {e1 : Option α}
    {e : Option β} :
    ∀ {L : List α}, Seg s1 L e1 → (∀ a ∈ L, ∀ a', s1 a = some a' → s2 (f a) = some (f a')) →
      (∀ a ∈ L, s1 a = e1 → s2 (f a) = e) → Seg s2 (L.map f) e
  | [], h, _, _ => h.elim
  | [a], h, _, h2 => h2 a (by simp) h
  | a :: a' :: r, h, h1, h2 =>
    ⟨h1 a (by simp) a' h.1, Seg.map f (L := a' :: r) h.2 (fun x hx => h1 x (List.mem_cons_of_mem _ hx))
      (fun x hx => h2 x (List.mem_cons_of_mem _ hx))⟩

/-- Blocks chained one after the other. -/
theorem Seg.flatMap {α β : Type} {s1 : β → Option β} {s2 : α → Option α} (hd : β → α) (tl : β → List α)
    {e : Option α} :
    ∀ {L : List β}, Seg s1 L none →
      (∀ b ∈ L, ∀ b', s1 b = some b' → Seg s2 (hd b :: tl b) (some (hd b'))) →
      (∀ b ∈ L, s1 b = none → Seg s2 (hd b :: tl b) e) → Seg s2 (L.flatMap fun b => hd b :: tl b) e
  | [], h, _, _ => h.elim
  | [b], h, _, h2 => by simpa using h2 b (by simp) h
  | b :: b' :: r, h, h1, h2 => by
    have ih := Seg.flatMap hd tl (L := b' :: r) h.2 (fun x hx => h1 x (List.mem_cons_of_mem _ hx))
      (fun x hx => h2 x (List.mem_cons_of_mem _ hx))
    have h0 := h1 b (by simp) b' h.1
    rw [List.flatMap_cons]
    rw [List.flatMap_cons, List.cons_append] at ih ⊢
    exact Seg.append (L1 := hd b :: tl b) h0 ih

/-! ## Combinations of partitions -/

/-- Structural form of `next` on the part of the array after the fixed partitions. -/
def nextS (N : Nat) : List Nat → Option (List Nat)
  | [] => none
  | a :: t => match nextS N t with
    | some t' => some (a :: t')
    | none => if a + t.length + 1 < N then some (List.range' (a + 1) (t.length + 1)) else none

/-- All strictly increasing lists of length `k` with entries in `lo..N-1`, in lexicographic order. -/
def combos (N : Nat) : (k lo : Nat) → List (List Nat)
  | 0, _ => [[]]
  | k + 1, lo => (List.range' lo (N - lo - k)).flatMap fun a => (combos N k (a + 1)).map (a :: ·)

theorem combos_head (N : Nat) : ∀ k lo, lo + k ≤ N → ∃ r, combos N k lo = List.range' lo k :: r
  | 0, lo, _ => ⟨[], rfl⟩
  | k + 1, lo, h => by
    obtain ⟨r, hr⟩ := combos_head N k (lo + 1) (by omega)
    unfold combos
    obtain ⟨m, hm⟩ : ∃ m, N - lo - k = m + 1 := ⟨N - lo - k - 1, by omega⟩
    rw [hm, List.range'_succ, List.flatMap_cons, hr, List.map_cons, List.cons_append]
    exact ⟨_, by rw [List.range'_succ]⟩

theorem mem_combos (N : Nat) : ∀ k lo l, l ∈ combos N k lo ↔
    l.length = k ∧ l.Pairwise (· < ·) ∧ ∀ x ∈ l, lo ≤ x ∧ x < N
  | 0, lo, l => by
    constructor
    · intro h; simp [combos] at h; subst h; simp
    · intro h; simp [combos]; exact List.length_eq_zero_iff.1 h.1
  | k + 1, lo, l => by
    simp only [combos, List.mem_flatMap, List.mem_map, List.mem_range'_1, mem_combos N k]
    constructor
    · rintro ⟨a, ha, t, ⟨h1, h2, h3⟩, rfl⟩
      refine ⟨by simp [h1], ?_, ?_⟩
      · rw [List.pairwise_cons]; exact ⟨fun b hb => by have := h3 b hb; omega, h2⟩
      · intro x hx
        rcases List.mem_cons.1 hx with rfl | hx
        · omega
        · have := h3 x hx; omega
    · rintro ⟨h1, h2, h3⟩
      match l, h1 with
      | a :: t, h1 =>
        rw [List.pairwise_cons] at h2
        have ha := h3 a (by simp)
        have hlen : t.length = k := by simpa using h1
        -- the k entries of t lie strictly between a and N
        have hbound : ∀ (t : List Nat) (a : Nat), t.Pairwise (· < ·) → (∀ x ∈ t, a < x ∧ x < N) → a < N →
            a + t.length < N := by
          intro t
          induction t with
          | nil => intro a _ _ h; simpa using h
          | cons b t ih =>
            intro a hp hb _
            rw [List.pairwise_cons] at hp
            have h1 := hb b (by simp)
            have := ih b hp.2 (fun x hx => ⟨hp.1 x hx, (hb x (List.mem_cons_of_mem _ hx)).2⟩) h1.2
            simp only [List.length_cons]; omega
        have := hbound t a h2.2
          (fun x hx => ⟨h2.1 x hx, (h3 x (List.mem_cons_of_mem _ hx)).2⟩) ha.2
        exact ⟨a, by omega, t, ⟨hlen, h2.2, fun x hx => ⟨h2.1 x hx, (h3 x (List.mem_cons_of_mem _ hx)).2⟩⟩, rfl⟩

theorem combos_nodup (N : Nat) : ∀ k lo, (combos N k lo).Nodup
  | 0, _ => by simp [combos]
  | k + 1, lo => by
    unfold combos
    rw [List.nodup_flatMap]
    constructor
    · intro a _
      exact (combos_nodup N k (a + 1)).map (fun x y h => by simpa using h)
    · have : (List.range' lo (N - lo - k)).Nodup := List.nodup_range'
      apply this.imp
      intro a b hab
      simp only [Function.onFun, List.disjoint_left, List.mem_map]
      rintro x ⟨t, _, rfl⟩ ⟨t', _, h⟩
      simp at h; exact hab h.1.symm

/-- Steps of a counter from `lo` below `m`. -/
theorem seg_range' (lo n : Nat) (hn : 0 < n) :
    Seg (fun a => if a + 1 < lo + n then some (a + 1) else none) (List.range' lo n) none := by
  induction n generalizing lo with
  | zero => omega
  | succ n ih =>
    rw [List.range'_succ]
    cases n with
    | zero => simp [Seg]
    | succ n =>
      have := ih (lo + 1) (by omega)
      rw [List.range'_succ] at this ⊢
      refine ⟨by simp, ?_⟩
      rw [show lo + (n + 1 + 1) = lo + 1 + (n + 1) by omega]
      exact this

theorem seg_combos (N : Nat) : ∀ k lo, lo + k ≤ N → Seg (nextS N) (combos N k lo) none
  | 0, _, _ => rfl
  | k + 1, lo, h => by
    unfold combos
    have hb : ∀ a ∈ List.range' lo (N - lo - k), ∃ r, combos N k (a + 1) = List.range' (a + 1) k :: r := by
      intro a ha
      rw [List.mem_range'_1] at ha
      exact combos_head N k (a + 1) (by omega)
    let hd : Nat → List Nat := fun a => a :: List.range' (a + 1) k
    let tl : Nat → List (List Nat) := fun a => ((combos N k (a + 1)).map (a :: ·)).tail
    have e : (List.range' lo (N - lo - k)).flatMap (fun a => (combos N k (a + 1)).map (a :: ·)) =
        (List.range' lo (N - lo - k)).flatMap (fun a => hd a :: tl a) := by
      rw [List.flatMap_def, List.flatMap_def]
      congr 1
      apply List.map_congr_left
      intro a ha
      obtain ⟨r, hr⟩ := hb a ha
      simp [hd, tl, hr]
    rw [e]
    refine Seg.flatMap hd tl (seg_range' lo (N - lo - k) (by omega)) ?_ ?_
    · intro a ha b hab
      rw [List.mem_range'_1] at ha
      obtain ⟨r, hr⟩ := combos_head N k (a + 1) (by omega)
      have hab' : a + 1 < lo + (N - lo - k) ∧ b = a + 1 := by
        split_ifs at hab with h1
        exact ⟨h1, by simpa using hab.symm⟩
      obtain ⟨h1, rfl⟩ := hab'
      have hseg := seg_combos N k (a + 1) (by omega)
      have hl : ∀ t ∈ combos N k (a + 1), t.length = k := fun t ht => ((mem_combos N k _ t).1 ht).1
      have : hd a :: tl a = (combos N k (a + 1)).map (a :: ·) := by simp [hd, tl, hr]
      rw [this]
      refine Seg.map (a :: ·) hseg ?_ ?_
      · intro t _ t' ht; simp [nextS, ht]
      · intro t ht h0
        simp only [nextS, h0, hl t ht]
        rw [if_pos (by omega)]
        simp [hd, List.range'_succ]
    · intro a ha hab
      rw [List.mem_range'_1] at ha
      obtain ⟨r, hr⟩ := combos_head N k (a + 1) (by omega)
      have h1 : ¬ a + 1 < lo + (N - lo - k) := by
        intro h1; simp [h1] at hab
      have hseg := seg_combos N k (a + 1) (by omega)
      have hl : ∀ t ∈ combos N k (a + 1), t.length = k := fun t ht => ((mem_combos N k _ t).1 ht).1
      have : hd a :: tl a = (combos N k (a + 1)).map (a :: ·) := by simp [hd, tl, hr]
      rw [this]
      refine Seg.map (a :: ·) hseg ?_ ?_
      · intro t _ t' ht; simp [nextS, ht]
      · intro t ht h0
        simp only [nextS, h0, hl t ht]
        rw [if_neg (by omega)]

/-! ## Linking `next` to its structural form -/

theorem nextFill_spec : ∀ (k i : Nat) (g : List Nat), 0 < i → i + k = g.length →
    nextFill k i g = g.take i ++ List.range' (g.getD (i - 1) 0 + 1) k
  | 0, i, g, _, h => by
    have : g.take i = g := List.take_of_length_le (by omega)
    simp [nextFill, this]
  | k + 1, i, g, hi, h => by
    unfold nextFill
    rw [nextFill_spec k (i + 1) _ (by omega) (by simp; omega)]
    have hlt : i < g.length := by omega
    rw [List.range'_succ]
    simp only [Nat.add_sub_cancel]
    rw [List.take_add_one, List.getElem?_set, List.take_set_of_le (Nat.le_refl i)]
    simp [hlt, List.getD_eq_getElem?_getD]

/-- `next` reads position `p` as increasable. -/
def incr (N : Nat) (g : List Nat) (p : Nat) : Prop := g.getD p 0 + (g.length - p) < N

theorem nextScan_spec (g : List Nat) (N fix : Nat) : ∀ (free c : Nat), free + c = g.length →
    fix ≤ free → N ≥ c →
    (nextScan g N fix free c = fix ∧ ∀ p, fix ≤ p → p < free → ¬ incr N g p) ∨
    (∃ p, nextScan g N fix free c = p + 1 ∧ fix ≤ p ∧ p < free ∧ incr N g p ∧
      ∀ q, p < q → q < free → ¬ incr N g q) := by
  intro free
  induction free with
  | zero => intro c hc hf _; left; exact ⟨by simp [nextScan]; omega, fun p _ h => by omega⟩
  | succ free ih =>
    intro c hc hf hN
    unfold nextScan
    by_cases h : free + 1 > fix
    · rw [if_pos h]
      by_cases h2 : ((g.getD free 0 : Nat) : Int) < (N : Int) - c - 1
      · rw [if_pos h2]
        right
        exact ⟨free, rfl, by omega, by omega, by unfold incr; omega, fun q _ _ => by omega⟩
      · rw [if_neg h2]
        have hne : ¬ incr N g free := by unfold incr; omega
        by_cases hN' : N ≥ c + 1
        · rcases ih (c + 1) (by omega) (by omega) hN' with ⟨h3, h4⟩ | ⟨p, h3, h4, h5, h6, h7⟩
          · left
            refine ⟨h3, fun p hp hp2 => ?_⟩
            rcases Nat.lt_succ_iff_lt_or_eq.1 hp2 with h | rfl
            · exact h4 p hp h
            · exact hne
          · right
            refine ⟨p, h3, h4, by omega, h6, fun q hq hq2 => ?_⟩
            rcases Nat.lt_succ_iff_lt_or_eq.1 hq2 with h | rfl
            · exact h7 q hq h
            · exact hne
        · -- N = c: nothing is increasable
          have hall : ∀ f c', f + c' = g.length → fix ≤ f → N ≤ c' → nextScan g N fix f c' = fix := by
            intro f
            induction f with
            | zero => intro c' _ _ _; simp [nextScan]; omega
            | succ f ihf =>
              intro c' h1 h2 h3
              unfold nextScan
              by_cases h4 : f + 1 > fix
              · rw [if_pos h4, if_neg (by omega)]; exact ihf (c' + 1) (by omega) (by omega) (by omega)
              · rw [if_neg h4]; omega
          left
          refine ⟨hall free (c + 1) (by omega) (by omega) (by omega), fun p hp hp2 => ?_⟩
          unfold incr; omega
    · rw [if_neg h]
      left
      exact ⟨by omega, fun p h1 h2 => by omega⟩

theorem nextS_none (N : Nat) : ∀ l : List Nat, (∀ p, p < l.length → ¬ incr N l p) → nextS N l = none
  | [], _ => rfl
  | a :: t, h => by
    have h0 := h 0 (by simp)
    have ht : nextS N t = none := nextS_none N t (fun p hp => by
      have := h (p + 1) (by simpa using hp)
      simpa [incr] using this)
    simp only [nextS, ht]
    rw [if_neg]
    simp [incr] at h0; omega

theorem nextS_some (N : Nat) : ∀ (l : List Nat) (p : Nat), p < l.length → incr N l p →
    (∀ q, p < q → q < l.length → ¬ incr N l q) →
    nextS N l = some (l.take p ++ List.range' (l.getD p 0 + 1) (l.length - p))
  | [], p, h, _, _ => by simp at h
  | a :: t, 0, _, h1, h2 => by
    have ht : nextS N t = none := nextS_none N t (fun p hp => by
      have := h2 (p + 1) (by omega) (by simpa using hp)
      simpa [incr] using this)
    simp only [nextS, ht]
    rw [if_pos (by simp [incr] at h1; omega)]
    simp
  | a :: t, p + 1, h0, h1, h2 => by
    have ht := nextS_some N t p (by simpa using h0) (by simpa [incr] using h1) (fun q hq hq2 => by
      have := h2 (q + 1) (by omega) (by simpa using hq2)
      simpa [incr] using this)
    simp only [nextS, ht]
    simp

/-- `next` leaves the fixed positions alone and is `nextS` on the rest. -/
theorem next_eq (pre l : List Nat) (N : Nat) :
    next (pre ++ l) (pre.length + l.length) N pre.length = (nextS N l).map (pre ++ ·) := by
  unfold next
  have hincr : ∀ p, p < l.length → (incr N (pre ++ l) (pre.length + p) ↔ incr N l p) := by
    intro p hp
    unfold incr
    rw [List.getD_eq_getElem?_getD, List.getD_eq_getElem?_getD, List.getElem?_append_right (by omega)]
    simp only [Nat.add_sub_cancel_left, List.length_append]
    rw [show pre.length + l.length - (pre.length + p) = l.length - p by omega]
  rcases nextScan_spec (pre ++ l) N pre.length (pre.length + l.length) 0 (by simp) (by omega) (by omega) with
    ⟨h1, h2⟩ | ⟨p, h1, h2, h3, h4, h5⟩
  · simp only [h1, if_true]
    rw [nextS_none N l (fun p hp => by
      have := h2 (pre.length + p) (by omega) (by omega)
      rwa [hincr p hp] at this)]
    rfl
  · simp only [h1]
    rw [if_neg (by omega)]
    obtain ⟨q, rfl⟩ : ∃ q, p = pre.length + q := ⟨p - pre.length, by omega⟩
    have hq : q < l.length := by omega
    rw [nextS_some N l q hq ((hincr q hq).1 h4) (fun r hr hr2 => by
      have := h5 (pre.length + r) (by omega) (by omega)
      rwa [hincr r hr2] at this)]
    simp only [Option.map_some, Nat.add_sub_cancel]
    congr 1
    rw [nextFill_spec _ _ _ (by omega) (by simp; omega)]
    simp only [Nat.add_sub_cancel]
    have hv : (pre ++ l).getD (pre.length + q) 0 = l.getD q 0 := by
      rw [List.getD_eq_getElem?_getD, List.getD_eq_getElem?_getD, List.getElem?_append_right (by omega)]
      simp
    rw [hv, List.take_add_one, List.take_set_of_le (by omega), List.getElem?_set_self (by simp; omega)]
    have hv2 : ∀ y, ((pre ++ l).set (pre.length + q) y).getD (pre.length + q) 0 = y := by
      intro y; rw [List.getD_eq_getElem?_getD, List.getElem?_set_self (by simp; omega)]; rfl
    rw [hv2]
    rw [show l.length - q = (pre.length + l.length - (pre.length + q + 1)) + 1 by omega, List.range'_succ,
      List.take_append]
    simp

/-! ## Items inside the chosen partitions -/

/-- Structural form of the loop over `i` in `move_next` without fixed items: the first index whose item can
be advanced is advanced, the earlier ones are reset. -/
def innerS : (sizes inner : List Nat) → Option (List Nat)
  | s :: ss, x :: xs => if x + 1 < s then some ((x + 1) :: xs) else (innerS ss xs).map (0 :: ·)
  | _, _ => none

/-- All item choices, first index fastest; an empty partition behaves as one with one item. -/
def tuples : List Nat → List (List Nat)
  | [] => [[]]
  | s :: ss => (tuples ss).flatMap fun t => (List.range' 0 (max 1 s)).map (· :: t)

theorem tuples_head : ∀ ss, ∃ r, tuples ss = List.replicate ss.length 0 :: r
  | [] => ⟨[], rfl⟩
  | s :: ss => by
    obtain ⟨r, hr⟩ := tuples_head ss
    unfold tuples
    obtain ⟨m, hm⟩ : ∃ m, max 1 s = m + 1 := ⟨max 1 s - 1, by omega⟩
    rw [hr, List.flatMap_cons, hm, List.range'_succ, List.map_cons, List.cons_append]
    exact ⟨_, rfl⟩

theorem mem_tuples : ∀ ss t, t ∈ tuples ss ↔ List.Forall₂ (fun x s => x < max 1 s) t ss
  | [], t => by simp [tuples]
  | s :: ss, t => by
    simp only [tuples, List.mem_flatMap, List.mem_map, List.mem_range'_1, mem_tuples ss]
    constructor
    · rintro ⟨t, ht, x, hx, rfl⟩; exact List.Forall₂.cons (by omega) ht
    · intro h
      cases h with
      | cons hx ht => exact ⟨_, ht, _, by omega, rfl⟩

theorem tuples_nodup : ∀ ss, (tuples ss).Nodup
  | [] => by simp [tuples]
  | s :: ss => by
    unfold tuples
    rw [List.nodup_flatMap]
    constructor
    · intro t _
      exact (List.nodup_range' (s := 0) (n := max 1 s)).map (fun x y h => by simpa using h)
    · apply (tuples_nodup ss).imp
      intro a b hab
      simp only [Function.onFun, List.disjoint_left, List.mem_map]
      rintro x ⟨t, _, rfl⟩ ⟨t', _, h⟩
      simp at h; exact hab h.2.symm

theorem tuples_length : ∀ ss, (tuples ss).length = (ss.map (max 1)).prod
  | [] => by simp [tuples]
  | s :: ss => by
    have ih := tuples_length ss
    unfold tuples
    rw [List.length_flatMap]
    simp only [List.length_map, List.length_range', List.map_const', List.sum_replicate, smul_eq_mul, ih,
      List.map_cons, List.prod_cons]
    exact Nat.mul_comm _ _

theorem seg_tuples : ∀ ss, Seg (innerS ss) (tuples ss) none
  | [] => rfl
  | s :: ss => by
    have ih := seg_tuples ss
    unfold tuples
    let hd : List Nat → List Nat := fun t => 0 :: t
    let tl : List Nat → List (List Nat) := fun t => ((List.range' 0 (max 1 s)).map (· :: t)).tail
    obtain ⟨m, hm⟩ : ∃ m, max 1 s = m + 1 := ⟨max 1 s - 1, by omega⟩
    have e : ∀ t, (List.range' 0 (max 1 s)).map (· :: t) = hd t :: tl t := by
      intro t; simp [hd, tl, hm, List.range'_succ]
    have hr := seg_range' 0 (max 1 s) (by omega)
    have e' : (fun t => (List.range' 0 (max 1 s)).map (· :: t)) = fun t => hd t :: tl t := funext e
    rw [e']
    refine Seg.flatMap hd tl ih ?_ ?_
    · intro t _ t' ht
      rw [← e]
      refine Seg.map (· :: t) hr ?_ ?_
      · intro a ha a' haa
        rw [List.mem_range'_1] at ha
        split_ifs at haa with h1
        cases haa
        simp only [innerS]; rw [if_pos (by omega)]
      · intro a ha haa
        rw [List.mem_range'_1] at ha
        split_ifs at haa with h1
        simp only [innerS]; rw [if_neg (by omega), ht]; rfl
    · intro t _ ht
      rw [← e]
      refine Seg.map (· :: t) hr ?_ ?_
      · intro a ha a' haa
        rw [List.mem_range'_1] at ha
        split_ifs at haa with h1
        cases haa
        simp only [innerS]; rw [if_pos (by omega)]
      · intro a ha haa
        rw [List.mem_range'_1] at ha
        split_ifs at haa with h1
        simp only [innerS]; rw [if_neg (by omega), ht]; rfl

/-- The loop of `move_next` without fixed items is `innerS`. -/
theorem moveInner_eq (sizes : List Nat) (g : List Int) :
    ∀ (ps xs : List Nat) (ppre xpre : List Nat), ps.length = xs.length → ppre.length = xpre.length →
      (∀ p ∈ ps, p < sizes.length) →
      moveInner sizes g 0 (ppre ++ ps) ps.length xpre.length (xpre ++ xs) =
        match innerS (ps.map fun p => sizes.getD p 0) xs with
        | some xs' => .ok (xpre ++ xs', true)
        | none => .ok (xpre ++ List.replicate xs.length 0, false)
  | [], [], ppre, xpre, _, _, _ => by simp [moveInner, innerS]
  | [], _ :: _, _, _, h, _, _ => by simp at h
  | _ :: _, [], _, _, h, _, _ => by simp at h
  | p :: ps, x :: xs, ppre, xpre, h, hpre, hp => by
    have ih := moveInner_eq sizes g ps xs (ppre ++ [p]) (xpre ++ [0]) (by simpa using h) (by simp [hpre])
      (fun q hq => hp q (List.mem_cons_of_mem _ hq))
    have hlt := hp p (by simp)
    have hset : ∀ y, (xpre ++ x :: xs).set xpre.length y = xpre ++ y :: xs := by
      intro y; rw [List.set_append]; simp
    rw [List.length_cons, moveInner]
    have e1 : (ppre ++ p :: ps)[xpre.length]? = some p := by
      rw [← hpre, List.getElem?_append_right (by omega)]; simp
    have e2 : (xpre ++ x :: xs)[xpre.length]? = some x := by
      rw [List.getElem?_append_right (by omega)]; simp
    have e3 : sizes[p]? = some (sizes.getD p 0) := by
      rw [List.getElem?_eq_getElem hlt, List.getD_eq_getElem?_getD, List.getElem?_eq_getElem hlt]; rfl
    simp only [e1, e2, e3, hset, hasFixed, if_true, innerS, List.map_cons]
    simp only [List.append_assoc, List.cons_append, List.nil_append, List.length_append, List.length_cons,
      List.length_nil, Nat.zero_add] at ih
    by_cases hx : x + 1 < sizes.getD p 0
    · rw [if_pos (by omega), if_pos hx]
    · rw [if_neg (by omega), if_neg hx, ih]
      cases innerS (ps.map fun p => sizes.getD p 0) xs <;> simp [List.replicate_succ]

/-! ## The whole step -/

/-- Sizes of the selected partitions. -/
def selSizes (c : Combinations) (parts : List Nat) : List Nat := parts.map fun p => c.sizes.getD p 0

/-- `move_next` without fixed items, structurally. -/
def stepS (c : Combinations) (pre : List Nat) (s : List Nat × List Nat) : Option (List Nat × List Nat) :=
  match innerS (selSizes c s.1) s.2 with
  | some i' => some (s.1, i')
  | none => (nextS c.partitions.length (s.1.drop pre.length)).map
      fun l => (pre ++ l, List.replicate s.2.length 0)

theorem moveNext_eq (c : Combinations) (hc : c.numFixItems = 0) (pre l inner : List Nat)
    (hf : c.numFixPartitions = pre.length)
    (hn : inner.length = pre.length + l.length) (hpos : 0 < inner.length)
    (hlt : ∀ p ∈ pre ++ l, p < c.partitions.length) :
    moveNext c (pre.length + l.length) (pre ++ l) inner = .ok (stepS c pre (pre ++ l, inner)) := by
  have hs : c.sizes.length = c.partitions.length := by simp [Combinations.sizes]
  unfold moveNext
  obtain ⟨p0, h0⟩ : ∃ p0, (pre ++ l)[0]? = some p0 :=
    ⟨_, List.getElem?_eq_getElem (by simp; omega)⟩
  have hp0 : p0 < c.partitions.length := hlt p0 (List.mem_of_getElem? h0)
  have hin := moveInner_eq c.sizes (c.partitions[p0]) (pre ++ l) inner [] [] (by simp; omega) rfl
    (by rw [hs]; exact hlt)
  simp only [List.nil_append, List.length_append, List.length_nil] at hin
  simp only [h0, List.getElem?_eq_getElem hp0, hc, hin, stepS, selSizes]
  cases innerS ((pre ++ l).map fun p => c.sizes.getD p 0) inner with
  | some i' => rfl
  | none =>
    simp only [hf, next_eq, List.drop_left]
    cases nextS c.partitions.length l <;> simp

/-- The positions visited: every combination of partitions, and for each the item choices. -/
def visits (c : Combinations) (pre : List Nat) (k : Nat) : List (List Nat × List Nat) :=
  (combos c.partitions.length k pre.length).flatMap fun l =>
    (tuples (selSizes c (pre ++ l))).map fun i => (pre ++ l, i)

theorem visits_head (c : Combinations) (pre : List Nat) (k : Nat) (h : pre.length + k ≤ c.partitions.length) :
    ∃ r, visits c pre k = (pre ++ List.range' pre.length k, List.replicate (pre.length + k) 0) :: r := by
  obtain ⟨r, hr⟩ := combos_head c.partitions.length k pre.length h
  obtain ⟨r', hr'⟩ := tuples_head (selSizes c (pre ++ List.range' pre.length k))
  unfold visits
  rw [hr, List.flatMap_cons, hr', List.map_cons, List.cons_append]
  have : (selSizes c (pre ++ List.range' pre.length k)).length = pre.length + k := by simp [selSizes]
  rw [this]
  exact ⟨_, rfl⟩

theorem seg_visits (c : Combinations) (pre : List Nat) (k : Nat) (h : pre.length + k ≤ c.partitions.length) :
    Seg (stepS c pre) (visits c pre k) none := by
  have hseg := seg_combos c.partitions.length k pre.length h
  unfold visits
  let hd : List Nat → List Nat × List Nat := fun l => (pre ++ l, List.replicate (pre.length + l.length) 0)
  let tl : List Nat → List (List Nat × List Nat) := fun l =>
    ((tuples (selSizes c (pre ++ l))).map fun i => (pre ++ l, i)).tail
  have e : ∀ l, ((tuples (selSizes c (pre ++ l))).map fun i => (pre ++ l, i)) = hd l :: tl l := by
    intro l
    obtain ⟨r', hr'⟩ := tuples_head (selSizes c (pre ++ l))
    have : (selSizes c (pre ++ l)).length = pre.length + l.length := by simp [selSizes]
    simp only [hd, tl, hr', this, List.map_cons, List.tail_cons]
  have e' : (fun l => (tuples (selSizes c (pre ++ l))).map fun i => (pre ++ l, i)) =
      fun l => hd l :: tl l := funext e
  rw [e']
  have hlen : ∀ l, ∀ i ∈ tuples (selSizes c (pre ++ l)), i.length = pre.length + l.length := by
    intro l i hi
    rw [mem_tuples] at hi
    have := hi.length_eq
    simpa [selSizes] using this
  refine Seg.flatMap hd tl hseg ?_ ?_
  · intro l hl l' hl'
    rw [← e]
    refine Seg.map (fun i => (pre ++ l, i)) (seg_tuples (selSizes c (pre ++ l))) ?_ ?_
    · intro i _ i' hi; simp [stepS, hi]
    · intro i hi hi0
      have h1 := ((mem_combos _ _ _ l).1 hl).1
      have hl2 : l'.length = l.length := by
        clear * - hl'
        induction l generalizing l' with
        | nil => simp [nextS] at hl'
        | cons a t ih =>
          simp only [nextS] at hl'
          cases ht : nextS c.partitions.length t with
          | some t' => rw [ht] at hl'; simp at hl'; subst hl'; simp [ih t' ht]
          | none => rw [ht] at hl'; simp at hl'; rw [← hl'.2]; simp
      simp [stepS, hi0, hl', hd, hlen l i hi, hl2]
  · intro l hl hl'
    rw [← e]
    refine Seg.map (fun i => (pre ++ l, i)) (seg_tuples (selSizes c (pre ++ l))) ?_ ?_
    · intro i _ i' hi; simp [stepS, hi]
    · intro i hi hi0
      simp [stepS, hi0, hl']

theorem visits_nodup (c : Combinations) (pre : List Nat) (k : Nat) : (visits c pre k).Nodup := by
  unfold visits
  rw [List.nodup_flatMap]
  constructor
  · intro l _
    exact (tuples_nodup _).map (fun x y h => by simpa using h)
  · apply (combos_nodup _ _ _).imp
    intro a b hab
    simp only [Function.onFun, List.disjoint_left, List.mem_map]
    rintro x ⟨t, _, rfl⟩ ⟨t', _, h⟩
    simp at h; exact hab h.1.symm

theorem mem_visits (c : Combinations) (pre : List Nat) (k : Nat) (p i : List Nat) :
    (p, i) ∈ visits c pre k ↔ ∃ l, p = pre ++ l ∧ l.length = k ∧ l.Pairwise (· < ·) ∧
      (∀ x ∈ l, pre.length ≤ x ∧ x < c.partitions.length) ∧
      List.Forall₂ (fun x s => x < max 1 s) i (selSizes c p) := by
  unfold visits
  simp only [List.mem_flatMap, List.mem_map, mem_combos, mem_tuples]
  constructor
  · rintro ⟨l, ⟨h1, h2, h3⟩, t, ht, h⟩
    simp at h; obtain ⟨rfl, rfl⟩ := h
    exact ⟨l, rfl, h1, h2, h3, ht⟩
  · rintro ⟨l, rfl, h1, h2, h3, h4⟩
    exact ⟨l, ⟨h1, h2, h3⟩, i, h4, rfl⟩

/-! ## Running the loop -/

theorem loop_eq (c : Combinations) (n : Nat) (env : Env) (check : Bool) (lt : Int) (pre : List Nat) :
    ∀ (rest : List (List Nat × List Nat)) (s : List Nat × List Nat) (fuel poll m : Nat) (st : St),
      (∀ x ∈ s :: rest, moveNext c n x.1 x.2 = .ok (stepS c pre x)) →
      Seg (stepS c pre) (s :: rest) none → rest.length < fuel → m ≤ rest.length →
      (∀ j, j < m → env.cancel (poll + j) = false) → (m < rest.length → env.cancel (poll + m) = true) →
      loop c n env check lt fuel poll s.1 s.2 st =
        .ok ((rest.take m).foldl (fun st x => visit c env check lt x.1 x.2 st) st)
  | [], s, fuel, poll, m, st, hm, hseg, hf, hml, _, _ => by
    obtain ⟨f, rfl⟩ : ∃ f, fuel = f + 1 := ⟨fuel - 1, by simp at hf; omega⟩
    have h : stepS c pre s = none := hseg
    simp only [loop, hm s (by simp), h, List.take_nil, List.foldl_nil]
  | s' :: rest, s, fuel, poll, m, st, hm, hseg, hf, hml, hc1, hc2 => by
    obtain ⟨f, rfl⟩ : ∃ f, fuel = f + 1 := ⟨fuel - 1, by omega⟩
    have h : stepS c pre s = some s' := hseg.1
    simp only [loop, hm s (by simp), h]
    cases m with
    | zero =>
      have := hc2 (by simp)
      simp only [Nat.add_zero] at this
      rw [if_pos this]; rfl
    | succ m =>
      have h0 := hc1 0 (by omega)
      simp only [Nat.add_zero] at h0
      rw [if_neg (by simp [h0])]
      have ih := loop_eq c n env check lt pre rest s' f (poll + 1) m (visit c env check lt s'.1 s'.2 st)
        (fun x hx => hm x (List.mem_cons_of_mem _ hx)) hseg.2 (by simp at hf; omega)
        (by simp at hml; omega)
        (fun j hj => by rw [show poll + 1 + j = poll + (j + 1) by omega]; exact hc1 _ (by omega))
        (fun h => by rw [show poll + 1 + m = poll + (m + 1) by omega]; exact hc2 (by simpa using h))
      simpa using ih

/-- The positions of a visit are inside the partitions. -/
theorem visits_bound (c : Combinations) (f k : Nat) (hk : f + k ≤ c.partitions.length)
    (x : List Nat × List Nat) (hx : x ∈ visits c (List.range f) k) :
    ∃ l, x.1 = List.range f ++ l ∧ l.length = k ∧ x.2.length = f + k ∧
      ∀ p ∈ x.1, p < c.partitions.length := by
  obtain ⟨p, i⟩ := x
  rw [mem_visits] at hx
  obtain ⟨l, rfl, h1, _, h3, h4⟩ := hx
  refine ⟨l, rfl, h1, ?_, ?_⟩
  · have := h4.length_eq; simpa [selSizes, h1] using this
  · intro p hp
    rcases List.mem_append.1 hp with hp | hp
    · rw [List.mem_range] at hp; omega
    · exact (h3 p hp).2

theorem moveNext_visits (c : Combinations) (hc : c.numFixItems = 0) (k : Nat)
    (hk : c.numFixPartitions + k ≤ c.partitions.length) (hpos : 0 < c.numFixPartitions + k)
    (x : List Nat × List Nat) (hx : x ∈ visits c (List.range c.numFixPartitions) k) :
    moveNext c (c.numFixPartitions + k) x.1 x.2 = .ok (stepS c (List.range c.numFixPartitions) x) := by
  obtain ⟨l, h1, h2, h3, h4⟩ := visits_bound c _ k hk x hx
  obtain ⟨p, i⟩ := x
  simp only at h1 h2 h3 h4
  subst h1
  have := moveNext_eq c hc (List.range c.numFixPartitions) l i (by simp) (by simp [h2, h3])
    (by omega) h4
  simpa [h2] using this

/-- The full run without fixed items, cancelled at poll `m` (`m` = all: not cancelled). -/
theorem start_eq (c : Combinations) (hc : c.numFixItems = 0) (k : Nat) (env : Env) (check : Bool) (lt : Int)
    (hk : c.numFixPartitions + k ≤ c.partitions.length) (hpos : 0 < c.numFixPartitions + k)
    (fuel m : Nat) (hf : (visits c (List.range c.numFixPartitions) k).length ≤ fuel)
    (hm : m < (visits c (List.range c.numFixPartitions) k).length)
    (hc1 : ∀ j, j ≤ m → env.cancel j = false)
    (hc2 : m + 1 < (visits c (List.range c.numFixPartitions) k).length → env.cancel (m + 1) = true) :
    ∃ s rest, visits c (List.range c.numFixPartitions) k = s :: rest ∧
      start c (c.numFixPartitions + k) env check lt fuel =
        .ok ((rest.take m).foldl (fun st x => visit c env check lt x.1 x.2 st)
          (visit c env false lt s.1 s.2 ⟨0, [], [], []⟩)) := by
  obtain ⟨r, hr⟩ := visits_head c (List.range c.numFixPartitions) k (by simpa using hk)
  have hs := seg_visits c (List.range c.numFixPartitions) k (by simpa using hk)
  have hmv := moveNext_visits c hc k hk hpos
  rw [hr] at hs hmv hf hm hc2
  refine ⟨_, _, hr, ?_⟩
  unfold start
  rw [if_neg (by omega), if_neg (by omega)]
  simp only
  rw [if_neg (by omega), if_neg (by simp [hc1 0 (by omega)])]
  have e1 : List.range c.numFixPartitions ++ List.range' (List.range c.numFixPartitions).length k =
      List.range (c.numFixPartitions + k) := by
    rw [List.length_range, List.range_eq_range', List.range_eq_range']
    have := List.range'_append_1 (s := 0) (m := c.numFixPartitions) (n := k)
    simpa using this
  have e2 : (List.range c.numFixPartitions).length + k = c.numFixPartitions + k := by simp
  have := loop_eq c (c.numFixPartitions + k) env check lt (List.range c.numFixPartitions) r _ fuel 1 m
    (visit c env false lt (List.range (c.numFixPartitions + k)) (List.replicate (c.numFixPartitions + k) 0)
      ⟨0, [], [], []⟩) hmv hs (by simp at hf; omega) (by simpa [Nat.lt_succ_iff] using hm)
    (fun j hj => hc1 _ (by omega)) (fun h => by rw [Nat.add_comm 1 m]; exact hc2 (by simpa using h))
  simp only [e1, e2] at this ⊢
  exact this

/-! ## What the visits record -/

/-- Looking up succeeds exactly when all the items exist, and gives the columns. -/
theorem currentOf_iff (c : Combinations) :
    ∀ (p i : List Nat) (cur : List Int), i.length = p.length →
      (currentOf c p i = some cur ↔ (cur.length = p.length ∧
        ∀ j : Nat, j < p.length → ∃ g, c.partitions[p.getD j 0]? = some g ∧ i.getD j 0 < g.length ∧
          cur[j]? = g[i.getD j 0]?))
  | [], i, cur, _ => by
    simp only [currentOf, List.length_nil]
    constructor
    · intro h; cases h; exact ⟨rfl, fun j hj => by omega⟩
    · rintro ⟨h, _⟩; rw [List.length_eq_zero_iff.1 h]
  | q :: p, [], _, h => by simp at h
  | q :: p, x :: i, cur, hl => by
    have ih := fun cur => currentOf_iff c p i cur (by simpa using hl)
    simp only [currentOf]
    constructor
    · intro h
      cases hg : c.partitions[q]? with
      | none => simp [hg] at h
      | some g =>
        simp only [hg] at h
        cases hx : g[x]? with
        | none => simp [hx] at h
        | some v =>
          simp only [hx] at h
          cases ht : currentOf c p i with
          | none => simp [ht] at h
          | some t =>
            rw [ht] at h; simp at h; subst h
            obtain ⟨h1, h2⟩ := (ih t).1 ht
            refine ⟨by simp [h1], fun j hj => ?_⟩
            cases j with
            | zero => exact ⟨g, by simpa using hg, by simpa using (List.getElem?_eq_some_iff.1 hx).1, by simpa using hx.symm⟩
            | succ j =>
              obtain ⟨g', e1, e2, e3⟩ := h2 j (by simpa using hj)
              exact ⟨g', by simpa using e1, by simpa using e2, by simpa using e3⟩
    · rintro ⟨h1, h2⟩
      match cur, h1 with
      | v :: t, h1 =>
        obtain ⟨g, e1, e2, e3⟩ := h2 0 (by simp)
        simp only [List.getD_cons_zero, List.getElem?_cons_zero] at e1 e2 e3
        have ht : currentOf c p i = some t := (ih t).2 ⟨by simpa using h1, fun j hj => by
          obtain ⟨g', f1, f2, f3⟩ := h2 (j + 1) (by simpa using hj)
          exact ⟨g', by simpa using f1, by simpa using f2, by simpa using f3⟩⟩
        simp only [e1, ← e3, ht, Option.map_some]

/-- `EstimateOne` is called at this position: the items exist and (with `CheckForEmpty`) the first is a
target. -/
def called (c : Combinations) (check : Bool) (lt : Int) (x : List Nat × List Nat) : Bool :=
  match currentOf c x.1 x.2 with
  | none => false
  | some cur => !(check && decide (cur.getD 0 0 ≥ lt))

/-- `AddState` is called at this position. -/
def counted (c : Combinations) (check : Bool) (lt : Int) (x : List Nat × List Nat) : Bool :=
  match currentOf c x.1 x.2 with
  | none => true
  | some cur => !(check && decide (cur.getD 0 0 ≥ lt))

theorem fold_log (c : Combinations) (env : Env) (check : Bool) (lt : Int) :
    ∀ (L : List (List Nat × List Nat)) (st : St),
      let r := L.foldl (fun st x => visit c env check lt x.1 x.2 st) st
      r.log.map (fun v => (v.parts, v.items)) =
          st.log.map (fun v => (v.parts, v.items)) ++ L.filter (called c check lt) ∧
        r.counter = st.counter + (L.filter (counted c check lt)).length ∧
        (∀ v ∈ r.log, v ∈ st.log ∨ currentOf c v.parts v.items = some v.cur)
  | [], st => by simp; intro v hv; exact Or.inl hv
  | x :: L, st => by
    have ih := fold_log c env check lt L (visit c env check lt x.1 x.2 st)
    simp only [List.foldl_cons]
    cases hc : currentOf c x.1 x.2 with
    | none =>
      have e1 : called c check lt x = false := by simp [called, hc]
      have e2 : counted c check lt x = true := by simp [counted, hc]
      simp only [visit, hc, addState] at ih ⊢
      obtain ⟨h1, h2, h3⟩ := ih
      refine ⟨?_, ?_, h3⟩
      · rw [h1, List.filter_cons_of_neg (by simp [e1])]
      · rw [h2, List.filter_cons_of_pos e2]; simp; omega
    | some cur =>
      by_cases hs : (check && decide (cur.getD 0 0 ≥ lt)) = true
      · have e1 : called c check lt x = false := by simp only [called, hc, hs]; rfl
        have e2 : counted c check lt x = false := by simp only [counted, hc, hs]; rfl
        simp only [visit, hc, if_pos hs] at ih ⊢
        obtain ⟨h1, h2, h3⟩ := ih
        refine ⟨?_, ?_, h3⟩
        · rw [h1, List.filter_cons_of_neg (by simp [e1])]
        · rw [h2, List.filter_cons_of_neg (by simp [e2])]
      · have hs' : (check && decide (cur.getD 0 0 ≥ lt)) = false := by simpa using hs
        have e1 : called c check lt x = true := by simp only [called, hc, hs']; rfl
        have e2 : counted c check lt x = true := by simp only [counted, hc, hs']; rfl
        simp only [visit, hc, if_neg hs, addState] at ih ⊢
        obtain ⟨h1, h2, h3⟩ := ih
        refine ⟨?_, ?_, ?_⟩
        · rw [h1, List.filter_cons_of_pos e1]; simp
        · rw [h2, List.filter_cons_of_pos e2]; simp; omega
        · intro v hv
          rcases h3 v hv with h | h
          · rcases List.mem_append.1 h with h | h
            · exact Or.inl h
            · rw [List.mem_singleton] at h; subst h; exact Or.inr hc
          · exact Or.inr h

end Srch
end LDT
