import Verif.Model.Summary
import Verif.Spec.Summary
import Mathlib.Data.List.Perm.Basic
import Mathlib.Data.List.Sort
import Mathlib.Algebra.Order.Field.Rat
import Mathlib.Order.MinMax
import Mathlib.Tactic.SplitIfs
import Mathlib.Tactic.Linarith
/-!
# C20–C22: best lists and extreme bounds
-/
namespace LDT
namespace Srch

/-! ## Top-K by insertion -/

/-- The comparison is a strict weak order. -/
structure WeakOrd {α : Type} (before : α → α → Bool) : Prop where
  /-- asymmetric -/
  asym : ∀ a b, before a b = true → before b a = false
  /-- negatively transitive -/
  neg : ∀ a b c, before a b = false → before b c = false → before a c = false

variable {α : Type} {before : α → α → Bool}

theorem insertUpper_perm (a : α) (l : List α) : (insertUpper before a l).Perm (a :: l) := by
  induction l with
  | nil => rfl
  | cons b l ih =>
    unfold insertUpper
    split_ifs
    · rfl
    · exact (List.Perm.cons b ih).trans (List.Perm.swap a b l)

/-- Sorted: a later element never has to come before an earlier one. -/
abbrev Ordered (before : α → α → Bool) (l : List α) : Prop := l.Pairwise fun a b => before b a = false

theorem insertUpper_ordered (h : WeakOrd before) (a : α) (l : List α) (hl : Ordered before l) :
    Ordered before (insertUpper before a l) := by
  induction l with
  | nil => simp [insertUpper]
  | cons b l ih =>
    rw [Ordered, List.pairwise_cons] at hl
    unfold insertUpper
    split_ifs with hab
    · rw [Ordered, List.pairwise_cons, List.pairwise_cons]
      refine ⟨fun c hc => ?_, hl⟩
      rcases List.mem_cons.1 hc with rfl | hc
      · exact h.asym _ _ hab
      · exact h.neg _ _ _ (hl.1 c hc) (h.asym _ _ hab)
    · rw [Ordered, List.pairwise_cons]
      refine ⟨fun c hc => ?_, ih hl.2⟩
      rcases List.mem_cons.1 ((insertUpper_perm a l).mem_iff.1 hc) with rfl | hc
      · simpa using hab
      · exact hl.1 c hc

/-- Dropping the tail first makes no difference to the first `k` elements. -/
theorem insertUpper_take (k : Nat) (a : α) (l : List α) :
    (insertUpper before a (l.take k)).take k = (insertUpper before a l).take k := by
  induction l generalizing k with
  | nil => simp
  | cons b l ih =>
    cases k with
    | zero => simp
    | succ k =>
      simp only [List.take_succ_cons, insertUpper]
      split_ifs
      · simp only [List.take_succ_cons]
        congr 1
        rw [← List.take_succ_cons, List.take_take]
        simp
      · simp [ih k]

theorem insertUpper_length (a : α) (l : List α) : (insertUpper before a l).length = l.length + 1 := by
  have := (insertUpper_perm (before := before) a l).length_eq
  simpa using this

/-- Full insertion sort of the pushed elements, in order of arrival. -/
def insAll (before : α → α → Bool) (l : List α) : List α := l.foldl (fun s a => insertUpper before a s) []

theorem insAll_spec (h : WeakOrd before) (l : List α) :
    (insAll before l).Perm l ∧ Ordered before (insAll before l) := by
  have : ∀ (l s : List α), Ordered before s →
      (l.foldl (fun s a => insertUpper before a s) s).Perm (s ++ l) ∧
        Ordered before (l.foldl (fun s a => insertUpper before a s) s) := by
    intro l
    induction l with
    | nil => intro s hs; exact ⟨by simp, hs⟩
    | cons a l ih =>
      intro s hs
      obtain ⟨h1, h2⟩ := ih (insertUpper before a s) (insertUpper_ordered h a s hs)
      refine ⟨h1.trans ?_, h2⟩
      refine ((insertUpper_perm a s).append_right l).trans ?_
      simpa using (List.perm_middle (l₁ := s) (l₂ := l) (a := a)).symm
  have h0 := this l [] (by simp)
  simpa [insAll] using h0

theorem pushBest_eq (k : Nat) (hk : 0 < k) (b : List α) (hb : b.length ≤ k) (a : α) :
    pushBest before (k : Int) b a = (insertUpper before a b).take k := by
  unfold pushBest
  rw [if_pos (by omega)]
  simp only [insertUpper_length]
  split_ifs with h
  · rw [List.dropLast_eq_take, insertUpper_length]
    congr 1; omega
  · rw [List.take_of_length_le]
    rw [insertUpper_length]; omega

theorem pushAll_eq (k : Nat) (hk : 0 < k) (l : List α) :
    l.foldl (pushBest before (k : Int)) [] = (insAll before l).take k := by
  have : ∀ (l s : List α), l.foldl (pushBest before (k : Int)) (s.take k) =
      (l.foldl (fun s a => insertUpper before a s) s).take k := by
    intro l
    induction l with
    | nil => intro s; rfl
    | cons a l ih =>
      intro s
      simp only [List.foldl_cons]
      rw [pushBest_eq k hk _ (by simp), insertUpper_take, ih]
  have h0 := this l []
  simpa [insAll] using h0

theorem take_isTopK (k : Nat) (all s : List α) (hp : s.Perm all) (ho : Ordered before s) :
    IsTopK (fun a b => before a b = true) k all (s.take k) := by
  refine ⟨s.drop k, by rw [List.take_append_drop]; exact hp, by simp [hp.length_eq], ?_, ?_⟩
  · exact (List.Pairwise.sublist (List.take_sublist k s) ho).imp (by intro a b h; simp [h])
  · intro a ha b hb
    have ho' := ho
    rw [← List.take_append_drop k s, Ordered, List.pairwise_append] at ho'
    simpa using ho'.2.2 a ha b hb

variable {K : Type} [LinearOrder K]

theorem keepBefore_weak (pos : Bool) : WeakOrd (keepBefore (K := K) pos) := by
  constructor
  · intro a b h
    cases pos <;> simp [keepBefore] at h ⊢ <;> exact le_of_lt h
  · intro a b c h1 h2
    cases pos <;> simp [keepBefore] at h1 h2 ⊢
    · exact le_trans h2 h1
    · exact le_trans h1 h2

/-- Model `a` is better than `b`: larger metric for positively oriented metrics, smaller otherwise. -/
def Better (pos : Bool) (a b : Keep K) : Prop := if pos then b.metric < a.metric else a.metric < b.metric

theorem better_iff (pos : Bool) (a b : Keep K) : Better pos a b ↔ keepBefore pos a b = true := by
  cases pos <;> simp [Better, keepBefore]

/-- **C20**: after any sequence of pushes the list holds the `K` best pushed models (all if fewer), best first. -/
theorem C20_top_k (pos : Bool) (k : Nat) (hk : 0 < k) (pushed : List (Keep K)) :
    IsTopK (Better pos) k pushed (pushed.foldl (pushBest (keepBefore pos) (k : Int)) []) := by
  rw [pushAll_eq k hk]
  obtain ⟨h1, h2⟩ := insAll_spec (keepBefore_weak (K := K) pos) pushed
  have := take_isTopK (before := keepBefore pos) k pushed _ h1 h2
  have e : Better (K := K) pos = fun a b => keepBefore pos a b = true := by
    funext a b; exact propext (better_iff pos a b)
  rw [e]; exact this

theorem metrics_sorted_unique (pos : Bool) (l l' : List K) (hp : l.Perm l')
    (h : l.Pairwise fun a b => if pos then b ≤ a else a ≤ b)
    (h' : l'.Pairwise fun a b => if pos then b ≤ a else a ≤ b) : l = l' := by
  refine hp.eq_of_pairwise ?_ h h'
  intro a b _ _ h1 h2
  cases pos
  · simp at h1 h2; exact le_antisymm h1 h2
  · simp at h1 h2; exact le_antisymm h2 h1

/-- **C20**: the metric values kept do not depend on the order of arrival. -/
theorem C20_order_independent (pos : Bool) (k : Nat) (hk : 0 < k) (l l' : List (Keep K)) (hp : l.Perm l') :
    (l.foldl (pushBest (keepBefore pos) (k : Int)) []).map (·.metric) =
      (l'.foldl (pushBest (keepBefore pos) (k : Int)) []).map (·.metric) := by
  rw [pushAll_eq k hk, pushAll_eq k hk, List.map_take, List.map_take]
  congr 1
  obtain ⟨h1, h2⟩ := insAll_spec (keepBefore_weak (K := K) pos) l
  obtain ⟨h3, h4⟩ := insAll_spec (keepBefore_weak (K := K) pos) l'
  apply metrics_sorted_unique pos
  · exact ((h1.trans hp).trans h3.symm).map _
  · rw [List.pairwise_map]
    refine h2.imp ?_
    intro a b h; cases pos <;> simpa [keepBefore] using h
  · rw [List.pairwise_map]
    refine h4.imp ?_
    intro a b h; cases pos <;> simpa [keepBefore] using h

/-- **C20**: among equally good models the earlier one is kept first. -/
theorem C20_ties_keep_first (pos : Bool) (k : Nat) (hk : 0 < k) (a b : Keep K) (h : a.metric = b.metric) :
    [a, b].foldl (pushBest (keepBefore pos) (k : Int)) [] = [a, b].take k := by
  rw [pushAll_eq k hk]
  have : keepBefore pos b a = false := by cases pos <;> simp [keepBefore, h]
  simp [insAll, insertUpper, this]

/-- With a count of zero nothing is kept. -/
theorem C20_zero (pos : Bool) (pushed : List (Keep K)) :
    pushed.foldl (pushBest (keepBefore pos) 0) [] = [] := by
  have : ∀ s, pushed.foldl (pushBest (keepBefore pos) 0) s = s := by
    induction pushed with
    | nil => intro s; rfl
    | cons a l ih => intro s; simp [pushBest, ih]
  exact this []

/-- Non-trivial instance: four pushes, two kept. -/
example : (([⟨3, 0, 0, 0, 1⟩, ⟨1, 0, 0, 0, 2⟩, ⟨2, 0, 0, 0, 3⟩, ⟨1, 0, 0, 0, 4⟩] : List (Keep Rat)).foldl
    (pushBest (keepBefore false) 2) []).map (·.id) = [2, 4] := by decide +kernel

/-! ## Combining searchers -/

theorem combineOne_eq (k : Nat) (w : α) : ∀ (l front : List α), front.length + l.length ≤ k →
    combineOne before k w front l = (front ++ insertUpper before w l).take k
  | [], front, h => by
    unfold combineOne insertUpper
    split_ifs with h1
    · rw [List.take_of_length_le]; simp; omega
    · have : front.length = k := by simp at h; omega
      rw [List.take_append_of_le_length (by omega), List.take_of_length_le (by omega)]
  | b :: l, front, h => by
    simp only [List.length_cons] at h
    unfold combineOne
    rw [if_pos (by omega)]
    unfold insertUpper
    simp only []
    split_ifs with h1 h2
    · rw [List.dropLast_eq_take]
      congr 1
      simp only [List.length_append, List.length_cons] at h2 ⊢
      omega
    · rw [List.take_of_length_le]
      simp only [List.length_append, List.length_cons] at h2 ⊢
      omega
    · rw [combineOne_eq k w l (front ++ [b]) (by simp; omega)]
      simp

theorem combineFold_eq (k : Nat) (l s : List α) :
    l.foldl (fun r w => combineOne before k w [] r) (s.take k) =
      (l.foldl (fun s a => insertUpper before a s) s).take k := by
  induction l generalizing s with
  | nil => rfl
  | cons a l ih =>
    simp only [List.foldl_cons]
    rw [combineOne_eq k a _ [] (by simp), List.nil_append, insertUpper_take, ih]

/-- The elements the combination goes through. -/
def inScope (summaries : List (Bool × List α)) : List α := summaries.flatMap fun s => if s.1 then s.2 else []

theorem combineBests_eq (k : Nat) (hk : 0 < k) (summaries : List (Bool × List α)) (hne : summaries ≠ []) :
    combineBests before (k : Int) summaries = .ok ((insAll before (inScope summaries)).take k) := by
  unfold combineBests
  rw [if_neg (by simpa [List.length_eq_zero_iff] using hne), if_neg (by omega)]
  simp only [Int.toNat_natCast]
  congr 1
  have : ∀ (ss : List (Bool × List α)) (s : List α),
      ss.foldl (fun result s => if s.1 then
        s.2.foldl (fun result w => combineOne before k w [] result) result else result) (s.take k) =
      ((inScope ss).foldl (fun s a => insertUpper before a s) s).take k := by
    intro ss
    induction ss with
    | nil => intro s; rfl
    | cons x ss ih =>
      intro s
      simp only [List.foldl_cons, inScope, List.flatMap_cons, List.foldl_append]
      by_cases hx : x.1 = true
      · rw [if_pos hx, if_pos hx, combineFold_eq, ih]; rfl
      · rw [if_neg hx, if_neg hx, ih]; rfl
  have h := this summaries []
  simpa [insAll] using h

/-- The best of the bests of the parts are the best of the whole. -/
theorem topK_of_parts (better : α → α → Prop)
    (hneg : ∀ a b c, ¬ better a b → ¬ better b c → ¬ better a c)
    (hirr : ∀ a, ¬ better a a) (k : Nat) :
    ∀ (parts : List (List α × List α)) (r : List α), (∀ p ∈ parts, IsTopK better k p.1 p.2) →
      IsTopK better k (parts.flatMap (·.2)) r → IsTopK better k (parts.flatMap (·.1)) r := by
  classical
  intro parts r hparts htop
  obtain ⟨rest, hperm, hlen, hsort, hdom⟩ := htop
  -- collect what the parts left out
  have hrests : ∃ rests, (parts.flatMap (·.2) ++ rests).Perm (parts.flatMap (·.1)) ∧
      (∀ b ∈ rests, ∃ p ∈ parts, p.2.length = k ∧ ∀ x ∈ p.2, ¬ better b x) ∧
      min k (parts.flatMap (·.2)).length = min k (parts.flatMap (·.1)).length := by
    clear hperm hlen hdom hsort
    induction parts with
    | nil => exact ⟨[], by simp, by simp, by simp⟩
    | cons p ps ih =>
      obtain ⟨rests, h1, h2, h3⟩ := ih (fun q hq => hparts q (List.mem_cons_of_mem _ hq))
      obtain ⟨rp, e1, e2, _, e4⟩ := hparts p (by simp)
      refine ⟨rp ++ rests, ?_, ?_, ?_⟩
      · simp only [List.flatMap_cons]
        have : (p.2 ++ ps.flatMap (·.2) ++ (rp ++ rests)).Perm ((p.2 ++ rp) ++ (ps.flatMap (·.2) ++ rests)) := by
          rw [List.append_assoc, List.append_assoc]
          apply List.Perm.append_left
          rw [← List.append_assoc, ← List.append_assoc]
          exact List.perm_append_comm.append_right _
        exact this.trans (e1.append h1)
      · intro b hb
        rcases List.mem_append.1 hb with hb | hb
        · refine ⟨p, by simp, ?_, fun x hx => e4 x hx b hb⟩
          have := e1.length_eq
          have hpos : 0 < rp.length := List.length_pos_of_mem hb
          simp only [List.length_append] at this
          omega
        · obtain ⟨q, hq, f1, f2⟩ := h2 b hb
          exact ⟨q, List.mem_cons_of_mem _ hq, f1, f2⟩
      · simp only [List.flatMap_cons, List.length_append]
        omega
  obtain ⟨rests, h1, h2, h3⟩ := hrests
  refine ⟨rest ++ rests, ?_, by rw [hlen, h3], hsort, ?_⟩
  · rw [← List.append_assoc]
    exact (hperm.append_right rests).trans h1
  · intro a ha b hb
    rcases List.mem_append.1 hb with hb | hb
    · exact hdom a ha b hb
    · intro hba
      obtain ⟨p, hp, hl, hx⟩ := h2 b hb
      -- every element of the part's list is better than `a`
      have hall : ∀ x ∈ p.2, better x a := by
        intro x hxm
        by_contra hc
        exact hneg b x a (hx x hxm) hc hba
      have hsub : p.2.Sublist (parts.flatMap (·.2)) := by
        clear * - hp
        induction parts with
        | nil => simp at hp
        | cons q qs ih =>
          simp only [List.flatMap_cons]
          rcases List.mem_cons.1 hp with rfl | hp
          · exact List.sublist_append_left _ _
          · exact (ih hp).trans (List.sublist_append_right _ _)
      have c1 : p.2.length ≤ (parts.flatMap (·.2)).countP (fun x => decide (better x a)) := by
        have : p.2.countP (fun x => decide (better x a)) = p.2.length :=
          List.countP_eq_length.2 (fun x hxm => by simpa using hall x hxm)
        rw [← this]; exact hsub.countP_le
      have c2 : (parts.flatMap (·.2)).countP (fun x => decide (better x a)) =
          r.countP (fun x => decide (better x a)) := by
        rw [← hperm.countP_eq, List.countP_append]
        have : rest.countP (fun x => decide (better x a)) = 0 :=
          List.countP_eq_zero.2 (fun x hxm => by simpa using hdom a ha x hxm)
        omega
      have c3 : r.countP (fun x => decide (better x a)) < r.length := by
        refine lt_of_le_of_ne List.countP_le_length ?_
        intro he
        have := List.countP_eq_length.1 he a ha
        simp at this
        exact hirr a this
      have : r.length ≤ k := by rw [hlen]; omega
      omega

theorem Better_neg (pos : Bool) (a b c : Keep K) (h1 : ¬ Better pos a b) (h2 : ¬ Better pos b c) :
    ¬ Better pos a c := by
  rw [better_iff] at *
  simp only [Bool.not_eq_true] at *
  exact (keepBefore_weak pos).neg _ _ _ h1 h2

theorem heavier_weak : WeakOrd (heavier (K := K)) := by
  constructor
  · intro a b h; simp [heavier] at h ⊢; exact le_of_lt h
  · intro a b c h1 h2; simp [heavier] at h1 h2 ⊢; exact le_trans h1 h2

/-- **C21**: let each searcher have pushed the models of its list.  If for the models pushed a better metric
means a larger weight (C25), then the combination of the best lists of the matching searchers is a list of the
`K` best of all their models.  Partial: the code compares weights, not metrics; without the hypothesis on the
weights the claim is false (`C21_violated_weight`). -/
theorem C21_combine_partial (pos : Bool) (k : Nat) (hk : 0 < k) (searchers : List (Bool × List (Keep K)))
    (hne : searchers ≠ [])
    (hw : ∀ a ∈ inScope searchers, ∀ b ∈ inScope searchers, Better pos a b ↔ b.weight < a.weight) :
    ∃ r, combineBests heavier (k : Int)
        (searchers.map fun s => (s.1, s.2.foldl (pushBest (keepBefore pos) (k : Int)) [])) = .ok r ∧
      IsTopK (Better pos) k (inScope searchers) r := by
  have hne' : (searchers.map fun s => (s.1, s.2.foldl (pushBest (keepBefore (K := K) pos) (k : Int)) [])) ≠ [] := by
    simpa using hne
  refine ⟨_, combineBests_eq k hk _ hne', ?_⟩
  -- the matching searchers as (pushed, kept)
  let parts : List (List (Keep K) × List (Keep K)) := searchers.map fun s =>
    if s.1 then (s.2, s.2.foldl (pushBest (keepBefore pos) (k : Int)) []) else ([], [])
  have hp1 : parts.flatMap (·.1) = inScope searchers := by
    simp only [parts, inScope, List.flatMap_map]
    congr 1; funext s; split_ifs <;> rfl
  have hp2 : parts.flatMap (·.2) =
      inScope (searchers.map fun s => (s.1, s.2.foldl (pushBest (keepBefore pos) (k : Int)) [])) := by
    simp only [parts, inScope, List.flatMap_map]
    congr 1; funext s; split_ifs <;> rfl
  have hparts : ∀ p ∈ parts, IsTopK (Better pos) k p.1 p.2 := by
    intro p hp
    simp only [parts, List.mem_map] at hp
    obtain ⟨s, _, rfl⟩ := hp
    split_ifs
    · exact C20_top_k pos k hk s.2
    · exact ⟨[], by simp, by simp, by simp, by simp⟩
  rw [← hp1]
  refine topK_of_parts (Better pos) (Better_neg pos) (fun a h => by cases pos <;> simp [Better] at h) k parts _
    hparts ?_
  rw [hp2]
  generalize hS : inScope (searchers.map fun s =>
    (s.1, s.2.foldl (pushBest (keepBefore (K := K) pos) (k : Int)) [])) = S
  have hmem : ∀ x ∈ S, x ∈ inScope searchers := by
    intro x hx
    rw [← hS, ← hp2, List.mem_flatMap] at hx
    obtain ⟨p, hp, hx⟩ := hx
    obtain ⟨rp, e1, _⟩ := hparts p hp
    rw [← hp1, List.mem_flatMap]
    exact ⟨p, hp, e1.mem_iff.1 (List.mem_append_left _ hx)⟩
  obtain ⟨h1, h2⟩ := insAll_spec (heavier_weak (K := K)) S
  obtain ⟨rest, f1, f2, f3, f4⟩ := take_isTopK (before := heavier) k S _ h1 h2
  have hS1 : ∀ x ∈ (insAll heavier S).take k, x ∈ inScope searchers := fun x hx =>
    hmem x (h1.mem_iff.1 (List.mem_of_mem_take hx))
  have hS2 : ∀ x ∈ rest, x ∈ inScope searchers := fun x hx =>
    hmem x (f1.mem_iff.1 (List.mem_append_right _ hx))
  refine ⟨rest, f1, f2, ?_, ?_⟩
  · refine f3.imp_of_mem ?_
    intro a b ha hb hab
    rw [hw b (hS1 b hb) a (hS1 a ha)]
    simpa [heavier] using hab
  · intro a ha b hb
    rw [hw b (hS2 b hb) a (hS1 a ha)]
    simpa [heavier] using f4 a ha b hb

/-- Two lists of the `K` best of the same models have the same metric values. -/
theorem topK_metrics (pos : Bool) (k : Nat) (all r : List (Keep K)) (h : IsTopK (Better pos) k all r) :
    r.map (·.metric) = ((insAll (keepBefore pos) all).take k).map (·.metric) := by
  obtain ⟨rest, h1, h2, h3, h4⟩ := h
  obtain ⟨g1, g2⟩ := insAll_spec (keepBefore_weak (K := K) pos) rest
  have hs : Ordered (keepBefore pos) (r ++ insAll (keepBefore pos) rest) := by
    rw [Ordered, List.pairwise_append]
    refine ⟨h3.imp (fun h => by rw [better_iff] at h; simpa using h), g2, fun a ha b hb => ?_⟩
    have := h4 a ha b (g1.mem_iff.1 hb)
    rw [better_iff] at this; simpa using this
  obtain ⟨e1, e2⟩ := insAll_spec (keepBefore_weak (K := K) pos) all
  have hp : (r ++ insAll (keepBefore pos) rest).Perm (insAll (keepBefore pos) all) :=
    ((g1.append_left r).trans h1).trans e1.symm
  have he := metrics_sorted_unique pos _ _ (hp.map (·.metric))
    (by rw [List.pairwise_map]; exact hs.imp (fun {a b} h => by cases pos <;> simpa [keepBefore] using h))
    (by rw [List.pairwise_map]; exact e2.imp (fun {a b} h => by cases pos <;> simpa [keepBefore] using h))
  have hl : r.length ≤ k := by rw [h2]; omega
  have h5 := congrArg (List.take k) he
  rw [List.map_append] at h5
  rw [List.map_take, ← h5]
  by_cases hrk : r.length = k
  · rw [List.take_append_of_le_length (by simp [hrk]), List.take_of_length_le (by simp [hrk])]
  · have h6 := h1.length_eq
    simp only [List.length_append] at h6
    have : rest = [] := List.length_eq_zero_iff.1 (by omega)
    subst this
    simp [insAll]
    rw [List.take_of_length_le]; simp; omega

/-- **C21**: under the same hypothesis on the weights, the combined metric values do not depend on how the models
were distributed over the searchers nor on the order of the searchers. -/
theorem C21_distribution_independent_partial (pos : Bool) (k : Nat) (hk : 0 < k)
    (s1 s2 : List (Bool × List (Keep K))) (h1 : s1 ≠ []) (h2 : s2 ≠ [])
    (hp : (inScope s1).Perm (inScope s2))
    (hw : ∀ a ∈ inScope s1, ∀ b ∈ inScope s1, Better pos a b ↔ b.weight < a.weight) :
    ∃ r1 r2, combineBests heavier (k : Int)
        (s1.map fun s => (s.1, s.2.foldl (pushBest (keepBefore pos) (k : Int)) [])) = .ok r1 ∧
      combineBests heavier (k : Int)
        (s2.map fun s => (s.1, s.2.foldl (pushBest (keepBefore pos) (k : Int)) [])) = .ok r2 ∧
      r1.map (·.metric) = r2.map (·.metric) := by
  obtain ⟨r1, e1, t1⟩ := C21_combine_partial pos k hk s1 h1 hw
  obtain ⟨r2, e2, t2⟩ := C21_combine_partial pos k hk s2 h2 (fun a ha b hb =>
    hw a (hp.mem_iff.2 ha) b (hp.mem_iff.2 hb))
  refine ⟨r1, r2, e1, e2, ?_⟩
  obtain ⟨rest, f1, f2, f3, f4⟩ := t2
  have t2' : IsTopK (Better pos) k (inScope s1) r2 :=
    ⟨rest, f1.trans hp.symm, by rw [f2, hp.length_eq], f3, f4⟩
  rw [topK_metrics pos k _ _ t1, topK_metrics pos k _ _ t2']

/-- C21 fails for models whose weights are not ordered as their metrics (here all weights equal): with the metric
"smaller is better" the worse model of the first searcher wins. -/
theorem C21_violated_weight :
    ∃ (a b : Keep Rat), Better false b a ∧
      combineBests heavier 1 ([(true, [a]), (true, [b])].map fun s =>
        (s.1, s.2.foldl (pushBest (keepBefore false) 1) [])) = .ok [a] :=
  ⟨⟨2, 0, 0, 0, 1⟩, ⟨1, 0, 0, 0, 2⟩, by simp [Better], by decide +kernel⟩

/-- The hypotheses of C21 are met by ordinary models (weight `-metric`). -/
example : combineBests heavier 2 ([(true, [⟨3, -3, 0, 0, 1⟩, ⟨1, -1, 0, 0, 2⟩]), (false, [⟨0, 0, 0, 0, 9⟩]),
    (true, [⟨2, -2, 0, 0, 3⟩])].map fun s =>
      (s.1, (s.2 : List (Keep Rat)).foldl (pushBest (keepBefore false) 2) [])) =
    .ok [⟨1, -1, 0, 0, 2⟩, ⟨2, -2, 0, 0, 3⟩] := by decide +kernel

/-- Every model of every matching summary is reported by the "all models" list, in order. -/
theorem C20_all_models (summaries : List (Bool × List (Keep K))) (h : summaries ≠ []) :
    ∃ r, combineAll summaries = .ok r ∧ ∀ m, m ∈ r ↔ ∃ s ∈ summaries, s.1 = true ∧ m ∈ s.2 := by
  refine ⟨_, if_neg (by simpa [List.length_eq_zero_iff] using h), fun m => ?_⟩
  rw [List.mem_flatMap]
  constructor
  · rintro ⟨s, hs, hm⟩
    by_cases hx : s.1 = true
    · rw [if_pos hx] at hm; exact ⟨s, hs, hx, hm⟩
    · rw [if_neg hx] at hm; simp at hm
  · rintro ⟨s, hs, hx, hm⟩; exact ⟨s, hs, by rw [if_pos hx]; exact hm⟩

/-! ## Extreme bounds -/

section Bounds
variable {F : Type} [Field F] [LinearOrder F]

theorem bounds_fold (mult : F) (sqrt : F → F) (pushed : List (Keep F)) (b0 : F × F) :
    let r := pushed.foldl (fun (b : F × F) c =>
      (min b.1 (c.mean - mult * sqrt c.variance), max b.2 (c.mean + mult * sqrt c.variance))) b0
    (r.1 ≤ b0.1 ∧ (∀ c ∈ pushed, r.1 ≤ c.mean - mult * sqrt c.variance) ∧
      (r.1 = b0.1 ∨ ∃ c ∈ pushed, r.1 = c.mean - mult * sqrt c.variance)) ∧
    (b0.2 ≤ r.2 ∧ (∀ c ∈ pushed, c.mean + mult * sqrt c.variance ≤ r.2) ∧
      (r.2 = b0.2 ∨ ∃ c ∈ pushed, r.2 = c.mean + mult * sqrt c.variance)) := by
  induction pushed generalizing b0 with
  | nil => simp
  | cons c l ih =>
    simp only [List.foldl_cons]
    obtain ⟨⟨h1, h2, h3⟩, h4, h5, h6⟩ := ih (min b0.1 (c.mean - mult * sqrt c.variance),
      max b0.2 (c.mean + mult * sqrt c.variance))
    simp only at h1 h2 h3 h4 h5 h6
    refine ⟨⟨h1.trans (min_le_left _ _), ?_, ?_⟩, (le_max_left _ _).trans h4, ?_, ?_⟩
    · intro x hx
      rcases List.mem_cons.1 hx with rfl | hx
      · exact h1.trans (min_le_right _ _)
      · exact h2 x hx
    · rcases h3 with h | ⟨x, hx, h⟩
      · rcases min_choice b0.1 (c.mean - mult * sqrt c.variance) with h' | h'
        · left; rw [h, h']
        · right; exact ⟨c, by simp, by rw [h, h']⟩
      · right; exact ⟨x, List.mem_cons_of_mem _ hx, h⟩
    · intro x hx
      rcases List.mem_cons.1 hx with rfl | hx
      · exact (le_max_right _ _).trans h4
      · exact h5 x hx
    · rcases h6 with h | ⟨x, hx, h⟩
      · rcases max_choice b0.2 (c.mean + mult * sqrt c.variance) with h' | h'
        · left; rw [h, h']
        · right; exact ⟨c, by simp, by rw [h, h']⟩
      · right; exact ⟨x, List.mem_cons_of_mem _ hx, h⟩

/-- **C22** (partial): with at least one estimate below the largest double, the lower bound is the smallest of
the lower ends; every interval lies within the bounds; and the upper bound is the largest upper end provided some
upper end is at least the smallest positive double.  Missing: `C22_violated_negative`. -/
theorem C22_bounds_partial (big tiny mult : F) (sqrt : F → F) (pushed : List (Keep F))
    (hbig : ∃ c ∈ pushed, c.mean - mult * sqrt c.variance ≤ big) :
    let r := extremeBounds big tiny mult sqrt pushed
    (∀ c ∈ pushed, r.1 ≤ c.mean - mult * sqrt c.variance ∧ c.mean + mult * sqrt c.variance ≤ r.2) ∧
    (∃ c ∈ pushed, r.1 = c.mean - mult * sqrt c.variance) ∧
    ((∃ c ∈ pushed, tiny ≤ c.mean + mult * sqrt c.variance) →
      ∃ c ∈ pushed, r.2 = c.mean + mult * sqrt c.variance) := by
  obtain ⟨⟨h1, h2, h3⟩, h4, h5, h6⟩ := bounds_fold mult sqrt pushed (big, tiny)
  simp only [extremeBounds]
  refine ⟨fun c hc => ⟨h2 c hc, h5 c hc⟩, ?_, ?_⟩
  · rcases h3 with h | h
    · obtain ⟨c, hc, hle⟩ := hbig
      exact ⟨c, hc, le_antisymm (h2 c hc) (by rw [h]; exact hle)⟩
    · exact h
  · rintro ⟨c, hc, hle⟩
    rcases h6 with h | h
    · exact ⟨c, hc, le_antisymm (by rw [h]; exact hle) (h5 c hc)⟩
    · exact h

/-- C22 fails when all upper ends are negative: the reported upper bound is the smallest positive double
(any positive number `tiny`), attained by no estimate. -/
theorem C22_violated_negative (big tiny : Rat) (ht : 0 < tiny) :
    ∃ pushed : List (Keep Rat), pushed ≠ [] ∧
      (extremeBounds big tiny 2 (fun x => x) pushed).2 = tiny ∧
      ∀ c ∈ pushed, c.mean + 2 * c.variance < 0 := by
  refine ⟨[⟨0, 0, -5, 1, 0⟩], by simp, ?_, ?_⟩
  · have h0 : (-5 + 2 * 1 : Rat) = -3 := by decide +kernel
    simp only [extremeBounds, List.foldl_cons, List.foldl_nil, h0]
    exact max_eq_left (le_trans (by decide +kernel) (le_of_lt ht))
  · intro c hc
    simp only [List.mem_singleton] at hc
    subst hc
    show (-5 + 2 * 1 : Rat) < 0
    decide +kernel

theorem combineBounds_fold (l : List (Bool × (F × F))) (b0 : F × F) :
    l.foldl (fun r s => if s.1 then (if r.1 > s.2.1 then s.2.1 else r.1, if r.2 < s.2.2 then s.2.2 else r.2)
      else r) b0 =
    ((l.filter (·.1)).foldl (fun m s => min m s.2.1) b0.1, (l.filter (·.1)).foldl (fun m s => max m s.2.2) b0.2) := by
  induction l generalizing b0 with
  | nil => rfl
  | cons s l ih =>
    rw [List.foldl_cons, ih]
    by_cases hs : s.1 = true
    · rw [if_pos hs, List.filter_cons_of_pos hs, List.foldl_cons, List.foldl_cons]
      simp only
      congr 2
      · split_ifs with h
        · exact (min_eq_right (le_of_lt h)).symm
        · exact (min_eq_left (not_lt.1 h)).symm
      · split_ifs with h
        · exact (max_eq_right (le_of_lt h)).symm
        · exact (max_eq_left (not_lt.1 h)).symm
    · rw [if_neg hs, List.filter_cons_of_neg (by simpa using hs)]

/-- **C22** for a model set (partial, same gap): combining the bounds of the matching summaries gives the bounds
of all their estimates together. -/
theorem C22_combined_partial (big tiny mult : F) (sqrt : F → F) (searchers : List (Bool × List (Keep F)))
    (hne : searchers ≠ []) :
    combineExtremeBounds big tiny (searchers.map fun s => (s.1, extremeBounds big tiny mult sqrt s.2)) =
      .ok (extremeBounds big tiny mult sqrt (inScope searchers)) := by
  unfold combineExtremeBounds
  rw [if_neg (by simpa [List.length_eq_zero_iff] using hne), combineBounds_fold]
  congr 1
  have hmin : ∀ (l : List (Keep F)) (x : F × F),
      l.foldl (fun (b : F × F) c =>
        (min b.1 (c.mean - mult * sqrt c.variance), max b.2 (c.mean + mult * sqrt c.variance))) x =
      (l.foldl (fun m c => min m (c.mean - mult * sqrt c.variance)) x.1,
        l.foldl (fun m c => max m (c.mean + mult * sqrt c.variance)) x.2) := by
    intro l
    induction l with
    | nil => intro x; rfl
    | cons c l ih => intro x; rw [List.foldl_cons, ih]; rfl
  have e1 : ∀ (l : List (Keep F)) (x y : F), l.foldl (fun m c => min m (c.mean - mult * sqrt c.variance)) (min x y) =
      min x (l.foldl (fun m c => min m (c.mean - mult * sqrt c.variance)) y) := by
    intro l
    induction l with
    | nil => intro x y; rfl
    | cons c l ih => intro x y; rw [List.foldl_cons, List.foldl_cons, min_assoc, ih]
  have e2 : ∀ (l : List (Keep F)) (x y : F), l.foldl (fun m c => max m (c.mean + mult * sqrt c.variance)) (max x y) =
      max x (l.foldl (fun m c => max m (c.mean + mult * sqrt c.variance)) y) := by
    intro l
    induction l with
    | nil => intro x y; rfl
    | cons c l ih => intro x y; rw [List.foldl_cons, List.foldl_cons, max_assoc, ih]
  simp only [extremeBounds, hmin]
  -- compare the two folds searcher by searcher
  have f1 : ∀ (ss : List (Bool × List (Keep F))) (x : F), x ≤ big →
      ((ss.map fun s => (s.1, (s.2.foldl (fun m c => min m (c.mean - mult * sqrt c.variance)) big,
        s.2.foldl (fun m c => max m (c.mean + mult * sqrt c.variance)) tiny))).filter (·.1)).foldl
          (fun m s => min m s.2.1) x =
      (inScope ss).foldl (fun m c => min m (c.mean - mult * sqrt c.variance)) x := by
    intro ss
    induction ss with
    | nil => intro x _; rfl
    | cons s ss ih =>
      intro x hx
      simp only [List.map_cons, inScope, List.flatMap_cons, List.foldl_append]
      by_cases hs : s.1 = true
      · rw [List.filter_cons_of_pos (by exact hs), List.foldl_cons, if_pos hs]
        simp only
        rw [← e1, min_eq_left hx, ih]
        · rfl
        · have : ∀ (l : List (Keep F)) (y : F), l.foldl (fun m c => min m (c.mean - mult * sqrt c.variance)) y ≤ y := by
            intro l
            induction l with
            | nil => intro y; exact le_refl y
            | cons c l ih => intro y; exact (ih _).trans (min_le_left _ _)
          exact (this _ _).trans hx
      · rw [List.filter_cons_of_neg (by simpa using hs), if_neg hs, ih x hx]; rfl
  have f2 : ∀ (ss : List (Bool × List (Keep F))) (x : F), tiny ≤ x →
      ((ss.map fun s => (s.1, (s.2.foldl (fun m c => min m (c.mean - mult * sqrt c.variance)) big,
        s.2.foldl (fun m c => max m (c.mean + mult * sqrt c.variance)) tiny))).filter (·.1)).foldl
          (fun m s => max m s.2.2) x =
      (inScope ss).foldl (fun m c => max m (c.mean + mult * sqrt c.variance)) x := by
    intro ss
    induction ss with
    | nil => intro x _; rfl
    | cons s ss ih =>
      intro x hx
      simp only [List.map_cons, inScope, List.flatMap_cons, List.foldl_append]
      by_cases hs : s.1 = true
      · rw [List.filter_cons_of_pos (by exact hs), List.foldl_cons, if_pos hs]
        simp only
        rw [← e2, max_eq_left hx, ih]
        · rfl
        · have : ∀ (l : List (Keep F)) (y : F), y ≤ l.foldl (fun m c => max m (c.mean + mult * sqrt c.variance)) y := by
            intro l
            induction l with
            | nil => intro y; exact le_refl y
            | cons c l ih => intro y; exact (le_max_left _ _).trans (ih _)
          exact hx.trans (this _ _)
      · rw [List.filter_cons_of_neg (by simpa using hs), if_neg hs, ih x hx]; rfl
  exact Prod.ext (f1 searchers big (le_refl _)) (f2 searchers tiny (le_refl _))

example : extremeBounds (1000 : Rat) (1/1000) 2 (fun x => x) [⟨0, 0, 1, 1, 0⟩, ⟨0, 0, -4, 1, 1⟩] = (-6, 3) := by
  decide +kernel

end Bounds

end Srch
end LDT
