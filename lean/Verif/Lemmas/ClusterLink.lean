import Verif.Lemmas.ClusterTree
import Mathlib.Tactic.FieldSimp
import Mathlib.Tactic.LinearCombination
/-!
# The linkage values of a dendrogram
-/
namespace LDT
namespace Cl
open Mx

section
variable {K : Type} [Field K] [LinearOrder K] [IsStrictOrderedRing K]

theorem Tree.size_node (s t : Tree) : (Tree.node s t).size = s.size + t.size := by
  simp [Tree.size, Tree.leaves]

theorem Tree.size_pos (t : Tree) : 1 ≤ t.size := by
  induction t with
  | leaf i => simp [Tree.size, Tree.leaves]
  | node l r ihl ihr => rw [Tree.size_node]; omega

theorem Tree.exists_leaf (t : Tree) : ∃ i, i ∈ t.leaves := by
  have := t.size_pos
  unfold Tree.size at this
  cases h : t.leaves with
  | nil => rw [h] at this; simp at this
  | cons a l => exact ⟨a, by simp⟩

theorem pairSum_left (d : Nat → Nat → K) (s t u : Tree) : pairSum d (.node s t) u = pairSum d s u + pairSum d t u := by
  simp [pairSum, Tree.leaves]

theorem pairSum_comm_aux (d : Nat → Nat → K) (hd : ∀ i j, d i j = d j i) (l m : List Nat) :
    (l.map (fun i => (m.map (fun j => d i j)).sum)).sum = (m.map (fun i => (l.map (fun j => d i j)).sum)).sum := by
  induction l with
  | nil => simp
  | cons a l ih =>
    simp only [List.map_cons, List.sum_cons, ih]
    rw [List.sum_map_add]
    congr 2
    exact List.map_congr_left (fun i _ => hd a i)

theorem pairSum_comm (d : Nat → Nat → K) (hd : ∀ i j, d i j = d j i) (s t : Tree) : pairSum d s t = pairSum d t s :=
  pairSum_comm_aux d hd _ _

theorem pairSum_right (d : Nat → Nat → K) (hd : ∀ i j, d i j = d j i) (s t u : Tree) :
    pairSum d u (.node s t) = pairSum d u s + pairSum d u t := by
  rw [pairSum_comm d hd, pairSum_left, pairSum_comm d hd s, pairSum_comm d hd t]

theorem wmean_mean (f g : Nat → K) (t : Tree) : wmean (fun i => (f i + g i) / 2) t = (wmean f t + wmean g t) / 2 := by
  induction t with
  | leaf i => rfl
  | node l r ihl ihr => simp only [wmean, ihl, ihr]; ring

theorem wmean_swap (d : Nat → Nat → K) (s t : Tree) :
    wmean (fun i => wmean (fun j => d i j) t) s = wmean (fun j => wmean (fun i => d i j) s) t := by
  induction s with
  | leaf i => rfl
  | node l r ihl ihr => simp only [wmean, ihl, ihr]; rw [wmean_mean]

theorem LinkValue.symm {link : Linkage} {d : Nat → Nat → K} (hd : ∀ i j, d i j = d j i) {s t : Tree} {v : K}
    (h : LinkValue link d s t v) : LinkValue link d t s v := by
  cases link with
  | single =>
    obtain ⟨⟨i, hi, j, hj, e⟩, hm⟩ := h
    exact ⟨⟨j, hj, i, hi, by rw [hd, e]⟩, fun j hj i hi => by rw [hd]; exact hm i hi j hj⟩
  | complete =>
    obtain ⟨⟨i, hi, j, hj, e⟩, hm⟩ := h
    exact ⟨⟨j, hj, i, hi, by rw [hd, e]⟩, fun j hj i hi => by rw [hd]; exact hm i hi j hj⟩
  | averageU =>
    show v = _
    rw [pairSum_comm d hd, mul_comm]; exact h
  | averageW =>
    show v = wmean (fun i => wmean (fun j => d i j) s) t
    have h : v = wmean (fun i => wmean (fun j => d i j) t) s := h
    rw [h, wmean_swap]
    simp only [hd]
  | ward =>
    have h : v = 2 * (inertia d (.node s t) - inertia d s - inertia d t) := h
    show v = 2 * (inertia d (.node t s) - inertia d t - inertia d s)
    rw [h]
    have : inertia d (.node s t) = inertia d (.node t s) := by
      unfold inertia
      simp only [pairSum_left, pairSum_right d hd, Tree.size_node]
      push_cast
      rw [add_comm (s.size : K)]
      congr 1
      ring
    rw [this]; ring

theorem LinkValue.unique {link : Linkage} {d : Nat → Nat → K} {s t : Tree} {v w : K}
    (h : LinkValue link d s t v) (h' : LinkValue link d s t w) : v = w := by
  cases link with
  | single =>
    obtain ⟨⟨i, hi, j, hj, e⟩, hm⟩ := h
    obtain ⟨⟨i', hi', j', hj', e'⟩, hm'⟩ := h'
    exact le_antisymm (by rw [← e']; exact hm i' hi' j' hj') (by rw [← e]; exact hm' i hi j hj)
  | complete =>
    obtain ⟨⟨i, hi, j, hj, e⟩, hm⟩ := h
    obtain ⟨⟨i', hi', j', hj', e'⟩, hm'⟩ := h'
    exact le_antisymm (by rw [← e]; exact hm' i hi j hj) (by rw [← e']; exact hm i' hi' j' hj')
  | averageU => exact Eq.trans h (Eq.symm h')
  | averageW => exact Eq.trans h (Eq.symm h')
  | ward => exact Eq.trans h (Eq.symm h')

theorem LinkValue.points (link : Linkage) {d : Nat → Nat → K} (hd : ∀ i j, d i j = d j i) (h0 : ∀ i, d i i = 0) (i j : Nat) :
    LinkValue link d (.leaf i) (.leaf j) (d i j) := by
  cases link with
  | single => exact ⟨⟨i, by simp [Tree.leaves], j, by simp [Tree.leaves], rfl⟩, by simp [Tree.leaves]⟩
  | complete => exact ⟨⟨i, by simp [Tree.leaves], j, by simp [Tree.leaves], rfl⟩, by simp [Tree.leaves]⟩
  | averageU => show d i j = _; simp [pairSum, Tree.leaves, Tree.size]
  | averageW => rfl
  | ward =>
    show d i j = _
    simp [inertia, pairSum, Tree.leaves, Tree.size, h0, hd j i]
    ring

/-- The update rules are right. -/
theorem LinkValue.merge {link : Linkage} {d : Nat → Nat → K} (hd : ∀ i j, d i j = d j i)
    {s t u : Tree} {a b c : K} (h1 : LinkValue link d s u a) (h2 : LinkValue link d t u b) (h3 : LinkValue link d s t c) :
    LinkValue link d (.node s t) u (calcDist link s.size t.size u.size a b c) := by
  have ps : (0 : K) < s.size := by exact_mod_cast s.size_pos
  have pt : (0 : K) < t.size := by exact_mod_cast t.size_pos
  have pu : (0 : K) < u.size := by exact_mod_cast u.size_pos
  cases link with
  | single =>
    obtain ⟨⟨i, hi, j, hj, e⟩, hm⟩ := h1
    obtain ⟨⟨i', hi', j', hj', e'⟩, hm'⟩ := h2
    show IsSingle d (.node s t) u (if a > b then b else a)
    split
    case isTrue hab =>
      refine ⟨⟨i', List.mem_append_right _ hi', j', hj', e'⟩, fun x hx y hy => ?_⟩
      rcases List.mem_append.1 hx with h | h
      · exact hab.le.trans (hm x h y hy)
      · exact hm' x h y hy
    case isFalse hab =>
      refine ⟨⟨i, List.mem_append_left _ hi, j, hj, e⟩, fun x hx y hy => ?_⟩
      rcases List.mem_append.1 hx with h | h
      · exact hm x h y hy
      · exact (not_lt.1 hab).trans (hm' x h y hy)
  | complete =>
    obtain ⟨⟨i, hi, j, hj, e⟩, hm⟩ := h1
    obtain ⟨⟨i', hi', j', hj', e'⟩, hm'⟩ := h2
    show IsComplete d (.node s t) u (if a > b then a else b)
    split
    case isTrue hab =>
      refine ⟨⟨i, List.mem_append_left _ hi, j, hj, e⟩, fun x hx y hy => ?_⟩
      rcases List.mem_append.1 hx with h | h
      · exact hm x h y hy
      · exact (hm' x h y hy).trans hab.le
    case isFalse hab =>
      refine ⟨⟨i', List.mem_append_right _ hi', j', hj', e'⟩, fun x hx y hy => ?_⟩
      rcases List.mem_append.1 hx with h | h
      · exact (hm x h y hy).trans (not_lt.1 hab)
      · exact hm' x h y hy
  | averageU =>
    have h1 : a = _ := h1
    have h2 : b = _ := h2
    show (s.size : K) / ((s.size : K) + t.size) * a + (1 - (s.size : K) / ((s.size : K) + t.size)) * b = _
    rw [h1, h2, pairSum_left, Tree.size_node]
    push_cast
    field_simp
    ring
  | averageW =>
    have h1 : a = _ := h1
    have h2 : b = _ := h2
    show (a + b) / 2 = _
    rw [h1, h2]; rfl
  | ward =>
    have h1 : a = 2 * (inertia d (.node s u) - inertia d s - inertia d u) := h1
    have h2 : b = 2 * (inertia d (.node t u) - inertia d t - inertia d u) := h2
    have h3 : c = 2 * (inertia d (.node s t) - inertia d s - inertia d t) := h3
    show ((s.size + u.size : Nat) : K) / ((s.size + t.size + u.size : Nat) : K) * a
      + ((t.size + u.size : Nat) : K) / ((s.size + t.size + u.size : Nat) : K) * b
      - (u.size : K) / ((s.size + t.size + u.size : Nat) : K) * c =
      2 * (inertia d (.node (.node s t) u) - inertia d (.node s t) - inertia d u)
    rw [h1, h2, h3]
    unfold inertia
    simp only [pairSum_left, pairSum_right d hd, Tree.size_node, pairSum_comm d hd t s, pairSum_comm d hd u s,
      pairSum_comm d hd u t]
    push_cast
    field_simp
    ring

end
end Cl
end LDT
