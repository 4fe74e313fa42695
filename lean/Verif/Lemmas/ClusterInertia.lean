import Verif.Lemmas.ClusterLink
/-!
# Ward's dispersion for squared Euclidean distances
-/
namespace LDT
namespace Cl

section
variable {K : Type} [Field K] [LinearOrder K] [IsStrictOrderedRing K]

theorem sum_swap {α β : Type} (f : α → β → K) (l : List α) (m : List β) :
    (l.map (fun i => (m.map (fun j => f i j)).sum)).sum = (m.map (fun j => (l.map (fun i => f i j)).sum)).sum := by
  induction l with
  | nil => simp
  | cons a l ih =>
    simp only [List.map_cons, List.sum_cons, ih]
    rw [List.sum_map_add]

theorem sum_sq_from (p : Nat → K) (c : K) (l : List Nat) :
    (l.map (fun i => (p i - c) * (p i - c))).sum = (l.map (fun i => p i * p i)).sum - 2 * c * (l.map p).sum + l.length * (c * c) := by
  induction l with
  | nil => simp
  | cons a l ih =>
    simp only [List.map_cons, List.sum_cons, ih, List.length_cons]
    push_cast
    ring

theorem sum_pairs (p : Nat → K) (l m : List Nat) :
    (l.map (fun i => (m.map (fun j => (p i - p j) * (p i - p j))).sum)).sum =
      m.length * (l.map (fun i => p i * p i)).sum - 2 * (l.map p).sum * (m.map p).sum + l.length * (m.map (fun i => p i * p i)).sum := by
  induction l with
  | nil => simp
  | cons a l ih =>
    have h : ∀ m : List Nat, (m.map (fun j => (p a - p j) * (p a - p j))).sum =
        m.length * (p a * p a) - 2 * p a * (m.map p).sum + (m.map (fun i => p i * p i)).sum := by
      intro m
      induction m with
      | nil => simp
      | cons b m ih => simp only [List.map_cons, List.sum_cons, ih, List.length_cons]; push_cast; ring
    simp only [List.map_cons, List.sum_cons, ih, List.length_cons, h]
    push_cast
    ring

theorem inertia_eq (dims : List (Nat → K)) (t : Tree) :
    inertia (sqDist dims) t = (dims.map (fun p => (t.leaves.map (fun i => (p i - centre p t) * (p i - centre p t))).sum)).sum := by
  have hpos : (0 : K) < t.size := by exact_mod_cast t.size_pos
  have h1 : pairSum (sqDist dims) t t = (dims.map (fun p => (t.leaves.map (fun i => (t.leaves.map (fun j =>
      (p i - p j) * (p i - p j))).sum)).sum)).sum := by
    unfold pairSum sqDist
    rw [sum_swap (fun (p : Nat → K) i => (t.leaves.map (fun j => (p i - p j) * (p i - p j))).sum) dims t.leaves]
    congr 1
    apply List.map_congr_left
    intro i _
    rw [sum_swap]
  unfold inertia
  rw [h1, div_eq_iff (by positivity)]
  have hmul : ∀ (c : K) (f : (Nat → K) → K), (dims.map f).sum * c = (dims.map (fun p => f p * c)).sum := by
    intro c f
    clear h1
    induction dims with
    | nil => simp
    | cons p dims ih => simp only [List.map_cons, List.sum_cons, add_mul, ih]
  rw [hmul]
  congr 1
  apply List.map_congr_left
  intro p _
  rw [sum_pairs, sum_sq_from]
  have hl : (t.leaves.length : K) = t.size := rfl
  rw [hl]
  unfold centre
  field_simp
  ring

end
end Cl
end LDT
