import Verif.Lemmas.ClusterGreedy
import Verif.Lemmas.ClusterInertia
import Mathlib.Data.Finset.Max
/-!
# C68, C69: hierarchical clustering
-/
namespace LDT
namespace Cl
open Mx

section
variable {K : Type} [Field K] [LinearOrder K] [IsStrictOrderedRing K]

theorem calc_all (link : Linkage) {n : Nat} (hn : 1 ≤ n) {fuel : Nat} (hf : 3 * (n - 1) ≤ fuel) {d : SymMat (Arr.Val K)}
    (h : IsDist n d) : ∃ nodes dist, calculate link n fuel d = .ok (nodes, dist) ∧ IsDendrogram n nodes ∧
      LinkInv link n (pointDist d) nodes dist := by
  obtain ⟨s, e, i, hs, hp⟩ := calc_spec link hn hf h (LinkInv link n (pointDist d)) (init_link link h)
    (fun _ _ _ _ _ pos m hi => link_merged (pointDist_comm d) pos m hi)
  exact ⟨_, _, e, dendrogram hn i hs hp.tree, hp⟩

/-- C68. For every linkage, every number of points and all finite distances the computation ends within `3 (n - 1)` rounds
without touching anything outside its containers, and its nodes are a dendrogram. -/
theorem C68_dendrogram (link : Linkage) {n : Nat} (hn : 1 ≤ n) {fuel : Nat} (hf : 3 * (n - 1) ≤ fuel)
    {d : SymMat (Arr.Val K)} (h : IsDist n d) :
    ∃ nodes dist, calculate link n fuel d = .ok (nodes, dist) ∧ IsDendrogram n nodes := by
  obtain ⟨nodes, dist, e, g, -⟩ := calc_all link hn hf h
  exact ⟨nodes, dist, e, g⟩

/-- C68. A missing distance is refused. -/
theorem C68_nan_refused (link : Linkage) (n fuel : Nat) (d : SymMat (Arr.Val K)) (h : none ∈ d.data) :
    calculate link n fuel d = .throws := by
  unfold calculate
  rw [if_pos]
  rw [List.any_eq_true]
  exact ⟨none, h, rfl⟩

/-- C68. Distances of another number of points are refused. -/
theorem C68_length_refused (link : Linkage) (n fuel : Nat) (d : SymMat (Arr.Val K)) (hn : 1 ≤ n) (hr : 1 ≤ d.rows)
    (h : d.rows ≠ n) : calculate link n fuel d = .throws := by
  unfold calculate
  split
  · rfl
  · rw [if_pos]
    intro hc
    simp only [symLength] at hc
    apply h
    simp only [Bool.false_eq_true, if_false] at hc
    have e1 : ∀ m : Int, 1 ≤ m → ∃ q, m * (m - 1) = 2 * q := by
      intro m _
      have := Int.even_mul_pred_self m
      obtain ⟨q, hq⟩ := this
      exact ⟨q, by omega⟩
    obtain ⟨q, hq⟩ := e1 d.rows hr
    obtain ⟨q', hq'⟩ := e1 n (by omega)
    rw [hq, hq', Int.mul_tdiv_cancel_left _ (by norm_num), Int.mul_tdiv_cancel_left _ (by norm_num)] at hc
    subst hc
    have hz : (d.rows - n) * (d.rows + n - 1) = 0 := by linarith [hq, hq', mul_comm d.rows (n : Int)]
    rcases mul_eq_zero.1 hz with h | h <;> omega

/-- C68. Without points there is nothing to start from. -/
theorem C68_no_points (link : Linkage) (fuel : Nat) (d : SymMat (Arr.Val K)) : calculate link 0 fuel d = .throws := by
  unfold calculate
  split
  · rfl
  · split
    · rfl
    · show (start 0 _ >>= _) = _
      rw [show start 0 ({ rows := d.rows, data := d.data.map (fun x => x.getD 0) } : SymMat K) = .throws from rfl]
      rfl

/-- C69. The height of every merge is the linkage distance of the two clusters merged, computed from the distances of
their points. -/
theorem C69_heights (link : Linkage) {n : Nat} (hn : 1 ≤ n) {fuel : Nat} (hf : 3 * (n - 1) ≤ fuel)
    {d : SymMat (Arr.Val K)} (h : IsDist n d) {nodes : List (Node K)} {dist : SymMat K}
    (e : calculate link n fuel d = .ok (nodes, dist)) {k : Nat} {a : Node K} (hk : n ≤ k) (ha : nodes[k]? = some a)
    {s t : Tree} (hs : TreeOf n nodes a.idLeft s) (ht : TreeOf n nodes a.idRight t) :
    LinkValue link (pointDist d) s t a.height := by
  obtain ⟨nodes', dist', e', g, i⟩ := calc_all link hn hf h
  rw [e] at e'; cases e'
  exact i.height k a s t hk ha hs ht

/-- C69. No merge is lower than the merges inside its two branches. -/
theorem C69_monotone (link : Linkage) {n : Nat} (hn : 1 ≤ n) {fuel : Nat} (hf : 3 * (n - 1) ≤ fuel)
    {d : SymMat (Arr.Val K)} (h : IsDist n d) {nodes : List (Node K)} {dist : SymMat K}
    (e : calculate link n fuel d = .ok (nodes, dist)) {k x : Nat} {a b : Node K} (hk : n ≤ k) (ha : nodes[k]? = some a)
    (hc : a.idLeft = x ∨ a.idRight = x) (hx : n ≤ x) (hb : nodes[x]? = some b) : b.height ≤ a.height := by
  obtain ⟨nodes', dist', e', g, i⟩ := calc_all link hn hf h
  rw [e] at e'; cases e'
  exact i.mono k a x b hk ha hc hx hb

/-- C69. Cut at any level, the clusters contain every point exactly once. -/
theorem C69_cut_partition (link : Linkage) {n : Nat} (hn : 1 ≤ n) {fuel : Nat} (hf : 3 * (n - 1) ≤ fuel)
    {d : SymMat (Arr.Val K)} (h : IsDist n d) {nodes : List (Node K)} {dist : SymMat K}
    (e : calculate link n fuel d = .ok (nodes, dist)) (lev : K) {i : Nat} (hi : i < n) :
    ∃! x, AliveAt n nodes lev x ∧ ∃ t, TreeOf n nodes x t ∧ i ∈ t.leaves := by
  obtain ⟨nodes', dist', e', g, inv⟩ := calc_all link hn hf h
  rw [e] at e'; cases e'
  classical
  let C : Finset Nat := (Finset.range (2 * n - 1)).filter (fun x =>
    (∃ a, nodes[x]? = some a ∧ (n ≤ x → a.height ≤ lev)) ∧ ∃ t, TreeOf n nodes x t ∧ i ∈ t.leaves)
  have hC : C.Nonempty := by
    refine ⟨i, Finset.mem_filter.2 ⟨Finset.mem_range.2 (by omega), ?_, .leaf i, .point i hi, by simp [Tree.leaves]⟩⟩
    exact ⟨_, List.getElem?_eq_getElem (by rw [g.len]; omega), by omega⟩
  obtain ⟨x, hx, hmax⟩ := C.exists_max_image id hC
  obtain ⟨hx1, hx2, t, ht, hm⟩ := Finset.mem_filter.1 hx
  have hal : AliveAt n nodes lev x := by
    refine ⟨hx2, ?_⟩
    intro k b hk hb hc
    by_contra hle
    have hkl : k < 2 * n - 1 := by rw [List.getElem?_eq_some_iff] at hb; have := hb.1; rwa [g.len] at this
    obtain ⟨u, hu, -⟩ := inv.tree.tree k b hb
    have hmem : i ∈ u.leaves := by
      cases hu with
      | point _ h => omega
      | merge _ b' l r _ hb' hl hr =>
        rw [hb] at hb'; cases hb'
        rcases hc with h | h
        · rw [h] at hl; rw [ht.det _ hl] at hm; exact List.mem_append_left _ hm
        · rw [h] at hr; rw [ht.det _ hr] at hm; exact List.mem_append_right _ hm
    have hkx := hmax k (Finset.mem_filter.2 ⟨Finset.mem_range.2 hkl, ⟨b, hb, fun _ => not_lt.1 hle⟩, u, hu, hmem⟩)
    obtain ⟨c1, c2, -⟩ := g.children k b hk hb
    simp only [id] at hkx
    rcases hc with h | h <;> omega
  refine ⟨x, ⟨hal, t, ht, hm⟩, ?_⟩
  rintro y ⟨hy, u, hu, hm'⟩
  by_contra hne
  exact alive_disjoint g inv.mono hy hal hne hu ht i hm' hm

/-- C69. Cut at any level, two different clusters are further apart than that level: the result is that of always merging
the closest pair, although the program follows chains of neighbours instead. -/
theorem C69_greedy (link : Linkage) {n : Nat} (hn : 1 ≤ n) {fuel : Nat} (hf : 3 * (n - 1) ≤ fuel)
    {d : SymMat (Arr.Val K)} (h : IsDist n d) {nodes : List (Node K)} {dist : SymMat K}
    (e : calculate link n fuel d = .ok (nodes, dist)) {lev : K} {x y : Nat} (hx : AliveAt n nodes lev x)
    (hy : AliveAt n nodes lev y) (hxy : x ≠ y) {s t : Tree} (hs : TreeOf n nodes x s) (ht : TreeOf n nodes y t) :
    ∃ v, LinkValue link (pointDist d) s t v ∧ lev < v := by
  obtain ⟨nodes', dist', e', g, i⟩ := calc_all link hn hf h
  rw [e] at e'; cases e'
  exact cut (pointDist_comm d) g i hx hy hxy hs ht

/-- C69. The linkage distance of two clusters is one number. -/
theorem C69_value_unique {link : Linkage} {d : Nat → Nat → K} {s t : Tree} {v w : K}
    (h : LinkValue link d s t v) (h' : LinkValue link d s t w) : v = w := LinkValue.unique h h'

/-- C69. For squared Euclidean distances the dispersion in Ward's linkage is the sum of squares about the centre. -/
theorem C69_inertia (dims : List (Nat → K)) (t : Tree) : inertia (sqDist dims) t =
    (dims.map (fun p => (t.leaves.map (fun i => (p i - centre p t) * (p i - centre p t))).sum)).sum := inertia_eq dims t

end

/-! ## A concrete case: five points on a line at 0, 1, 3, 7, 8 -/

/-- All pairwise distances, in the order (0,1) (0,2) (0,3) (0,4) (1,2) … -/
def lineD : SymMat (Arr.Val Rat) :=
  { rows := 5, data := [some 1, some 3, some 7, some 8, some 2, some 6, some 7, some 4, some 5, some 1] }

theorem lineD_ok : IsDist 5 lineD := ⟨rfl, rfl, by simp [lineD]⟩

example : (calculate .single 5 12 lineD).bind (fun r => .ok (r.1.map (fun a => (a.idLeft, a.idRight, a.nodesWithin, a.height)))) =
    .ok [(0, 0, 1, 0), (0, 0, 1, 0), (0, 0, 1, 0), (0, 0, 1, 0), (0, 0, 1, 0),
      (0, 1, 2, 1), (5, 2, 3, 2), (3, 4, 2, 1), (6, 7, 5, 4)] := by decide +kernel

example : (calculate .averageU 5 12 lineD).bind (fun r => .ok ((r.1.drop 5).map (fun a => (a.idLeft, a.idRight, a.height)))) =
    .ok [(0, 1, 1), (5, 2, 5 / 2), (3, 4, 1), (6, 7, 37 / 6)] := by decide +kernel

example : ∃ nodes dist, calculate .ward 5 12 lineD = .ok (nodes, dist) ∧ IsDendrogram 5 nodes :=
  C68_dendrogram .ward (by omega) (by omega) lineD_ok

/-- Missing distance. -/
example : calculate .ward 2 5 ({ rows := 2, data := [none] } : SymMat (Arr.Val Rat)) = .throws :=
  C68_nan_refused _ _ _ _ (by simp)

end Cl
end LDT
