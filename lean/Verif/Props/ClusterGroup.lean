import Verif.Props.Cluster
import Verif.Lemmas.ClusterMergeR
import Verif.Lemmas.ClusterFilter
/-!
# C70-C72: groups, merge matrices and grouped data
-/
namespace LDT
namespace Cl
open Mx

section
variable {K : Type} [Field K] [LinearOrder K] [IsStrictOrderedRing K]

/-- C70. For `1 ≤ k ≤ n` the groups are the `k` clusters that remain when the last `k - 1` merges are undone: they are not
empty, every point is in exactly one of them and its members are in increasing order. -/
theorem C70_groups (link : Linkage) {n : Nat} {fuel : Nat} (hf : 3 * (n - 1) ≤ fuel)
    {d : SymMat (Arr.Val K)} (h : IsDist n d) {nodes : List (Node K)} {dist : SymMat K}
    (e : calculate link n fuel d = .ok (nodes, dist)) {k : Nat} (hk : 1 ≤ k) (hkn : k ≤ n) :
    ∃ map, group nodes n k = .ok map ∧ map.length = k ∧ IsGrouping n nodes (2 * n - k) map := by
  obtain ⟨nodes', dist', e', g, -⟩ := calc_all link (by omega) hf h
  rw [e] at e'; cases e'
  exact group_spec g (by omega) hk hkn

/-- C70. The same for every dendrogram, however it was made. -/
theorem C70_groups_of_dendrogram {n : Nat} {nodes : List (Node K)} (g : IsDendrogram n nodes) {k : Nat} (hk : 1 ≤ k) (hkn : k ≤ n) :
    ∃ map, group nodes n k = .ok map ∧ map.length = k ∧ IsGrouping n nodes (2 * n - k) map :=
  group_spec g (by omega) hk hkn

/-- C70. Asked for more groups than points, every point gets its own group and the others stay empty. -/
theorem C70_more_groups_than_points {n : Nat} {nodes : List (Node K)} (g : IsDendrogram n nodes) (hn : 2 ≤ n) {k : Nat} (hkn : n < k) :
    ∃ map, group nodes n k = .ok (map ++ List.replicate (k - n) []) ∧ map.length = n ∧ IsGrouping n nodes n map :=
  group_more g hn hkn

/-- C70. The clusters that remain are really different ones: two of them have no point in common. -/
theorem C70_disjoint {n : Nat} {nodes : List (Node K)} (g : IsDendrogram n nodes) {b x y : Nat} (hx : TopBelow n nodes b x)
    (hy : TopBelow n nodes b y) (hxy : x ≠ y) {s t : Tree} (hs : TreeOf n nodes x s) (ht : TreeOf n nodes y t) :
    ∀ i ∈ s.leaves, i ∉ t.leaves := top_disjoint g hx hy hxy hs ht

/-- C71. The merge matrix follows the convention of R: heights ascend, a row uses only points and clusters formed in earlier
rows, row `j` describes the merge `order[j]` with its height, and the last row joins all points. -/
theorem C71_mergeR (link : Linkage) {n : Nat} (hn : 2 ≤ n) {fuel : Nat} (hf : 3 * (n - 1) ≤ fuel)
    {d : SymMat (Arr.Val K)} (h : IsDist n d) {nodes : List (Node K)} {dist : SymMat K}
    (e : calculate link n fuel d = .ok (nodes, dist)) :
    ∃ rows heights order, mergeR nodes n = .ok (rows, heights, order) ∧ IsMergeR n nodes rows heights order := by
  obtain ⟨nodes', dist', e', g, i⟩ := calc_all link (by omega) hf h
  rw [e] at e'; cases e'
  exact mergeR_spec g hn i.mono

/-- C71. One point: nothing is merged, and sorting no heights dereferences the end of an empty vector. -/
theorem C71_one_point (nodes : List (Node K)) : mergeR nodes 1 = .ub := rfl

/-! ## Grouped data -/

/-- Distances some of which may be missing. -/
structure IsDistNan (n : Nat) (d : SymMat (Arr.Val K)) : Prop where
  rows : d.rows = n
  size : (d.data.length : Int) = symLength false n

/-- Missing distances read as 0. -/
def zeroed (d : SymMat (Arr.Val K)) : SymMat (Arr.Val K) := { d with data := d.data.map (fun x => some (x.getD 0)) }

theorem zeroed_dist {n : Nat} {d : SymMat (Arr.Val K)} (h : IsDistNan n d) : IsDist n (zeroed d) := by
  refine ⟨h.rows, by simp only [zeroed, List.length_map]; exact h.size, ?_⟩
  intro x hx
  obtain ⟨y, -, rfl⟩ := List.mem_map.1 hx
  simp

/-- C72. Without a threshold the groups are the clusters of the (zero-filled) distances, nothing is reported as removed, and
missing distances are reported. -/
theorem C72_groups (link : Linkage) {n fuel : Nat} (hf : 3 * (n - 1) ≤ fuel) {d : SymMat (Arr.Val K)} (h : IsDistNan n d)
    {k : Nat} (hk : 1 ≤ k) (hkn : k ≤ n) {thr : K} (ht : thr ≤ 0) :
    ∃ r nodes dist, groupData link n fuel d k thr = .ok r ∧ calculate link n fuel (zeroed d) = .ok (nodes, dist) ∧
      r.groups.length = k ∧ IsGrouping n nodes (2 * n - k) r.groups ∧ r.removed = [] ∧ (r.nanFound = true ↔ none ∈ d.data) := by
  obtain ⟨nodes, dist, e, g, -⟩ := calc_all link (n := n) (by omega) hf (zeroed_dist h)
  obtain ⟨map, eg, hl, hg⟩ := group_spec g (by omega) hk hkn
  refine ⟨⟨map, [], d.data.any (fun x => x.isNone)⟩, nodes, dist, ?_, e, hl, hg, rfl, ?_⟩
  · unfold groupData
    show (calculate link n fuel (zeroed d) >>= _) = _
    rw [e, Outcome.ok_bind, eg, Outcome.ok_bind, if_neg (not_lt.2 ht)]
    rfl
  · simp only [List.any_eq_true, Option.isNone_iff_eq_none, exists_eq_right]

/-- C72. With a threshold every group keeps exactly the columns that are not nearer than the threshold to a column before
them in the group - but in the distances that the clustering has overwritten. Missing: the same with the given distances
(`C72_violated_distances`) and the removed columns (`C72_violated_removed`). -/
theorem C72_filter_partial (link : Linkage) {n fuel : Nat} (hf : 3 * (n - 1) ≤ fuel) {d : SymMat (Arr.Val K)} (h : IsDistNan n d)
    {k : Nat} (hk : 1 ≤ k) (hkn : k ≤ n) {thr : K} (ht : 0 < thr) :
    ∃ r nodes dist map, groupData link n fuel d k thr = .ok r ∧ calculate link n fuel (zeroed d) = .ok (nodes, dist) ∧
      map.length = k ∧ IsGrouping n nodes (2 * n - k) map ∧ r.groups = map.map (kept dist thr) ∧
      (r.nanFound = true ↔ none ∈ d.data) := by
  obtain ⟨s, e, i, hs, hp⟩ := calc_spec link (n := n) (by omega) hf (zeroed_dist h) (LinkInv link n (pointDist (zeroed d)))
    (init_link link (zeroed_dist h)) (fun _ _ _ _ _ pos m hi => link_merged (pointDist_comm _) pos m hi)
  have g := dendrogram (by omega) i hs hp.tree
  obtain ⟨map, eg, hl, hg⟩ := group_spec g (by omega) hk hkn
  obtain ⟨removed, er⟩ := filterGroups_spec i.wf.good thr map (fun x hx => by
    refine ⟨fun a ha => ?_, (hg.sorted x hx).imp (fun h => Nat.ne_of_lt h)⟩
    have : a ∈ map.flatten := List.mem_flatten.2 ⟨x, hx, ha⟩
    exact List.mem_range.1 (hg.part.mem_iff.1 this))
  refine ⟨⟨map.map (kept s.dist thr), removed, d.data.any (fun x => x.isNone)⟩, s.nodes, s.dist, map, ?_, e, hl, hg, rfl, ?_⟩
  · unfold groupData
    show (calculate link n fuel (zeroed d) >>= _) = _
    rw [e, Outcome.ok_bind, eg, Outcome.ok_bind, if_pos ht, er]
    rfl
  · simp only [List.any_eq_true, Option.isNone_iff_eq_none, exists_eq_right]

/-- C72. Filtering never empties a group: its first column stays, in front, and the order is kept. -/
theorem C72_first_stays (dist : SymMat K) (thr : K) (a : Nat) (g : List Nat) :
    ∃ rest, kept dist thr (a :: g) = a :: rest ∧ rest.Sublist g := by
  unfold kept
  rw [List.zipIdx_cons, List.filter_cons_of_pos (by simp)]
  refine ⟨_, rfl, ?_⟩
  have h : ∀ p : Nat × Nat → Bool, (((g.zipIdx (0 + 1)).filter p).map (fun p => p.1)).Sublist g := by
    intro p
    have := (List.filter_sublist (p := p) (l := g.zipIdx (0 + 1))).map (fun p => p.1)
    rwa [List.zipIdx_map_fst] at this
  exact h _

end

/-! ## Concrete cases -/

/-- Four points: 2 and 3 are close, 0 and 1 not so close, the pairs far apart. -/
def pairsD : SymMat (Arr.Val Rat) := { rows := 4, data := [some 5, some 10, some 10, some 10, some 10, some 1] }

/-- The groups follow the order of the merges, not their heights: with three groups the closest pair is separated. -/
example : (calculate .single 4 9 pairsD).bind (fun r => group r.1 4 3) = .ok [[0, 1], [2], [3]] := by decide +kernel

example : (calculate .single 5 12 lineD).bind (fun r => group r.1 5 2) = .ok [[0, 1, 2], [3, 4]] := by decide +kernel
example : (calculate .single 5 12 lineD).bind (fun r => group r.1 5 3) = .ok [[0, 1, 2], [3], [4]] := by decide +kernel
example : (calculate .single 5 12 lineD).bind (fun r => group r.1 5 7) = .ok [[0], [3], [4], [2], [1], [], []] := by
  decide +kernel

/-- Heights ascend although the merges were made in another order. -/
example : (calculate .single 4 9 pairsD).bind (fun r => mergeR r.1 4) =
    .ok ([(-3, -4), (-1, -2), (2, 1)], [1, 5, 10], [1, 0, 2]) := by decide +kernel

/-- C72, violated: `Removed` collects positions inside the groups. The columns 1 and 3 are left out; only "1" is
reported. -/
theorem C72_violated_removed : groupData .single 4 9 pairsD 2 6 = .ok ⟨[[0], [2]], [1], false⟩ := by decide +kernel

/-- Three points with the distances 1, 2 and 5. -/
def chainD : SymMat (Arr.Val Rat) := { rows := 3, data := [some 1, some 2, some 5] }

/-- C72, violated: columns 0 and 2 are at distance 2 and the threshold is 3, but column 2 is kept, because the clustering has
overwritten their distance by that of the cluster of 0 and 1. -/
theorem C72_violated_distances : groupData .complete 3 6 chainD 1 3 = .ok ⟨[[0, 2]], [1], false⟩ ∧
    pointDist chainD 0 2 = 2 := by decide +kernel

end Cl
end LDT
