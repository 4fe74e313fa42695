import Verif.Lemmas.ClusterGroup
import Verif.Props.Sort
/-!
# `HCluster::MergeR`
-/
namespace LDT
namespace Cl
open Mx

section
variable {K : Type} [Field K] [LinearOrder K] [IsStrictOrderedRing K]

theorem mapM_ok {α β : Type} (f : α → Outcome β) (g : α → β) (l : List α) (h : ∀ a ∈ l, f a = .ok (g a)) :
    l.mapM f = .ok (l.map g) := by
  rw [← List.mapM'_eq_mapM]
  induction l with
  | nil => rfl
  | cons a l ih =>
    rw [List.mapM'_cons, h a (by simp), ih (fun b hb => h b (List.mem_cons_of_mem _ hb))]; rfl

/-- Where a node is found in the merge matrix. -/
def refOf (n : Nat) (order : List Nat) (x : Nat) : Int :=
  if x < n then -((x : Int) + 1) else (order.idxOf (x - n) : Int) + 1

theorem mergeR_spec {n : Nat} {nodes : List (Node K)} (g : IsDendrogram n nodes) (hn : 2 ≤ n)
    (mono : ∀ (k : Nat) a x b, n ≤ k → nodes[k]? = some a → (a.idLeft = x ∨ a.idRight = x) → n ≤ x → nodes[x]? = some b →
      b.height ≤ a.height) :
    ∃ rows heights order, mergeR nodes n = .ok (rows, heights, order) ∧ IsMergeR n nodes rows heights order := by
  -- the nodes
  have hget : ∀ x, x < 2 * n - 1 → ∃ a, nodes[x]? = some a :=
    fun x hx => ⟨_, List.getElem?_eq_getElem (by rw [g.len]; exact hx)⟩
  let nd : Nat → Node K := fun x => (nodes[x]?).getD ⟨0, 0, 0, 0, 0, false, 0⟩
  have hnd : ∀ x, x < 2 * n - 1 → nodes[x]? = some (nd x) := by
    intro x hx
    obtain ⟨a, ha⟩ := hget x hx
    simp [nd, ha]
  have href : ∀ x, x < 2 * n - 1 → mergeRef n (nd x) = if x < n then -((x : Int) + 1) else (x : Int) - n + 1 := by
    intro x hx
    obtain ⟨hid, t, ht, -, hw⟩ := g.node x _ (hnd x hx)
    unfold mergeRef
    rw [hid]
    by_cases hxn : x < n
    · rw [ht.det _ (.point x hxn)] at hw
      rw [if_neg (by rw [hw]; simp [Tree.size, Tree.leaves]), if_pos hxn]
    · rw [if_neg hxn, if_pos]
      cases ht with
      | point _ h => exact absurd h hxn
      | merge _ b l r _ _ _ _ =>
        rw [Tree.size_node] at hw
        have := l.size_pos
        have := r.size_pos
        omega
  let F : Nat → K × Int × Int := fun s =>
    ((nd (n + s)).height, mergeRef n (nd (nd (n + s)).idLeft), mergeRef n (nd (nd (n + s)).idRight))
  have hch : ∀ s, s < n - 1 → (nd (n + s)).idLeft < n + s ∧ (nd (n + s)).idRight < n + s := by
    intro s hs
    obtain ⟨c1, c2, -⟩ := g.children (n + s) _ (by omega) (hnd (n + s) (by omega))
    exact ⟨c1, c2⟩
  have hrows : (List.range (n - 1)).mapM (mergeRow nodes n) = .ok ((List.range (n - 1)).map F) := by
    apply mapM_ok
    intro s hs
    rw [List.mem_range] at hs
    obtain ⟨c1, c2⟩ := hch s hs
    unfold mergeRow
    rw [atV_ok (hnd (n + s) (by omega)), Outcome.ok_bind, atV_ok (hnd _ (by omega)), Outcome.ok_bind,
      atV_ok (hnd _ (by omega))]
    rfl
  obtain ⟨order, ho, hperm, hstab⟩ := Arr.C32_sort_partial ((List.range (n - 1)).map (fun s => (nd (n + s)).height)) true
  simp only [List.length_map, List.length_range] at hperm
  have hnodup : order.Nodup := hperm.nodup_iff.2 List.nodup_range
  have hmem : ∀ s, s ∈ order ↔ s < n - 1 := fun s => by rw [hperm.mem_iff, List.mem_range]
  have hlen : order.length = n - 1 := by rw [hperm.length_eq, List.length_range]
  have hh : ∀ s, s < n - 1 → ((List.range (n - 1)).map (fun s => (nd (n + s)).height))[s]? = some (nd (n + s)).height := by
    intro s hs; rw [List.getElem?_map, List.getElem?_range hs]; rfl
  have hstab' : ∀ p q : Nat, p < q → ∀ i j, order[p]? = some i → order[q]? = some j →
      (nd (n + i)).height < (nd (n + j)).height ∨ ((nd (n + i)).height = (nd (n + j)).height ∧ i < j) := by
    intro p q hpq i j hi hj
    have hi' := (hmem i).1 (List.mem_of_getElem? hi)
    have hj' := (hmem j).1 (List.mem_of_getElem? hj)
    rcases hstab p q hpq i j hi hj with ⟨x, y, hx, hy, hlt⟩ | ⟨he, hlt⟩
    · rw [hh i hi'] at hx; rw [hh j hj'] at hy
      cases hx; cases hy
      left; simpa using hlt
    · rw [hh i hi', hh j hj'] at he
      right; exact ⟨by simpa using he, hlt⟩
  have hpos : ∀ s, s < n - 1 → order[order.idxOf s]? = some s := by
    intro s hs
    rw [List.getElem?_eq_getElem (List.idxOf_lt_length_iff.2 ((hmem s).2 hs)), List.getElem_idxOf]
  have hbefore : ∀ s' s, s < n - 1 → s' < s → (nd (n + s')).height ≤ (nd (n + s)).height → order.idxOf s' < order.idxOf s := by
    intro s' s hs hlt hle
    by_contra hc
    have hne : order.idxOf s ≠ order.idxOf s' := by
      intro e
      have h1 := hpos s hs
      rw [e, hpos s' (by omega)] at h1
      cases h1; omega
    rcases hstab' _ _ (by omega : order.idxOf s < order.idxOf s') s s' (hpos s hs) (hpos s' (by omega)) with h | ⟨h, h'⟩
    · exact absurd hle (not_le.2 h)
    · omega
  have hout : order.mapM (fun i => atV ((List.range (n - 1)).map F) i) = .ok (order.map F) := by
    apply mapM_ok
    intro s hs
    have hs := (hmem s).1 hs
    exact atV_ok (by rw [List.getElem?_map, List.getElem?_range hs]; rfl)
  have hadj : ∀ x, x < 2 * n - 1 → adjust order (mergeRef n (nd x)) = refOf n order x := by
    intro x hx
    rw [href x hx]
    unfold adjust refOf
    by_cases hxn : x < n
    · rw [if_pos hxn, if_neg (by omega), if_pos hxn]
    · rw [if_neg hxn, if_pos (by omega), if_neg hxn]
      congr 3; omega
  have hrow : ∀ j s : Nat, order[j]? = some s →
      ((order.map F).map (fun r => (adjust order r.2.1, adjust order r.2.2)))[j]? =
        some (refOf n order (nd (n + s)).idLeft, refOf n order (nd (n + s)).idRight) := by
    intro j s hj
    have hs := (hmem s).1 (List.mem_of_getElem? hj)
    obtain ⟨c1, c2⟩ := hch s hs
    rw [List.getElem?_map, List.getElem?_map, hj]
    simp only [Option.map_some, F]
    rw [hadj _ (by omega), hadj _ (by omega)]
  have htree : ∀ (x : Nat) t, TreeOf n nodes x t → x < 2 * n - 1 →
      RowTree ((order.map F).map (fun r => (adjust order r.2.1, adjust order r.2.2))) (refOf n order x) t := by
    intro x t ht
    induction ht with
    | point x hx => intro _; unfold refOf; rw [if_pos hx]; exact .point x
    | merge x a l r hxn ha _ _ ihl ihr =>
      intro hx
      have e := hnd x hx
      rw [ha] at e
      obtain ⟨c1, c2, -⟩ := g.children x a hxn ha
      have hs : x - n < n - 1 := by omega
      have hr := hrow _ _ (hpos (x - n) hs)
      rw [show n + (x - n) = x by omega, ← Option.some.inj e] at hr
      have hbef : ∀ c, (a.idLeft = c ∨ a.idRight = c) → c < x → refOf n order c < (order.idxOf (x - n) : Int) + 1 := by
        intro c hc hcx
        unfold refOf
        by_cases hcn : c < n
        · rw [if_pos hcn]; omega
        · rw [if_neg hcn]
          have hm := mono x a c (nd c) hxn ha hc (by omega) (hnd c (by omega))
          have := hbefore (c - n) (x - n) hs (by omega) (by
            rw [show n + (c - n) = c by omega, show n + (x - n) = x by omega, ← Option.some.inj e]; exact hm)
          omega
      rw [show refOf n order x = (order.idxOf (x - n) : Int) + 1 from by unfold refOf; rw [if_neg (by omega)]]
      exact .row _ _ _ l r hr (hbef _ (Or.inl rfl) c1) (hbef _ (Or.inr rfl) c2) (ihl (by omega)) (ihr (by omega))
  refine ⟨(order.map F).map (fun r => (adjust order r.2.1, adjust order r.2.2)), (order.map F).map (fun r => r.1), order, ?_, ?_⟩
  · unfold mergeR
    rw [hrows, Outcome.ok_bind]
    have e : ((List.range (n - 1)).map F).map (fun r => some r.1) =
        ((List.range (n - 1)).map (fun s => (nd (n + s)).height)).map some := by
      rw [List.map_map, List.map_map]; rfl
    rw [e, ho, Outcome.ok_bind, if_neg (by intro h; rw [h] at hlen; simp at hlen; omega), hout]
    rfl
  · refine ⟨by simp [hlen], by simp [hlen], hperm, ?_, ?_, ?_⟩
    · rw [List.pairwise_iff_getElem]
      intro p q hp hq hpq
      simp only [List.length_map] at hp hq
      simp only [List.getElem_map, F]
      rcases hstab' p q hpq order[p] order[q] (List.getElem?_eq_getElem hp) (List.getElem?_eq_getElem hq) with h | h
      · exact h.le
      · exact h.1.le
    · intro j s hj
      have hs := (hmem s).1 (List.mem_of_getElem? hj)
      obtain ⟨t, ht, -⟩ := g.tree (x := n + s) (by omega)
      refine ⟨nd (n + s), t, hnd _ (by omega), ?_, ht, ?_⟩
      · rw [List.getElem?_map, List.getElem?_map, hj]; rfl
      · have := htree _ t ht (by omega)
        unfold refOf at this
        rw [if_neg (by omega), show n + s - n = s by omega] at this
        have hidx : order.idxOf s = j := by
          rw [List.getElem?_eq_some_iff] at hj
          obtain ⟨hjl, hj⟩ := hj
          rw [← hj]; exact hnodup.idxOf_getElem j hjl
        rwa [hidx] at this
    · obtain ⟨t, ht, hp⟩ := g.root
      refine ⟨t, ?_, hp⟩
      have := htree _ t ht (by omega)
      unfold refOf at this
      rw [if_neg (by omega), show 2 * n - 2 - n = n - 2 by omega] at this
      -- the root comes last
      have hroot : ∀ d x, x + d = 2 * n - 2 → n ≤ x → (nd x).height ≤ (nd (2 * n - 2)).height := by
        intro d
        induction d using Nat.strong_induction_on with
        | _ d ih =>
          intro x hx hxn
          rcases Nat.eq_zero_or_pos d with h | h
          · rw [show x = 2 * n - 2 by omega]
          · obtain ⟨k, ⟨hk, a, ha, hc⟩, -⟩ := g.parent x (by omega)
            have hkx := Par.lt g (⟨hk, a, ha, hc⟩ : Par n nodes x k)
            have e := hnd k hkx.2
            rw [ha] at e
            have h1 := mono k a x (nd x) hk ha hc hxn (hnd x (by omega))
            rw [Option.some.inj e] at h1
            exact h1.trans (ih (2 * n - 2 - k) (by omega) k (by omega) hk)
      have hidx : order.idxOf (n - 2) = n - 2 := by
        have hlt : order.idxOf (n - 2) < n - 1 := by
          rw [← hlen]; exact List.idxOf_lt_length_iff.2 ((hmem _).2 (by omega))
        by_contra hne
        obtain ⟨s, hs⟩ : ∃ s, order[n - 2]? = some s := ⟨_, List.getElem?_eq_getElem (by omega)⟩
        have hsm := (hmem s).1 (List.mem_of_getElem? hs)
        have hidx : order.idxOf s = n - 2 := by
          have hs' := hs
          rw [List.getElem?_eq_some_iff] at hs'
          obtain ⟨hjl, hj⟩ := hs'
          rw [← hj]; exact hnodup.idxOf_getElem _ hjl
        have hsne : s ≠ n - 2 := by intro e; rw [e] at hidx; exact hne hidx
        have := hbefore s (n - 2) (by omega) (by omega) (by
          have := hroot (2 * n - 2 - (n + s)) (n + s) (by omega) (by omega)
          rwa [show n + (n - 2) = 2 * n - 2 by omega])
        omega
      rw [hidx] at this
      rwa [show (n : Int) - 1 = ((n - 2 : Nat) : Int) + 1 by omega]

end
end Cl
end LDT
