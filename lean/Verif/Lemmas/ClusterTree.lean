import Verif.Lemmas.ClusterChain
import Verif.Spec.Cluster
/-!
# The tree built by `HCluster::Calculate`
-/
namespace LDT
namespace Cl
open Mx

section
variable {K : Type} [Field K] [LinearOrder K] [IsStrictOrderedRing K]

theorem TreeOf.det {n : Nat} {nodes : List (Node K)} {x : Nat} {s : Tree} (h : TreeOf n nodes x s) :
    ∀ t, TreeOf n nodes x t → s = t := by
  induction h with
  | point x hx =>
    intro t ht
    cases ht with
    | point _ _ => rfl
    | merge _ a l r hn _ _ _ => omega
  | merge x a l r hn ha _ _ ihl ihr =>
    intro t ht
    cases ht with
    | point _ hx => omega
    | merge _ b l' r' _ hb hl hr =>
      rw [ha] at hb; cases hb
      rw [ihl _ hl, ihr _ hr]

/-- The invariant on the nodes. -/
structure TreeInv (n : Nat) (nodes : List (Node K)) : Prop where
  le : n ≤ nodes.length
  pts : ∀ (x : Nat) a, nodes[x]? = some a → x < n → a.nodesWithin = 1
  children : ∀ (x : Nat) a, n ≤ x → nodes[x]? = some a → a.idLeft < x ∧ a.idRight < x ∧ a.idLeft ≠ a.idRight ∧
    ¬ Act nodes a.idLeft ∧ ¬ Act nodes a.idRight
  parent : ∀ x, x < nodes.length → ¬ Act nodes x → ∃! k, n ≤ k ∧ ∃ a, nodes[k]? = some a ∧ (a.idLeft = x ∨ a.idRight = x)
  tree : ∀ (x : Nat) a, nodes[x]? = some a → ∃ t, TreeOf n nodes x t ∧ t.leaves.Nodup ∧ a.nodesWithin = t.size ∧
    ∀ i ∈ t.leaves, i < n
  disj : ∀ x y s t, Act nodes x → Act nodes y → x ≠ y → TreeOf n nodes x s → TreeOf n nodes y t →
    ∀ i, i ∈ s.leaves → i ∉ t.leaves
  cover : ∀ i, i < n → ∃ x t, Act nodes x ∧ TreeOf n nodes x t ∧ i ∈ t.leaves

theorem merged_fields {link : Linkage} {n : Nat} {nodes nodes' : List (Node K)} {dist dist' : SymMat K} {l r : Nat} {h : K}
    (m : Merged link n nodes dist l r h nodes' dist') {x : Nat} {a : Node K} (ha : nodes[x]? = some a) :
    ∃ b, nodes'[x]? = some b ∧ b.id = a.id ∧ b.idLeft = a.idLeft ∧ b.idRight = a.idRight ∧
      b.nodesWithin = a.nodesWithin ∧ b.height = a.height := by
  have hx : x < nodes.length := by rw [List.getElem?_eq_some_iff] at ha; exact ha.1
  refine ⟨_, by rw [m.old x hx, ha, Option.map_some], ?_⟩
  by_cases hc : x = l ∨ x = r
  · simp [hc]
  · simp [hc]

theorem merged_back {link : Linkage} {n : Nat} {nodes nodes' : List (Node K)} {dist dist' : SymMat K} {l r : Nat} {h : K}
    (m : Merged link n nodes dist l r h nodes' dist') {x : Nat} {b : Node K} (hb : nodes'[x]? = some b) :
    (∃ a, nodes[x]? = some a ∧ b.id = a.id ∧ b.idLeft = a.idLeft ∧ b.idRight = a.idRight ∧
      b.nodesWithin = a.nodesWithin ∧ b.height = a.height) ∨
    (x = nodes.length ∧ b.id = x ∧ b.idLeft = l ∧ b.idRight = r ∧ b.nodesWithin = sz nodes l + sz nodes r ∧ b.height = h) := by
  have hx : x < nodes'.length := by rw [List.getElem?_eq_some_iff] at hb; exact hb.1
  rw [m.len] at hx
  rcases Nat.lt_succ_iff_lt_or_eq.1 hx with hx | hx
  · left
    obtain ⟨a, ha⟩ : ∃ a, nodes[x]? = some a := ⟨_, List.getElem?_eq_getElem hx⟩
    obtain ⟨b', hb', h1⟩ := merged_fields m ha
    rw [hb] at hb'; cases hb'
    exact ⟨a, ha, h1⟩
  · right
    obtain ⟨a, ha, h1, h2, h3, h4, -, h5⟩ := m.new
    subst hx
    rw [hb] at ha; cases ha
    exact ⟨rfl, h1, h2, h3, h4, h5⟩

theorem TreeOf.keep {link : Linkage} {n : Nat} {nodes nodes' : List (Node K)} {dist dist' : SymMat K} {l r : Nat} {h : K}
    (m : Merged link n nodes dist l r h nodes' dist') {x : Nat} {t : Tree} (ht : TreeOf n nodes x t) : TreeOf n nodes' x t := by
  induction ht with
  | point x hx => exact .point x hx
  | merge x a lt rt hn ha _ _ ihl ihr =>
    obtain ⟨b, hb, -, h1, h2, -⟩ := merged_fields m ha
    exact .merge x b lt rt hn hb (by rw [h1]; exact ihl) (by rw [h2]; exact ihr)

theorem tree_merged {link : Linkage} {n : Nat} {nodes nodes' : List (Node K)} {dist dist' : SymMat K} {l r : Nat} {h : K}
    (m : Merged link n nodes dist l r h nodes' dist') (hl : Act nodes l) (hr : Act nodes r) (hne : l ≠ r)
    (i : TreeInv n nodes) : TreeInv n nodes' ∧
      ∀ s t, TreeOf n nodes l s → TreeOf n nodes r t → TreeOf n nodes' nodes.length (.node s t) := by
  obtain ⟨ln, el, -⟩ := id hl
  obtain ⟨rn, er, -⟩ := id hr
  obtain ⟨tl, t1, t2, t3, t4⟩ := i.tree l ln el
  obtain ⟨tr, r1, r2, r3, r4⟩ := i.tree r rn er
  have hl' := hl.lt_len
  have hr' := hr.lt_len
  have hnew : ∀ s t, TreeOf n nodes l s → TreeOf n nodes r t → TreeOf n nodes' nodes.length (.node s t) := by
    intro s t hs ht
    obtain ⟨a, ha, -, h2, h3, -⟩ := m.new
    exact .merge _ a s t i.le ha (by rw [h2]; exact hs.keep m) (by rw [h3]; exact ht.keep m)
  have htree : ∀ (x : Nat) s, x < nodes.length → TreeOf n nodes' x s → TreeOf n nodes x s := by
    intro x s hx hs
    obtain ⟨a, ha⟩ : ∃ a, nodes[x]? = some a := ⟨_, List.getElem?_eq_getElem hx⟩
    obtain ⟨t, ht, -⟩ := i.tree x a ha
    rw [hs.det t (ht.keep m)]; exact ht
  have hnact : ∀ x, x < nodes.length → (¬ Act nodes' x ↔ ¬ Act nodes x ∨ x = l ∨ x = r) := by
    intro x hx
    rw [m.act]
    have : x ≠ nodes.length := by omega
    tauto
  have hroot : ∀ t, TreeOf n nodes' nodes.length t → t = .node tl tr := fun t ht => ht.det _ (hnew tl tr t1 r1)
  refine ⟨⟨by have := m.len; have := i.le; omega, ?_, ?_, ?_, ?_, ?_, ?_⟩, hnew⟩
  · intro x b hb hx
    rcases merged_back m hb with ⟨a, ha, -, -, -, h4, -⟩ | ⟨hc, -⟩
    · rw [h4]; exact i.pts x a ha hx
    · have := i.le; omega
  · intro x b hx hb
    rcases merged_back m hb with ⟨a, ha, -, h2, h3, -⟩ | ⟨hc, -, h2, h3, -⟩
    · obtain ⟨c1, c2, c3, c4, c5⟩ := i.children x a hx ha
      have hxl : x < nodes.length := by rw [List.getElem?_eq_some_iff] at ha; exact ha.1
      rw [h2, h3]
      exact ⟨c1, c2, c3, (hnact _ (by omega)).2 (Or.inl c4), (hnact _ (by omega)).2 (Or.inl c5)⟩
    · rw [h2, h3]
      exact ⟨by omega, by omega, hne, (hnact _ hl').2 (Or.inr (Or.inl rfl)), (hnact _ hr').2 (Or.inr (Or.inr rfl))⟩
  · intro x hx hnx
    have hx' : x < nodes.length := by
      rw [m.len] at hx
      rcases Nat.lt_succ_iff_lt_or_eq.1 hx with h | h
      · exact h
      · exact absurd ((m.act x).2 (Or.inr h)) hnx
    by_cases hact : Act nodes x
    · -- a child of the new node
      have hxlr : x = l ∨ x = r := by
        rcases (hnact x hx').1 hnx with h | h
        · exact absurd hact h
        · exact h
      obtain ⟨a, ha, -, h2, h3, -⟩ := m.new
      refine ⟨nodes.length, ⟨i.le, a, ha, by rw [h2, h3]; rcases hxlr with h | h <;> simp [h]⟩, ?_⟩
      rintro k ⟨hk, b, hb, hc⟩
      rcases merged_back m hb with ⟨c, hc1, -, c2, c3, -⟩ | ⟨hk', -⟩
      · exfalso
        obtain ⟨-, -, -, c4, c5⟩ := i.children k c hk hc1
        rw [c2, c3] at hc
        rcases hc with hc | hc
        · rw [hc] at c4; exact c4 hact
        · rw [hc] at c5; exact c5 hact
      · exact hk'
    · obtain ⟨k, ⟨hk, a, ha, hc⟩, huniq⟩ := i.parent x hx' hact
      obtain ⟨b, hb, -, b1, b2, -⟩ := merged_fields m ha
      refine ⟨k, ⟨hk, b, hb, by rw [b1, b2]; exact hc⟩, ?_⟩
      rintro k' ⟨hk', b', hb', hc'⟩
      rcases merged_back m hb' with ⟨a', ha', -, c2, c3, -⟩ | ⟨-, -, c2, c3, -⟩
      · exact huniq k' ⟨hk', a', ha', by rw [← c2, ← c3]; exact hc'⟩
      · exfalso
        rw [c2, c3] at hc'
        rcases hc' with hc' | hc'
        · rw [← hc'] at hact; exact hact hl
        · rw [← hc'] at hact; exact hact hr
  · intro x b hb
    rcases merged_back m hb with ⟨a, ha, -, -, -, h4, -⟩ | ⟨hc, -, -, -, h4, -⟩
    · obtain ⟨t, k1, k2, k3, k4⟩ := i.tree x a ha
      exact ⟨t, k1.keep m, k2, by rw [h4]; exact k3, k4⟩
    · subst hc
      refine ⟨_, hnew tl tr t1 r1, ?_, ?_, ?_⟩
      · show (tl.leaves ++ tr.leaves).Nodup
        rw [List.nodup_append']
        exact ⟨t2, r2, fun j h1 h2 => i.disj l r tl tr hl hr hne t1 r1 j h1 h2⟩
      · have e1 : sz nodes l = tl.size := by simp [sz, el, t3]
        have e2 : sz nodes r = tr.size := by simp [sz, er, r3]
        rw [h4, e1, e2]; simp [Tree.size, Tree.leaves]
      · intro j hj
        rcases List.mem_append.1 hj with h | h
        · exact t4 j h
        · exact r4 j h
  · intro x y s t hx hy hxy hs ht j hj
    rcases (m.act x).1 hx with ⟨hx, x1, x2⟩ | hx <;> rcases (m.act y).1 hy with ⟨hy, y1, y2⟩ | hy
    · exact i.disj x y s t hx hy hxy (htree _ _ hx.lt_len hs) (htree _ _ hy.lt_len ht) j hj
    · subst hy
      rw [hroot t ht]
      intro hc
      have hs' := htree _ _ hx.lt_len hs
      rcases List.mem_append.1 hc with h | h
      · exact i.disj x l s tl hx hl x1 hs' t1 j hj h
      · exact i.disj x r s tr hx hr x2 hs' r1 j hj h
    · subst hx
      rw [hroot s hs] at hj
      have ht' := htree _ _ hy.lt_len ht
      rcases List.mem_append.1 hj with h | h
      · exact i.disj l y tl t hl hy (Ne.symm y1) t1 ht' j h
      · exact i.disj r y tr t hr hy (Ne.symm y2) r1 ht' j h
    · exact absurd (hx.trans hy.symm) hxy
  · intro j hj
    obtain ⟨x, t, hx, ht, hm⟩ := i.cover j hj
    by_cases hxl : x = l
    · subst hxl
      refine ⟨nodes.length, _, (m.act _).2 (Or.inr rfl), hnew tl tr t1 r1, ?_⟩
      rw [ht.det tl t1] at hm
      exact List.mem_append_left _ hm
    · by_cases hxr : x = r
      · subst hxr
        refine ⟨nodes.length, _, (m.act _).2 (Or.inr rfl), hnew tl tr t1 r1, ?_⟩
        rw [ht.det tr r1] at hm
        exact List.mem_append_right _ hm
      · exact ⟨x, t, (m.act x).2 (Or.inl ⟨hx, hxl, hxr⟩), ht.keep m, hm⟩

/-! ## The start -/

theorem init_get (n k : Nat) : (initNodes n : List (Node K))[k]? = if k < n then some ⟨k, 0, 0, 1, k, false, 0⟩ else none := by
  unfold initNodes
  rw [List.getElem?_map]
  by_cases h : k < n
  · rw [if_pos h, List.getElem?_range h]; rfl
  · rw [if_neg h, List.getElem?_eq_none (by simp; omega)]; rfl

theorem init_act (n k : Nat) : Act (initNodes n : List (Node K)) k ↔ k < n := by
  unfold Act
  rw [init_get]
  by_cases h : k < n
  · simp [h]
  · simp [h]

theorem init_di {n k : Nat} (h : k < n) : di (initNodes n : List (Node K)) k = k := by
  simp [di, init_get, h]

theorem init_sz {n k : Nat} (h : k < n) : sz (initNodes n : List (Node K)) k = 1 := by
  simp [sz, init_get, h]

theorem init_len (n : Nat) : (initNodes n : List (Node K)).length = n := by simp [initNodes]

theorem init_wf {n : Nat} {dist : SymMat K} (g : Good n dist) : Wf n (initNodes n) dist := by
  refine ⟨g, ?_, ?_, ?_⟩
  · intro k a ha
    rw [init_get] at ha
    split at ha
    · cases ha; rfl
    · cases ha
  · intro k hk; rw [init_act] at hk; rw [init_di hk]; exact hk
  · intro x y hx hy h
    rw [init_act] at hx hy
    rwa [init_di hx, init_di hy] at h

theorem init_acts (n : Nat) : (acts (initNodes n : List (Node K))).card = n := by
  have : acts (initNodes n : List (Node K)) = Finset.range n := by
    ext k; rw [mem_acts, init_act, Finset.mem_range]
  rw [this, Finset.card_range]

theorem start_spec {n : Nat} (hn : 1 ≤ n) {dist : SymMat K} (g : Good n dist) :
    ∃ s, start n dist = .ok s ∧ Inv n s ∧ s.nodes = initNodes n ∧ s.dist = dist ∧ todo n s = 3 * (n - 1) := by
  have w := init_wf g
  have h0 : Act (initNodes n : List (Node K)) 0 := (init_act n 0).2 (by omega)
  obtain ⟨near, e, hnear⟩ := nearest_inv w h0
  refine ⟨{ nodes := initNodes n, dist := dist, ni := n, top := 0, near := near, stack := [0] }, ?_, ?_, rfl, rfl, ?_⟩
  · unfold start
    obtain ⟨a, ha, -⟩ := h0
    rw [atV_ok ha, Outcome.ok_bind, e]; rfl
  · refine ⟨w, (init_len n).symm, ?_, ?_, ⟨[], rfl⟩, ?_, by simp, hnear⟩
    · intro k hk; rw [init_act] at hk; rw [init_sz hk]
    · show (acts (initNodes n : List (Node K))).card + n = 2 * n
      rw [init_acts]; omega
    · intro x hx; simp at hx; rw [hx]; exact h0
  · unfold todo; simp; omega

theorem init_tree (n : Nat) : TreeInv n (initNodes n : List (Node K)) := by
  have key : ∀ (x : Nat) a, (initNodes n : List (Node K))[x]? = some a → x < n := by
    intro x a ha
    rw [List.getElem?_eq_some_iff] at ha
    have := ha.1; rwa [init_len] at this
  have tr : ∀ x t, x < n → TreeOf n (initNodes n : List (Node K)) x t → t = .leaf x := by
    intro x t hx ht
    exact ht.det _ (.point x hx)
  refine ⟨by rw [init_len], ?_, ?_, ?_, ?_, ?_, ?_⟩
  · intro x a ha hx
    rw [init_get, if_pos hx] at ha; cases ha; rfl
  · intro x a hx ha
    have := key x a ha; omega
  · intro x hx hc
    rw [init_len] at hx
    exact absurd ((init_act n x).2 hx) hc
  · intro x a ha
    have hx := key x a ha
    rw [init_get, if_pos hx] at ha; cases ha
    refine ⟨.leaf x, .point x hx, by simp [Tree.leaves], by simp [Tree.size, Tree.leaves], ?_⟩
    intro i hi; simp [Tree.leaves] at hi; omega
  · intro x y s t hx hy hxy hs ht i hi
    rw [init_act] at hx hy
    rw [tr x s hx hs] at hi
    rw [tr y t hy ht]
    simp [Tree.leaves] at hi ⊢
    omega
  · intro i hi
    exact ⟨i, .leaf i, (init_act n i).2 hi, .point i hi, by simp [Tree.leaves]⟩

/-- The distances after the check for NaN. -/
def plain (d : SymMat (Arr.Val K)) : SymMat K := { rows := d.rows, data := d.data.map (fun x => x.getD 0) }

theorem plain_good {n : Nat} {d : SymMat (Arr.Val K)} (h : IsDist n d) : Good n (plain d) :=
  ⟨h.rows, by simp only [plain, List.length_map]; exact h.size⟩

theorem plain_sval {n : Nat} {d : SymMat (Arr.Val K)} (h : IsDist n d) {i j : Nat} (hi : i < n) (hj : j < n) :
    sval (plain d) i j = pointDist d i j := by
  unfold sval pointDist
  rw [symGet0_get (plain d) n h.rows hi hj]
  unfold SymMat.get
  rw [if_neg (by have := h.rows; simp only [plain]; omega), if_neg (by have := h.rows; omega)]
  simp only [plain]
  cases hk : symIndex false d.rows i j with
  | none => rfl
  | some k =>
    simp only
    unfold Mx.read
    by_cases hc : 0 ≤ k
    · rw [if_pos hc, if_pos hc, List.getElem?_map]
      cases he : d.data[k.toNat]? with
      | none => rfl
      | some v =>
        have := h.num v (List.mem_of_getElem? he)
        cases v with
        | none => exact absurd rfl this
        | some v => rfl
    · rw [if_neg hc, if_neg hc]

theorem pointDist_comm (d : SymMat (Arr.Val K)) (i j : Nat) : pointDist d i j = pointDist d j i := by
  unfold pointDist SymMat.get
  rw [symIndex_comm]
  by_cases hc : (i : Int) ≥ d.rows ∨ (j : Int) ≥ d.rows ∨ (i : Int) < 0 ∨ (j : Int) < 0
  · rw [if_pos hc, if_pos (by omega)]
  · rw [if_neg hc, if_neg (by omega)]

/-- `Calculate` ends, and what every merge keeps holds at the end. -/
theorem calc_spec (link : Linkage) {n : Nat} (hn : 1 ≤ n) {fuel : Nat} (hf : 3 * (n - 1) ≤ fuel) {d : SymMat (Arr.Val K)}
    (h : IsDist n d) (P : List (Node K) → SymMat K → Prop) (h0 : P (initNodes n) (plain d))
    (hP : ∀ nodes dist nodes' dist', Wf n nodes dist → (∀ k, Act nodes k → 1 ≤ sz nodes k) →
      MergeOf link n nodes dist nodes' dist' → P nodes dist → P nodes' dist') :
    ∃ s : St K, calculate link n fuel d = .ok (s.nodes, s.dist) ∧ Inv n s ∧ s.ni = 2 * n - 1 ∧ P s.nodes s.dist := by
  obtain ⟨s0, e0, i0, hn0, hd0, ht0⟩ := start_spec hn (plain_good h)
  obtain ⟨s, e, i, hs, hp⟩ := run_spec link P hP fuel s0 i0 (by omega) (by rw [hn0, hd0]; exact h0)
  refine ⟨s, ?_, i, hs, hp⟩
  unfold calculate
  rw [if_neg, if_neg]
  · show (start n (plain d) >>= _) = _
    rw [e0, Outcome.ok_bind, e]; rfl
  · rw [h.rows]; simp [symLength]
  · simp only [Bool.not_eq_true, List.any_eq_false]
    intro x hx
    have := h.num x hx
    cases x with
    | none => exact absurd rfl this
    | some v => simp

/-- The last state is a dendrogram. -/
theorem dendrogram {n : Nat} (hn : 1 ≤ n) {s : St K} (i : Inv n s) (hs : s.ni = 2 * n - 1) (t : TreeInv n s.nodes) :
    IsDendrogram n s.nodes := by
  have hlen : s.nodes.length = 2 * n - 1 := by rw [← i.len, hs]
  have hone : (acts s.nodes).card = 1 := by have := i.count; omega
  have hroot : Act s.nodes (2 * n - 2) := by
    by_contra hc
    obtain ⟨k, ⟨hk, a, ha, hca⟩, -⟩ := t.parent (2 * n - 2) (by omega) hc
    obtain ⟨c1, c2, -⟩ := t.children k a hk ha
    have : k < s.nodes.length := by rw [List.getElem?_eq_some_iff] at ha; exact ha.1
    rcases hca with h | h <;> omega
  have huniq : ∀ x, Act s.nodes x → x = 2 * n - 2 := by
    intro x hx
    obtain ⟨a, ha⟩ := Finset.card_eq_one.1 hone
    have h1 := mem_acts.2 hx
    have h2 := mem_acts.2 hroot
    rw [ha, Finset.mem_singleton] at h1 h2
    rw [h1, h2]
  obtain ⟨ra, era, -⟩ := id hroot
  obtain ⟨rt, h1, h2, -, h4⟩ := t.tree _ ra era
  refine ⟨hlen, fun x a hx ha => ?_, fun x hx => t.parent x (by omega) (fun hc => by have := huniq x hc; omega), ?_, rt, h1, ?_⟩
  · obtain ⟨c1, c2, c3, -⟩ := t.children x a hx ha
    exact ⟨c1, c2, c3⟩
  · intro x a ha
    obtain ⟨u, k1, k2, k3, -⟩ := t.tree x a ha
    exact ⟨i.wf.ids x a ha, u, k1, k2, k3⟩
  · rw [List.perm_ext_iff_of_nodup h2 List.nodup_range]
    intro j
    rw [List.mem_range]
    refine ⟨h4 j, fun hj => ?_⟩
    obtain ⟨x, u, hx, hu, hm⟩ := t.cover j hj
    rw [huniq x hx] at hu
    rw [h1.det u hu]; exact hm

end
end Cl
end LDT
