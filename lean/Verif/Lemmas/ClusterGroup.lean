import Verif.Lemmas.ClusterGreedy
import Mathlib.Data.Finset.Max
import Mathlib.Data.List.Sort
/-!
# `HCluster::Group`
-/
namespace LDT
namespace Cl
open Mx

section
variable {K : Type} [Field K] [LinearOrder K] [IsStrictOrderedRing K]

theorem IsDendrogram.tree {n : Nat} {nodes : List (Node K)} (g : IsDendrogram n nodes) {x : Nat} (hx : x < 2 * n - 1) :
    ∃ t, TreeOf n nodes x t ∧ t.leaves.Nodup := by
  obtain ⟨a, ha⟩ : ∃ a, nodes[x]? = some a := ⟨_, List.getElem?_eq_getElem (by rw [g.len]; exact hx)⟩
  obtain ⟨-, t, h1, h2, -⟩ := g.node x a ha
  exact ⟨t, h1, h2⟩

theorem IsDendrogram.leaf_lt {n : Nat} {nodes : List (Node K)} {x : Nat} {t : Tree}
    (ht : TreeOf n nodes x t) : ∀ i ∈ t.leaves, i < n := by
  induction ht with
  | point x hx => intro i hi; simp [Tree.leaves] at hi; omega
  | merge x a l r _ _ _ _ ihl ihr =>
    intro i hi
    rcases List.mem_append.1 hi with h | h
    · exact ihl i h
    · exact ihr i h

theorem top_disjoint {n : Nat} {nodes : List (Node K)} (g : IsDendrogram n nodes) {b x y : Nat} (hx : TopBelow n nodes b x)
    (hy : TopBelow n nodes b y) (hxy : x ≠ y) {s t : Tree} (hs : TreeOf n nodes x s) (ht : TreeOf n nodes y t) :
    ∀ i ∈ s.leaves, i ∉ t.leaves := by
  intro i hi hj
  have hno : ∀ x y, TopBelow n nodes b x → TopBelow n nodes b y → x ≠ y → ¬ Relation.ReflTransGen (Par n nodes) x y := by
    intro x y hx hy hxy hp
    have key : ∀ z, Relation.ReflTransGen (Par n nodes) x z → x ≠ z → b ≤ z := by
      intro z hz
      induction hz with
      | refl => intro h; exact absurd rfl h
      | @tail u v hu hv ih =>
        intro _
        by_cases e : x = u
        · subst e
          obtain ⟨h1, a, h2, h3⟩ := hv
          exact hx.2 v a h1 h2 h3
        · have := ih e
          have := (Par.lt g hv).1
          omega
    have := key y hp hxy
    have := hy.1
    omega
  have hu : Relator.RightUnique (Par n nodes) := fun a b c h1 h2 => Par.unique g h1 h2
  rcases Relation.ReflTransGen.total_of_right_unique hu (hs.path i hi) (ht.path i hj) with hp | hp
  · exact hno x y hx hy hxy hp
  · exact hno y x hy hx (Ne.symm hxy) hp

theorem top_cover {n : Nat} {nodes : List (Node K)} (g : IsDendrogram n nodes) {b : Nat} (hb : n ≤ b) (hb2 : b ≤ 2 * n - 1)
    {i : Nat} (hi : i < n) : ∃ x t, TopBelow n nodes b x ∧ TreeOf n nodes x t ∧ i ∈ t.leaves := by
  classical
  let C : Finset Nat := (Finset.range b).filter (fun x => ∃ t, TreeOf n nodes x t ∧ i ∈ t.leaves)
  have hC : C.Nonempty :=
    ⟨i, Finset.mem_filter.2 ⟨Finset.mem_range.2 (by omega), .leaf i, .point i hi, by simp [Tree.leaves]⟩⟩
  obtain ⟨x, hx, hmax⟩ := C.exists_max_image id hC
  obtain ⟨hx1, t, ht, hm⟩ := Finset.mem_filter.1 hx
  refine ⟨x, t, ⟨Finset.mem_range.1 hx1, ?_⟩, ht, hm⟩
  intro k a hk ha hc
  by_contra hlt
  have hkl : k < 2 * n - 1 := by rw [List.getElem?_eq_some_iff] at ha; have := ha.1; rwa [g.len] at this
  obtain ⟨u, hu, -⟩ := g.tree hkl
  have hmem : i ∈ u.leaves := by
    cases hu with
    | point _ h => omega
    | merge _ b' l r _ hb' hl hr =>
      rw [ha] at hb'; cases hb'
      rcases hc with h | h
      · rw [h] at hl; rw [ht.det _ hl] at hm; exact List.mem_append_left _ hm
      · rw [h] at hr; rw [ht.det _ hr] at hm; exact List.mem_append_right _ hm
  have hkx := hmax k (Finset.mem_filter.2 ⟨Finset.mem_range.2 (by omega), u, hu, hmem⟩)
  obtain ⟨c1, c2, -⟩ := g.children k a hk ha
  simp only [id] at hkx
  rcases hc with h | h <;> omega

/-! ## Writing the labels -/

theorem setGroup_spec {n : Nat} {nodes : List (Node K)} (g : IsDendrogram n nodes) (last : Nat) {x : Nat} {t : Tree}
    (ht : TreeOf n nodes x t) : ∀ (fuel : Nat) (a : Node K) (l : List Nat), x < fuel → nodes[x]? = some a → l.length = n →
      ∃ l', setGroup nodes last fuel a l = .ok l' ∧ l'.length = n ∧
        ∀ i : Nat, i < n → l'[i]? = if i ∈ t.leaves then some last else l[i]? := by
  induction ht with
  | point x hx =>
    intro fuel a l hf ha hl
    obtain ⟨fuel, rfl⟩ : ∃ f, fuel = f + 1 := ⟨fuel - 1, by omega⟩
    obtain ⟨hid, t, ht, -, hw⟩ := g.node x a ha
    rw [ht.det _ (.point x hx)] at hw
    refine ⟨l.set x last, ?_, by simp [hl], ?_⟩
    · unfold setGroup
      rw [if_pos (by simpa [Tree.size, Tree.leaves] using hw), hid, write_ok_of last (by omega) (by omega)]
      simp
    · intro i hi
      rw [List.getElem?_set]
      by_cases h : x = i
      · subst h; simp [Tree.leaves, hl, hi]
      · rw [if_neg h, if_neg]
        simp [Tree.leaves]; omega
  | merge x a s r hn ha hs hr ihs ihr =>
    intro fuel a' l hf ha' hl
    rw [ha] at ha'; cases ha'
    obtain ⟨fuel, rfl⟩ : ∃ f, fuel = f + 1 := ⟨fuel - 1, by omega⟩
    obtain ⟨hid, t, ht, -, hw⟩ := g.node x a ha
    rw [ht.det _ (.merge x a s r hn ha hs hr), Tree.size_node] at hw
    obtain ⟨c1, c2, -⟩ := g.children x a hn ha
    have hxl : x < nodes.length := by rw [List.getElem?_eq_some_iff] at ha; exact ha.1
    obtain ⟨al, eal⟩ : ∃ b, nodes[a.idLeft]? = some b := ⟨_, List.getElem?_eq_getElem (by omega)⟩
    obtain ⟨ar, ear⟩ : ∃ b, nodes[a.idRight]? = some b := ⟨_, List.getElem?_eq_getElem (by omega)⟩
    obtain ⟨l1, e1, k1, g1⟩ := ihs fuel al l (by omega) eal hl
    obtain ⟨l2, e2, k2, g2⟩ := ihr fuel ar l1 (by omega) ear k1
    refine ⟨l2, ?_, k2, ?_⟩
    · unfold setGroup
      rw [if_neg (by have := s.size_pos; have := r.size_pos; omega), atV_ok eal, Outcome.ok_bind, atV_ok ear, Outcome.ok_bind, e1,
        Outcome.ok_bind, e2]
    · intro i hi
      rw [g2 i hi, g1 i hi]
      by_cases h1 : i ∈ s.leaves <;> by_cases h2 : i ∈ r.leaves <;> simp [Tree.leaves, h1, h2]

/-! ## The set of labels -/

theorem mem_setInsert (a c : Nat) (l : List Nat) : c ∈ setInsert a l ↔ c = a ∨ c ∈ l := by
  induction l with
  | nil => simp [setInsert]
  | cons b l ih =>
    unfold setInsert
    split
    · simp
    · split
      · next h => subst h; simp
      · simp only [List.mem_cons, ih]; tauto

theorem setInsert_sorted (a : Nat) {l : List Nat} (h : l.Pairwise (· < ·)) : (setInsert a l).Pairwise (· < ·) := by
  induction l with
  | nil => simp [setInsert]
  | cons b l ih =>
    unfold setInsert
    rw [List.pairwise_cons] at h
    split
    · next hab =>
      rw [List.pairwise_cons]
      refine ⟨fun c hc => ?_, List.pairwise_cons.2 h⟩
      rcases List.mem_cons.1 hc with e | hc
      · omega
      · have := h.1 c hc; omega
    · split
      · exact List.pairwise_cons.2 h
      · rw [List.pairwise_cons]
        refine ⟨fun c hc => ?_, ih h.2⟩
        rcases (mem_setInsert a c l).1 hc with e | hc
        · omega
        · exact h.1 c hc

theorem sortedSet_aux (l : List Nat) : ∀ s : List Nat, s.Pairwise (· < ·) →
    (l.foldl (fun s a => setInsert a s) s).Pairwise (· < ·) ∧
      ∀ c, c ∈ l.foldl (fun s a => setInsert a s) s ↔ c ∈ l ∨ c ∈ s := by
  induction l with
  | nil => intro s h; exact ⟨h, by simp⟩
  | cons a l ih =>
    intro s h
    obtain ⟨h1, h2⟩ := ih _ (setInsert_sorted a h)
    refine ⟨h1, fun c => ?_⟩
    rw [List.foldl_cons, h2, mem_setInsert, List.mem_cons]
    tauto

theorem sortedSet_range {l : List Nat} {m : Nat} (h : ∀ c, c ∈ l ↔ c < m) : sortedSet l = List.range m := by
  obtain ⟨h1, h2⟩ := sortedSet_aux l [] (by simp)
  apply List.Pairwise.eq_of_mem_iff h1 List.pairwise_lt_range
  intro c
  rw [h2, h c]; simp

/-! ## The loop -/

/-- After undoing the merges at `b, b + 1, …` the labels `0, …, m` tell the remaining clusters apart. -/
structure LabelInv (n : Nat) (nodes : List (Node K)) (b m : Nat) (l : List Nat) (lab : Nat → Nat) : Prop where
  len : l.length = n
  le : ∀ x, TopBelow n nodes b x → lab x ≤ m
  inj : ∀ x y, TopBelow n nodes b x → TopBelow n nodes b y → lab x = lab y → x = y
  onto : ∀ c, c ≤ m → ∃ x, TopBelow n nodes b x ∧ lab x = c
  label : ∀ x t, TopBelow n nodes b x → TreeOf n nodes x t → ∀ i ∈ t.leaves, l[i]? = some (lab x)

theorem LabelInv.set {n : Nat} {nodes : List (Node K)} (g : IsDendrogram n nodes) {b m : Nat} {l : List Nat} {lab : Nat → Nat}
    (h : LabelInv n nodes b m l lab) (hb : n ≤ b) (hb2 : b ≤ 2 * n - 1) : sortedSet l = List.range (m + 1) := by
  apply sortedSet_range
  intro c
  constructor
  · intro hc
    obtain ⟨i, hi, e⟩ := List.getElem_of_mem hc
    rw [h.len] at hi
    obtain ⟨x, t, hx, ht, hm⟩ := top_cover g hb hb2 hi
    have := h.label x t hx ht i hm
    rw [List.getElem?_eq_getElem (by rw [h.len]; exact hi), e] at this
    cases this
    have := h.le x hx
    omega
  · intro hc
    obtain ⟨x, hx, e⟩ := h.onto c (by omega)
    obtain ⟨t, ht, -⟩ := g.tree (x := x) (by have := hx.1; omega)
    obtain ⟨i, hi⟩ := t.exists_leaf
    have := h.label x t hx ht i hi
    rw [← e]
    exact List.mem_of_getElem? this

theorem label_step {n : Nat} {nodes : List (Node K)} (g : IsDendrogram n nodes) {q m : Nat} {l l' : List Nat} {lab : Nat → Nat}
    (h : LabelInv n nodes (q + 1) m l lab) (hq : n ≤ q) {a : Node K} (ha : nodes[q]? = some a) {c o : Nat}
    (hco : (c = a.idLeft ∧ o = a.idRight) ∨ (c = a.idRight ∧ o = a.idLeft)) {t : Tree} (ht : TreeOf n nodes c t)
    (hl : l'.length = n) (hl' : ∀ i : Nat, i < n → l'[i]? = if i ∈ t.leaves then some (m + 1) else l[i]?) :
    ∃ lab', LabelInv n nodes q (m + 1) l' lab' := by
  have hql : q < 2 * n - 1 := by rw [List.getElem?_eq_some_iff] at ha; have := ha.1; rwa [g.len] at this
  obtain ⟨c1, c2, c3⟩ := g.children q a hq ha
  have hpc : Par n nodes c q := ⟨hq, a, ha, by rcases hco with h | h <;> simp [h.1]⟩
  have hpo : Par n nodes o q := ⟨hq, a, ha, by rcases hco with h | h <;> simp [h.2]⟩
  have hne : c ≠ o := by rcases hco with ⟨h1, h2⟩ | ⟨h1, h2⟩ <;> omega
  have hchild : ∀ x, Par n nodes x q → x = c ∨ x = o := by
    rintro x ⟨-, b, hb, hx⟩
    rw [ha] at hb; cases hb
    rcases hco with ⟨h1, h2⟩ | ⟨h1, h2⟩ <;> rcases hx with hx | hx <;> omega
  have htopq : TopBelow n nodes (q + 1) q := ⟨by omega, fun k b hk hb hc => by
    have := (Par.lt g (⟨hk, b, hb, hc⟩ : Par n nodes q k)).1; omega⟩
  have htop : ∀ x, TopBelow n nodes q x ↔ (TopBelow n nodes (q + 1) x ∧ x ≠ q) ∨ x = c ∨ x = o := by
    intro x
    constructor
    · rintro ⟨h1, h2⟩
      by_cases hp : Par n nodes x q
      · exact Or.inr (hchild x hp)
      · refine Or.inl ⟨⟨by omega, fun k b hk hb hc => ?_⟩, by omega⟩
        have := h2 k b hk hb hc
        rcases Nat.lt_or_ge q k with h | h
        · omega
        · have e : k = q := by omega
          subst e
          exact absurd ⟨hk, b, hb, hc⟩ hp
    · have par : ∀ x, Par n nodes x q → TopBelow n nodes q x := by
        intro x hp
        refine ⟨(Par.lt g hp).1, fun k b hk hb hc => ?_⟩
        rw [Par.unique g (⟨hk, b, hb, hc⟩ : Par n nodes x k) hp]
      rintro (⟨⟨h1, h2⟩, h3⟩ | h | h)
      · exact ⟨by omega, fun k b hk hb hc => by have := h2 k b hk hb hc; omega⟩
      · rw [h]; exact par c hpc
      · rw [h]; exact par o hpo
  have hold : ∀ x, TopBelow n nodes (q + 1) x → x ≠ c ∧ x ≠ o := by
    intro x hx
    constructor <;> intro e
    · obtain ⟨-, b, hb, hc⟩ := hpc
      have := hx.2 q b hq hb (by rw [e]; exact hc); omega
    · obtain ⟨-, b, hb, hc⟩ := hpo
      have := hx.2 q b hq hb (by rw [e]; exact hc); omega
  obtain ⟨tt, hto, -⟩ := g.tree (x := o) (by have := (Par.lt g hpo).1; omega)
  have htq : ∃ tq, TreeOf n nodes q tq ∧ (∀ i ∈ t.leaves, i ∈ tq.leaves) ∧ (∀ i ∈ tt.leaves, i ∈ tq.leaves) := by
    rcases hco with ⟨h1, h2⟩ | ⟨h1, h2⟩
    · exact ⟨.node t tt, .merge q a t tt hq ha (by rw [← h1]; exact ht) (by rw [← h2]; exact hto),
        fun i hi => List.mem_append_left _ hi, fun i hi => List.mem_append_right _ hi⟩
    · exact ⟨.node tt t, .merge q a tt t hq ha (by rw [← h2]; exact hto) (by rw [← h1]; exact ht),
        fun i hi => List.mem_append_right _ hi, fun i hi => List.mem_append_left _ hi⟩
  obtain ⟨tq, htq, hin1, hin2⟩ := htq
  have hlabq := h.label q tq htopq htq
  have htc := (htop c).2 (Or.inr (Or.inl rfl))
  have hto' := (htop o).2 (Or.inr (Or.inr rfl))
  refine ⟨fun x => if x = c then m + 1 else if x = o then lab q else lab x, hl, ?_, ?_, ?_, ?_⟩
  · intro x hx
    split
    · omega
    · split
      · have := h.le q htopq; omega
      · rcases (htop x).1 hx with ⟨hx, -⟩ | hx | hx
        · have := h.le x hx; omega
        · contradiction
        · contradiction
  · have key : ∀ x, TopBelow n nodes q x → x ≠ c → (if x = o then lab q else lab x) ≤ m := by
      intro x hx hxc
      split
      · exact h.le q htopq
      · rcases (htop x).1 hx with ⟨hx, -⟩ | hx | hx
        · exact h.le x hx
        · contradiction
        · contradiction
    intro x y hx hy e
    by_cases xc : x = c
    · by_cases yc : y = c
      · rw [xc, yc]
      · rw [if_pos xc, if_neg yc] at e
        have := key y hy yc; omega
    · by_cases yc : y = c
      · rw [if_neg xc, if_pos yc] at e
        have := key x hx xc; omega
      · rw [if_neg xc, if_neg yc] at e
        have hx' : ∀ x, TopBelow n nodes q x → x ≠ c → x ≠ o → TopBelow n nodes (q + 1) x ∧ x ≠ q := by
          intro x hx h1 h2
          rcases (htop x).1 hx with hx | hx | hx
          · exact hx
          · contradiction
          · contradiction
        by_cases xo : x = o
        · by_cases yo : y = o
          · rw [xo, yo]
          · rw [if_pos xo, if_neg yo] at e
            obtain ⟨k1, k2⟩ := hx' y hy yc yo
            exact absurd (h.inj q y htopq k1 e).symm k2
        · by_cases yo : y = o
          · rw [if_neg xo, if_pos yo] at e
            obtain ⟨k1, k2⟩ := hx' x hx xc xo
            exact absurd (h.inj x q k1 htopq e) k2
          · rw [if_neg xo, if_neg yo] at e
            exact h.inj x y (hx' x hx xc xo).1 (hx' y hy yc yo).1 e
  · intro e he
    by_cases hm : e = m + 1
    · exact ⟨c, htc, by simp [hm]⟩
    · obtain ⟨x, hx, hxe⟩ := h.onto e (by omega)
      by_cases hxq : x = q
      · refine ⟨o, hto', ?_⟩
        rw [if_neg (Ne.symm hne), if_pos rfl, ← hxq]; exact hxe
      · refine ⟨x, (htop x).2 (Or.inl ⟨hx, hxq⟩), ?_⟩
        obtain ⟨k1, k2⟩ := hold x hx
        rw [if_neg k1, if_neg k2]; exact hxe
  · intro x s hx hs i hi
    have hin : i < n := IsDendrogram.leaf_lt hs i hi
    rw [hl' i hin]
    by_cases xc : x = c
    · subst xc
      rw [if_pos rfl, if_pos]
      rw [ht.det _ hs]; exact hi
    · have hnt : i ∉ t.leaves := top_disjoint g hx htc xc hs ht i hi
      rw [if_neg hnt, if_neg xc]
      by_cases xo : x = o
      · subst xo
        rw [if_pos rfl]
        exact hlabq i (hin2 i (by rw [hto.det _ hs]; exact hi))
      · rw [if_neg xo]
        rcases (htop x).1 hx with ⟨hx, -⟩ | hx | hx
        · exact h.label x s hx hs i hi
        · contradiction
        · contradiction

theorem splitLoop_spec {n : Nat} {nodes : List (Node K)} (g : IsDendrogram n nodes) {k : Nat} (hk : 2 ≤ k) :
    ∀ (todo m : Nat) (l gr : List Nat) (lab : Nat → Nat), LabelInv n nodes (n + todo) m l lab → n + todo + m = 2 * n - 1 →
      m + 1 < k → 1 ≤ todo → 
      ∃ l' lab', splitLoop nodes n k todo m l gr = .ok (l', List.range (min n k)) ∧
        LabelInv n nodes (2 * n - min n k) (min n k - 1) l' lab' := by
  intro todo
  induction todo with
  | zero => intro m l gr lab _ _ _ h; omega
  | succ todo ih =>
    intro m l gr lab h he hmk _
    have hlt : n + todo < nodes.length := by rw [g.len]; omega
    obtain ⟨a, ha⟩ : ∃ a, nodes[n + todo]? = some a := ⟨_, List.getElem?_eq_getElem hlt⟩
    obtain ⟨c1, c2, -⟩ := g.children _ a (by omega) ha
    obtain ⟨al, eal⟩ : ∃ b, nodes[a.idLeft]? = some b := ⟨_, List.getElem?_eq_getElem (by omega)⟩
    obtain ⟨ar, ear⟩ : ∃ b, nodes[a.idRight]? = some b := ⟨_, List.getElem?_eq_getElem (by omega)⟩
    -- the branch that gets a new label
    obtain ⟨c, o, b, hco, hb, hsel⟩ : ∃ (c o : Nat) (b : Node K), ((c = a.idLeft ∧ o = a.idRight) ∨ (c = a.idRight ∧ o = a.idLeft)) ∧
        nodes[c]? = some b ∧ (if al.nodesWithin < ar.nodesWithin then al else ar) = b := by
      by_cases hc : al.nodesWithin < ar.nodesWithin
      · exact ⟨_, _, al, Or.inl ⟨rfl, rfl⟩, eal, by rw [if_pos hc]⟩
      · exact ⟨_, _, ar, Or.inr ⟨rfl, rfl⟩, ear, by rw [if_neg hc]⟩
    have hcq : c < n + todo := by rcases hco with h | h <;> omega
    obtain ⟨t, ht, -⟩ := g.tree (x := c) (by rw [g.len] at hlt; omega)
    obtain ⟨l1, e1, k1, k2⟩ := setGroup_spec g (m + 1) ht nodes.length b l (by omega) hb h.len
    obtain ⟨lab1, h1⟩ := label_step g (q := n + todo) h (by omega) ha hco ht k1 k2
    have hset := h1.set g (by omega) (by omega)
    unfold splitLoop
    rw [atV_ok ha, Outcome.ok_bind, atV_ok eal, Outcome.ok_bind, atV_ok ear, Outcome.ok_bind, hsel, e1, Outcome.ok_bind, hset,
      List.length_range]
    by_cases hstop : m + 1 + 1 = k
    · rw [if_pos hstop]
      have hmin : min n k = m + 2 := by omega
      rw [hmin]
      refine ⟨l1, lab1, rfl, ?_⟩
      rw [show 2 * n - (m + 2) = n + todo by omega]
      exact h1
    · rw [if_neg hstop]
      rcases Nat.eq_zero_or_pos todo with h0 | h0
      · subst h0
        have hmin : min n k = m + 2 := by omega
        rw [hmin]
        refine ⟨l1, lab1, rfl, ?_⟩
        rw [show 2 * n - (m + 2) = n + 0 by omega]
        exact h1
      · exact ih (m + 1) l1 _ lab1 h1 (by omega) (by omega) h0

/-! ## Collecting the groups -/

/-- The points with one label. -/
def members (n : Nat) (l : List Nat) (c : Nat) : List Nat := (List.range n).filter (fun i => l[i]? == some c)

theorem fillMap_spec (n : Nat) (l : List Nat) (k : Nat) : ∀ m, m ≤ k →
    fillMap n l (List.range m) (List.replicate k []) = .ok ((List.range m).map (members n l) ++ List.replicate (k - m) []) := by
  intro m
  induction m with
  | zero => intro _; rfl
  | succ m ih =>
    intro hm
    have ih := ih (by omega)
    unfold fillMap at ih ⊢
    rw [List.range_succ, zipIdx_snoc, List.foldlM_append, ih, Outcome.ok_bind, List.length_range]
    have e1 : (List.map (members n l) (List.range m) ++ List.replicate (k - m) ([] : List Nat)) =
        List.map (members n l) (List.range m) ++ ([] :: List.replicate (k - (m + 1)) []) := by
      rw [show k - m = (k - (m + 1)) + 1 by omega, List.replicate_succ]
    rw [e1]
    simp only [List.foldlM_cons, List.foldlM_nil]
    have e2 : (List.range n).filter (fun i => l[i]? == some m) = members n l m := rfl
    rw [e2]
    have hat : (List.map (members n l) (List.range m) ++ ([] :: List.replicate (k - (m + 1)) ([] : List Nat)))[m]? = some [] := by
      rw [List.getElem?_append_right (by simp)]; simp
    by_cases hc : members n l m = []
    · rw [if_pos hc, List.map_append, List.map_cons, hc]
      simp
    · rw [if_neg hc, atV_ok hat, Outcome.ok_bind, List.map_append, List.set_append_right _ _ (by simp)]
      simp

theorem members_grouping {n : Nat} {nodes : List (Node K)} (g : IsDendrogram n nodes) {b m : Nat} {l : List Nat} {lab : Nat → Nat}
    (h : LabelInv n nodes b m l lab) (hb : n ≤ b) (hb2 : b ≤ 2 * n - 1) :
    IsGrouping n nodes b ((List.range (m + 1)).map (members n l)) := by
  have hmem : ∀ c i, i ∈ members n l c ↔ i < n ∧ l[i]? = some c := by
    intro c i; unfold members; rw [List.mem_filter, List.mem_range]; simp
  have hnd : ∀ c, (members n l c).Pairwise (· < ·) := fun c => List.Pairwise.filter _ List.pairwise_lt_range
  refine ⟨?_, ?_, ?_, ?_⟩
  · rw [List.perm_ext_iff_of_nodup _ List.nodup_range]
    · intro i
      rw [List.mem_flatten, List.mem_range]
      constructor
      · rintro ⟨s, hs, hi⟩
        obtain ⟨c, -, rfl⟩ := List.mem_map.1 hs
        exact ((hmem c i).1 hi).1
      · intro hi
        obtain ⟨x, t, hx, ht, hm⟩ := top_cover g hb hb2 hi
        refine ⟨_, List.mem_map.2 ⟨lab x, List.mem_range.2 (by have := h.le x hx; omega), rfl⟩, ?_⟩
        exact (hmem _ i).2 ⟨hi, h.label x t hx ht i hm⟩
    · rw [List.nodup_flatten]
      constructor
      · intro s hs
        obtain ⟨c, -, rfl⟩ := List.mem_map.1 hs
        exact (hnd c).imp (fun h => Nat.ne_of_lt h)
      · rw [List.pairwise_map]
        refine List.nodup_range.imp ?_
        intro c c' hne i h1 h2
        have e1 := ((hmem c i).1 h1).2
        have e2 := ((hmem c' i).1 h2).2
        rw [e1] at e2; cases e2; exact hne rfl
  · intro s hs
    obtain ⟨c, hc, rfl⟩ := List.mem_map.1 hs
    rw [List.mem_range] at hc
    obtain ⟨x, hx, e⟩ := h.onto c (by omega)
    obtain ⟨t, ht, -⟩ := g.tree (x := x) (by have := hx.1; omega)
    obtain ⟨i, hi⟩ := t.exists_leaf
    intro hcon
    have : i ∈ members n l c := (hmem c i).2 ⟨IsDendrogram.leaf_lt ht i hi, by rw [← e]; exact h.label x t hx ht i hi⟩
    rw [hcon] at this; cases this
  · intro s hs
    obtain ⟨c, -, rfl⟩ := List.mem_map.1 hs
    exact hnd c
  · intro s hs
    obtain ⟨c, hc, rfl⟩ := List.mem_map.1 hs
    rw [List.mem_range] at hc
    obtain ⟨x, hx, e⟩ := h.onto c (by omega)
    obtain ⟨t, ht, hn⟩ := g.tree (x := x) (by have := hx.1; omega)
    refine ⟨x, t, hx, ht, ?_⟩
    rw [List.perm_ext_iff_of_nodup ((hnd c).imp (fun h => Nat.ne_of_lt h)) hn]
    intro i
    rw [hmem]
    constructor
    · rintro ⟨hi, hl⟩
      obtain ⟨y, u, hy, hu, hm⟩ := top_cover g hb hb2 hi
      have := h.label y u hy hu i hm
      rw [hl] at this
      have e' : c = lab y := by cases this; rfl
      have : x = y := h.inj x y hx hy (e.trans e')
      subst this
      rw [ht.det _ hu]; exact hm
    · intro hi
      exact ⟨IsDendrogram.leaf_lt ht i hi, by rw [← e]; exact h.label x t hx ht i hi⟩

theorem label_start {n : Nat} {nodes : List (Node K)} (g : IsDendrogram n nodes) (hn : 1 ≤ n) :
    LabelInv n nodes (2 * n - 1) 0 (List.replicate n 0) (fun _ => 0) := by
  have htop : ∀ x, TopBelow n nodes (2 * n - 1) x → x = 2 * n - 2 := by
    rintro x ⟨h1, h2⟩
    by_contra hc
    obtain ⟨k, ⟨hk, a, ha, hch⟩, -⟩ := g.parent x (by omega)
    have := h2 k a hk ha hch
    have : k < nodes.length := by rw [List.getElem?_eq_some_iff] at ha; exact ha.1
    rw [g.len] at this; omega
  refine ⟨by simp, fun _ _ => le_rfl, fun x y hx hy _ => by rw [htop x hx, htop y hy], ?_, ?_⟩
  · intro c hc
    refine ⟨2 * n - 2, ⟨by omega, fun k a hk ha hch => ?_⟩, by omega⟩
    have := Par.lt g (⟨hk, a, ha, hch⟩ : Par n nodes (2 * n - 2) k); omega
  · intro x t hx ht i hi
    rw [List.getElem?_replicate, if_pos (IsDendrogram.leaf_lt ht i hi)]

theorem group_spec {n : Nat} {nodes : List (Node K)} (g : IsDendrogram n nodes) (hn : 1 ≤ n) {k : Nat} (hk : 1 ≤ k) (hkn : k ≤ n) :
    ∃ map, group nodes n k = .ok map ∧ map.length = k ∧ IsGrouping n nodes (2 * n - k) map := by
  unfold group
  by_cases h1 : k = n
  · subst h1
    rw [if_pos rfl]
    refine ⟨_, rfl, by simp, ?_⟩
    have hfl : ((List.range k).map (fun i => [i])).flatten = List.range k := by
      induction (List.range k) with
      | nil => rfl
      | cons a l ih => rw [List.map_cons, List.flatten_cons, ih]; rfl
    refine ⟨by rw [hfl], ?_, ?_, ?_⟩
    · intro s hs; obtain ⟨i, -, rfl⟩ := List.mem_map.1 hs; simp
    · intro s hs; obtain ⟨i, -, rfl⟩ := List.mem_map.1 hs; simp
    · intro s hs
      obtain ⟨i, hi, rfl⟩ := List.mem_map.1 hs
      rw [List.mem_range] at hi
      exact ⟨i, .leaf i, ⟨by omega, fun q a hq _ _ => by omega⟩, .point i hi, by simp [Tree.leaves]⟩
  · simp only
    rw [if_neg h1]
    by_cases h2 : k = 1
    · subst h2
      rw [if_pos rfl]
      refine ⟨_, rfl, rfl, ?_⟩
      obtain ⟨t, ht, hp⟩ := g.root
      refine ⟨by simp, ?_, ?_, ?_⟩
      · intro s hs; simp at hs; rw [hs]; simp; omega
      · intro s hs; simp at hs; rw [hs]; exact List.pairwise_lt_range
      · intro s hs
        simp at hs; rw [hs]
        refine ⟨2 * n - 2, t, ⟨by omega, fun q a hq ha hc => ?_⟩, ht, hp.symm⟩
        have := Par.lt g (⟨hq, a, ha, hc⟩ : Par n nodes (2 * n - 2) q); omega
    · rw [if_neg h2]
      obtain ⟨l, lab, e, h⟩ := splitLoop_spec g (k := k) (by omega) (n - 1) 0 (List.replicate n 0) [] (fun _ => 0)
        (by rw [show n + (n - 1) = 2 * n - 1 by omega]; exact label_start g hn) (by omega) (by omega) (by omega)
      rw [show min n k = k by omega] at e h
      rw [e, Outcome.ok_bind, fillMap_spec n l k k le_rfl]
      refine ⟨_, rfl, by simp, ?_⟩
      have := members_grouping g h (by omega) (by omega)
      rw [show k - 1 + 1 = k by omega] at this
      simpa using this

/-- More groups than points. -/
theorem group_more {n : Nat} {nodes : List (Node K)} (g : IsDendrogram n nodes) (hn : 2 ≤ n) {k : Nat} (hkn : n < k) :
    ∃ map, group nodes n k = .ok (map ++ List.replicate (k - n) []) ∧ map.length = n ∧ IsGrouping n nodes n map := by
  unfold group
  rw [if_neg (by omega), if_neg (by omega)]
  obtain ⟨l, lab, e, h⟩ := splitLoop_spec g (k := k) (by omega) (n - 1) 0 (List.replicate n 0) [] (fun _ => 0)
    (by rw [show n + (n - 1) = 2 * n - 1 by omega]; exact label_start g (by omega)) (by omega) (by omega) (by omega)
  rw [show min n k = n by omega] at e h
  rw [e, Outcome.ok_bind, fillMap_spec n l k n (by omega)]
  refine ⟨_, rfl, by simp, ?_⟩
  have := members_grouping g h (by omega) (by omega)
  rw [show n - 1 + 1 = n by omega, show 2 * n - n = n by omega] at this
  exact this

end
end Cl
end LDT
