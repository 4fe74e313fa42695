import Verif.Lemmas.ClusterLink
import Mathlib.Logic.Relation
/-!
# Heights of a dendrogram, and why the chain algorithm agrees with the greedy one
-/
namespace LDT
namespace Cl
open Mx

section
variable {K : Type} [Field K] [LinearOrder K] [IsStrictOrderedRing K]

/-- What is known of the heights. -/
structure LinkInv (link : Linkage) (n : Nat) (d : Nat → Nat → K) (nodes : List (Node K)) (dist : SymMat K) : Prop where
  tree : TreeInv n nodes
  value : ∀ x y s t, Act nodes x → Act nodes y → x ≠ y → TreeOf n nodes x s → TreeOf n nodes y t →
    LinkValue link d s t (D nodes dist x y)
  height : ∀ (k : Nat) a s t, n ≤ k → nodes[k]? = some a → TreeOf n nodes a.idLeft s → TreeOf n nodes a.idRight t →
    LinkValue link d s t a.height
  above : ∀ (x : Nat) a y, n ≤ x → nodes[x]? = some a → Act nodes x → Act nodes y → y ≠ x → a.height ≤ D nodes dist x y
  mono : ∀ (k : Nat) a x b, n ≤ k → nodes[k]? = some a → (a.idLeft = x ∨ a.idRight = x) → n ≤ x → nodes[x]? = some b →
    b.height ≤ a.height
  near : ∀ (k : Nat) a y, n ≤ k → nodes[k]? = some a → y < k →
    (∀ (j : Nat) b, n ≤ j → j ≤ k → nodes[j]? = some b → b.idLeft ≠ y ∧ b.idRight ≠ y) →
    ∀ c s t, (a.idLeft = c ∨ a.idRight = c) → TreeOf n nodes c s → TreeOf n nodes y t →
      ∃ v, LinkValue link d s t v ∧ a.height ≤ v

theorem link_merged {link : Linkage} {n : Nat} {d : Nat → Nat → K} (hd : ∀ i j, d i j = d j i)
    {nodes nodes' : List (Node K)} {dist dist' : SymMat K}
    (pos : ∀ k, Act nodes k → 1 ≤ sz nodes k) (mo : MergeOf link n nodes dist nodes' dist') (i : LinkInv link n d nodes dist) :
    LinkInv link n d nodes' dist' := by
  obtain ⟨l, r, hl, hr, hne, nlr, nrl, m⟩ := mo
  obtain ⟨ti, hnew⟩ := tree_merged m hl hr hne i.tree
  obtain ⟨ln, el, -⟩ := id hl
  obtain ⟨rn, er, -⟩ := id hr
  obtain ⟨tl, t1, t2, t3, t4⟩ := i.tree.tree l ln el
  obtain ⟨tr, r1, r2, r3, r4⟩ := i.tree.tree r rn er
  have hl' := hl.lt_len
  have hr' := hr.lt_len
  have htree : ∀ (x : Nat) s, x < nodes.length → TreeOf n nodes' x s → TreeOf n nodes x s := by
    intro x s hx hs
    obtain ⟨a, ha⟩ : ∃ a, nodes[x]? = some a := ⟨_, List.getElem?_eq_getElem hx⟩
    obtain ⟨t, ht, -⟩ := i.tree.tree x a ha
    rw [hs.det t (ht.keep m)]; exact ht
  have hroot : ∀ t, TreeOf n nodes' nodes.length t → t = .node tl tr := fun t ht => ht.det _ (hnew tl tr t1 r1)
  have hsz : ∀ x s, Act nodes x → TreeOf n nodes x s → sz nodes x = s.size := by
    intro x s hx hs
    obtain ⟨a, ha, -⟩ := hx
    obtain ⟨t, ht, -, h2, -⟩ := i.tree.tree x a ha
    rw [hs.det t ht]; simp [sz, ha, h2]
  -- the distance to the new node
  have hlink : ∀ y s, Act nodes y → y ≠ l → y ≠ r → TreeOf n nodes y s →
      LinkValue link d (.node tl tr) s (D nodes' dist' y nodes.length) := by
    intro y s hy yl yr hs
    rw [m.link y hy yl yr, hsz l tl hl t1, hsz r tr hr r1, hsz y s hy hs]
    exact LinkValue.merge hd (i.value l y tl s hl hy (Ne.symm yl) t1 hs) (i.value r y tr s hr hy (Ne.symm yr) r1 hs)
      (i.value l r tl tr hl hr hne t1 r1)
  have hge : ∀ y, Act nodes y → y ≠ l → y ≠ r → min (D nodes dist l y) (D nodes dist r y) ≤ D nodes' dist' y nodes.length := by
    intro y hy yl yr
    rw [m.link y hy yl yr]
    exact calcDist_ge link _ _ _ (pos l hl) (pos r hr) _ _ _ (nlr.le hy yl) (by rw [D_comm nodes dist l r]; exact nrl.le hy yr)
  refine ⟨ti, ?_, ?_, ?_, ?_, ?_⟩
  · intro x y s t hx hy hxy hs ht
    rcases (m.act x).1 hx with ⟨hx, x1, x2⟩ | hx <;> rcases (m.act y).1 hy with ⟨hy, y1, y2⟩ | hy
    · rw [m.keep x y hx hy x1 x2 y1 y2 hxy]
      exact i.value x y s t hx hy hxy (htree _ _ hx.lt_len hs) (htree _ _ hy.lt_len ht)
    · subst hy
      rw [hroot t ht]
      exact (hlink x s hx x1 x2 (htree _ _ hx.lt_len hs)).symm hd
    · subst hx
      rw [hroot s hs, D_comm]
      exact hlink y t hy y1 y2 (htree _ _ hy.lt_len ht)
    · exact absurd (hx.trans hy.symm) hxy
  · intro k b s t hk hb hs ht
    rcases merged_back m hb with ⟨a, ha, -, h2, h3, -, h5⟩ | ⟨hc, -, h2, h3, -, h5⟩
    · obtain ⟨c1, c2, -⟩ := i.tree.children k a hk ha
      have hxl : k < nodes.length := by rw [List.getElem?_eq_some_iff] at ha; exact ha.1
      rw [h2] at hs; rw [h3] at ht; rw [h5]
      exact i.height k a s t hk ha (htree _ _ (by omega) hs) (htree _ _ (by omega) ht)
    · rw [h2] at hs; rw [h3] at ht; rw [h5]
      exact i.value l r s t hl hr hne (htree _ _ hl' hs) (htree _ _ hr' ht)
  · intro x b y hx hb hxa hya hxy
    rcases merged_back m hb with ⟨a, ha, -, -, -, -, h5⟩ | ⟨hc, -, -, -, -, h5⟩
    · have hxl : x < nodes.length := by rw [List.getElem?_eq_some_iff] at ha; exact ha.1
      rw [h5]
      rcases (m.act x).1 hxa with ⟨hxa, x1, x2⟩ | hxa
      · rcases (m.act y).1 hya with ⟨hya, y1, y2⟩ | hya
        · rw [m.keep x y hxa hya x1 x2 y1 y2 (Ne.symm hxy)]
          exact i.above x a y hx ha hxa hya hxy
        · subst hya
          refine le_trans (le_min ?_ ?_) (hge x hxa x1 x2)
          · rw [D_comm]; exact i.above x a l hx ha hxa hl (Ne.symm x1)
          · rw [D_comm]; exact i.above x a r hx ha hxa hr (Ne.symm x2)
      · omega
    · subst hc
      rw [h5]
      rcases (m.act y).1 hya with ⟨hya, y1, y2⟩ | hya
      · rw [D_comm nodes' dist']
        refine le_trans (le_min ?_ ?_) (hge y hya y1 y2)
        · exact nlr.le hya y1
        · rw [D_comm nodes dist l r]; exact nrl.le hya y2
      · exact absurd hya hxy
  · intro k b x c hk hb hch hx hc
    rcases merged_back m hb with ⟨a, ha, -, h2, h3, -, h5⟩ | ⟨hkn, -, h2, h3, -, h5⟩
    · have hkl : k < nodes.length := by rw [List.getElem?_eq_some_iff] at ha; exact ha.1
      obtain ⟨c1, c2, -⟩ := i.tree.children k a hk ha
      have hxk : x < k := by rcases hch with h | h <;> omega
      rcases merged_back m hc with ⟨c', hc', -, -, -, -, k5⟩ | ⟨hkn, -⟩
      · rw [h5, k5]
        exact i.mono k a x c' hk ha (by rw [← h2, ← h3]; exact hch) hx hc'
      · omega
    · rw [h5]
      rw [h2, h3] at hch
      rcases merged_back m hc with ⟨c', hc', -, -, -, -, k5⟩ | ⟨hkn', -⟩
      · rw [k5]
        rcases hch with h | h
        · subst h; exact i.above l c' r hx hc' hl hr (Ne.symm hne)
        · subst h; rw [D_comm]; exact i.above r c' l hx hc' hr hl hne
      · rcases hch with h | h <;> omega
  · intro k b y hk hb hy hpar c s t hcs hs ht
    rcases merged_back m hb with ⟨a, ha, -, h2, h3, -, h5⟩ | ⟨hkn, -, h2, h3, -, h5⟩
    · have hkl : k < nodes.length := by rw [List.getElem?_eq_some_iff] at ha; exact ha.1
      obtain ⟨c1, c2, -⟩ := i.tree.children k a hk ha
      rw [h2, h3] at hcs
      rw [h5]
      refine i.near k a y hk ha hy ?_ c s t hcs (htree _ _ (by rcases hcs with h | h <;> omega) hs) (htree _ _ (by omega) ht)
      intro j e hj hjk he
      obtain ⟨e', he', -, e2, e3, -⟩ := merged_fields m he
      have := hpar j e' hj hjk he'
      rw [e2, e3] at this; exact this
    · subst hkn
      rw [h2, h3] at hcs
      rw [h5]
      have hyact : Act nodes y := by
        by_contra hc
        obtain ⟨j, ⟨hj, e, he, hce⟩, -⟩ := i.tree.parent y hy hc
        obtain ⟨e', he', -, e2, e3, -⟩ := merged_fields m he
        have hjl : j < nodes.length := by rw [List.getElem?_eq_some_iff] at he; exact he.1
        obtain ⟨p1, p2⟩ := hpar j e' hj hjl.le he'
        rw [e2] at p1; rw [e3] at p2
        rcases hce with h | h
        · exact p1 h
        · exact p2 h
      obtain ⟨p1, p2⟩ := hpar _ b hk le_rfl hb
      rw [h2] at p1; rw [h3] at p2
      rcases hcs with h | h
      · subst h
        exact ⟨_, i.value l y s t hl hyact p1 (htree _ _ hl' hs) (htree _ _ hy ht), nlr.le hyact (Ne.symm p1)⟩
      · subst h
        refine ⟨_, i.value r y s t hr hyact p2 (htree _ _ hr' hs) (htree _ _ hy ht), ?_⟩
        rw [D_comm nodes dist l r]; exact nrl.le hyact (Ne.symm p2)

theorem pointDist_self (d : SymMat (Arr.Val K)) (i : Nat) : pointDist d i i = 0 := by
  unfold pointDist SymMat.get
  split
  · next v h =>
    split at h
    · cases h
    · rw [show symIndex false d.rows i i = none from by simp [symIndex]] at h
      cases h
  · rfl

theorem init_link (link : Linkage) {n : Nat} {d : SymMat (Arr.Val K)} (h : IsDist n d) :
    LinkInv link n (pointDist d) (initNodes n) (plain d) := by
  have key : ∀ (x : Nat) a, (initNodes n : List (Node K))[x]? = some a → x < n := by
    intro x a ha
    rw [List.getElem?_eq_some_iff] at ha
    have := ha.1; rwa [init_len] at this
  refine ⟨init_tree n, ?_, ?_, ?_, ?_, ?_⟩
  · intro x y s t hx hy hxy hs ht
    rw [init_act] at hx hy
    rw [hs.det _ (.point x hx), ht.det _ (.point y hy)]
    unfold D
    rw [init_di hx, init_di hy, plain_sval h hx hy]
    exact LinkValue.points link (pointDist_comm d) (pointDist_self d) x y
  · intro k a s t hk ha; have := key k a ha; omega
  · intro k a y hk ha; have := key k a ha; omega
  · intro k a x b hk ha; have := key k a ha; omega
  · intro k a y hk ha; have := key k a ha; omega

/-! ## The cut at a level -/

/-- `k` is the parent of `x`. -/
def Par (n : Nat) (nodes : List (Node K)) (x k : Nat) : Prop :=
  n ≤ k ∧ ∃ a, nodes[k]? = some a ∧ (a.idLeft = x ∨ a.idRight = x)

theorem Par.lt {n : Nat} {nodes : List (Node K)} (g : IsDendrogram n nodes) {x k : Nat} (h : Par n nodes x k) :
    x < k ∧ k < 2 * n - 1 := by
  obtain ⟨hk, a, ha, hc⟩ := h
  obtain ⟨c1, c2, -⟩ := g.children k a hk ha
  have : k < nodes.length := by rw [List.getElem?_eq_some_iff] at ha; exact ha.1
  rw [g.len] at this
  rcases hc with h | h <;> omega

theorem Par.unique {n : Nat} {nodes : List (Node K)} (g : IsDendrogram n nodes) {x k k' : Nat} (h : Par n nodes x k)
    (h' : Par n nodes x k') : k = k' := by
  have := h.lt g
  exact (g.parent x (by omega)).unique h h'

theorem TreeOf.path {n : Nat} {nodes : List (Node K)} {x : Nat} {t : Tree} (h : TreeOf n nodes x t) :
    ∀ i ∈ t.leaves, Relation.ReflTransGen (Par n nodes) i x := by
  induction h with
  | point x hx => intro i hi; simp [Tree.leaves] at hi; rw [hi]
  | merge x a l r hn ha _ _ ihl ihr =>
    intro i hi
    rcases List.mem_append.1 hi with h | h
    · exact (ihl i h).tail ⟨hn, a, ha, Or.inl rfl⟩
    · exact (ihr i h).tail ⟨hn, a, ha, Or.inr rfl⟩

/-- Above a node that is alive at `h` there is nothing alive at `h`. -/
theorem alive_above {n : Nat} {nodes : List (Node K)} (g : IsDendrogram n nodes)
    (mono : ∀ (k : Nat) a x b, n ≤ k → nodes[k]? = some a → (a.idLeft = x ∨ a.idRight = x) → n ≤ x → nodes[x]? = some b →
      b.height ≤ a.height) {h : K} {x y : Nat} (hx : AliveAt n nodes h x) (hp : Relation.ReflTransGen (Par n nodes) x y)
    (hxy : x ≠ y) : ∃ b, n ≤ y ∧ nodes[y]? = some b ∧ h < b.height := by
  induction hp with
  | refl => exact absurd rfl hxy
  | @tail y z hp hz ih =>
    obtain ⟨hzn, b, hb, hc⟩ := hz
    by_cases e : x = y
    · subst e
      exact ⟨b, hzn, hb, hx.2 z b hzn hb hc⟩
    · obtain ⟨a, hyn, ha, hh⟩ := ih e
      exact ⟨b, hzn, hb, lt_of_lt_of_le hh (mono z b y a hzn hb hc hyn ha)⟩

theorem alive_disjoint {n : Nat} {nodes : List (Node K)} (g : IsDendrogram n nodes)
    (mono : ∀ (k : Nat) a x b, n ≤ k → nodes[k]? = some a → (a.idLeft = x ∨ a.idRight = x) → n ≤ x → nodes[x]? = some b →
      b.height ≤ a.height) {h : K} {x y : Nat} (hx : AliveAt n nodes h x) (hy : AliveAt n nodes h y) (hxy : x ≠ y)
    {s t : Tree} (hs : TreeOf n nodes x s) (ht : TreeOf n nodes y t) : ∀ i ∈ s.leaves, i ∉ t.leaves := by
  intro i hi hj
  have hno : ∀ x y, AliveAt n nodes h x → AliveAt n nodes h y → x ≠ y → ¬ Relation.ReflTransGen (Par n nodes) x y := by
    intro x y hx hy hxy hp
    obtain ⟨b, hyn, hb, hh⟩ := alive_above g mono hx hp hxy
    obtain ⟨⟨b', hb', hle⟩, -⟩ := hy
    rw [hb] at hb'; cases hb'
    exact absurd (hle hyn) (not_le.2 hh)
  have hu : Relator.RightUnique (Par n nodes) := fun a b c h1 h2 => Par.unique g h1 h2
  rcases Relation.ReflTransGen.total_of_right_unique hu (hs.path i hi) (ht.path i hj) with hp | hp
  · exact hno x y hx hy hxy hp
  · exact hno y x hy hx (Ne.symm hxy) hp

/-- A cluster that is merged later stays away. -/
theorem far {link : Linkage} {n : Nat} {d : Nat → Nat → K} (hd : ∀ i j, d i j = d j i) {nodes : List (Node K)} {dist : SymMat K}
    (g : IsDendrogram n nodes) (i : LinkInv link n d nodes dist) {x kx : Nat} {a : Node K} (hk : n ≤ kx)
    (ha : nodes[kx]? = some a) (hc : a.idLeft = x ∨ a.idRight = x) {s : Tree} (hs : TreeOf n nodes x s) :
    ∀ (y : Nat) t, TreeOf n nodes y t → (∀ ky, Par n nodes y ky → kx < ky) → y < 2 * n - 1 →
      (∀ j ∈ s.leaves, j ∉ t.leaves) → (∀ b, n ≤ y → nodes[y]? = some b → b.height ≤ a.height) →
      ∃ v, LinkValue link d s t v ∧ a.height ≤ v := by
  have hpx : Par n nodes x kx := ⟨hk, a, ha, hc⟩
  intro y t ht
  induction ht with
  | point y hy =>
    intro hpar hyl hdis hh
    exact i.near kx a y hk ha (by omega) (fun j b hj hjk hb => by
      constructor <;> intro e
      · have := hpar j ⟨hj, b, hb, Or.inl e⟩; omega
      · have := hpar j ⟨hj, b, hb, Or.inr e⟩; omega) x s _ hc hs (.point y hy)
  | merge y b t1 t2 hn hb h1 h2 ih1 ih2 =>
    intro hpar hyl hdis hh
    have ht : TreeOf n nodes y (.node t1 t2) := .merge y b t1 t2 hn hb h1 h2
    by_cases hlt : y < kx
    · exact i.near kx a y hk ha hlt (fun j b hj hjk hb => by
        constructor <;> intro e
        · have := hpar j ⟨hj, b, hb, Or.inl e⟩; omega
        · have := hpar j ⟨hj, b, hb, Or.inr e⟩; omega) x s _ hc hs ht
    · have hne : kx ≠ y := by
        intro e
        subst e
        rw [hb] at ha; cases ha
        obtain ⟨j, hj⟩ := s.exists_leaf
        apply hdis j hj
        rcases hc with h | h
        · rw [h] at h1; rw [hs.det _ h1] at hj; exact List.mem_append_left _ hj
        · rw [h] at h2; rw [hs.det _ h2] at hj; exact List.mem_append_right _ hj
      have hyh := hh b hn hb
      have hcl := g.children y b hn hb
      obtain ⟨v1, k1, k2⟩ := ih1 (fun ky hp => by
        have := Par.unique g hp ⟨hn, b, hb, Or.inl rfl⟩; omega) (by omega)
        (fun j hj hm => hdis j hj (List.mem_append_left _ hm))
        (fun c hc1 hc2 => (i.mono y b _ c hn hb (Or.inl rfl) hc1 hc2).trans hyh)
      obtain ⟨v2, m1, m2⟩ := ih2 (fun ky hp => by
        have := Par.unique g hp ⟨hn, b, hb, Or.inr rfl⟩; omega) (by omega)
        (fun j hj hm => hdis j hj (List.mem_append_right _ hm))
        (fun c hc1 hc2 => (i.mono y b _ c hn hb (Or.inr rfl) hc1 hc2).trans hyh)
      refine ⟨_, (LinkValue.merge hd (k1.symm hd) (m1.symm hd) (i.height y b t1 t2 hn hb h1 h2)).symm hd, ?_⟩
      exact (le_min k2 m2).trans (calcDist_ge link _ _ _ t1.size_pos t2.size_pos _ _ _ (hyh.trans k2) (hyh.trans m2))

theorem cut {link : Linkage} {n : Nat} {d : Nat → Nat → K} (hd : ∀ i j, d i j = d j i) {nodes : List (Node K)}
    {dist : SymMat K} (g : IsDendrogram n nodes) (i : LinkInv link n d nodes dist) {h : K} {x y : Nat}
    (hx : AliveAt n nodes h x) (hy : AliveAt n nodes h y) (hxy : x ≠ y) {s t : Tree} (hs : TreeOf n nodes x s)
    (ht : TreeOf n nodes y t) : ∃ v, LinkValue link d s t v ∧ h < v := by
  have hdis := alive_disjoint g i.mono hx hy hxy hs ht
  have hdis' := alive_disjoint g i.mono hy hx (Ne.symm hxy) ht hs
  have hleaf : ∀ (z : Nat) u, z < 2 * n - 1 → TreeOf n nodes z u → ∀ j ∈ u.leaves, j < n := by
    intro z u hz hu j hj
    obtain ⟨c, hc⟩ : ∃ c, nodes[z]? = some c := ⟨_, List.getElem?_eq_getElem (by rw [g.len]; exact hz)⟩
    obtain ⟨u', h1, -, -, h4⟩ := i.tree.tree z c hc
    rw [hu.det u' h1] at hj; exact h4 j hj
  have hlen : ∀ z, AliveAt n nodes h z → z < 2 * n - 1 := by
    rintro z ⟨⟨c, hc, -⟩, -⟩
    rw [List.getElem?_eq_some_iff] at hc
    have := hc.1; rwa [g.len] at this
  obtain ⟨rt, hr1, hr2⟩ := g.root
  have hnr : ∀ x y s t, AliveAt n nodes h x → AliveAt n nodes h y → TreeOf n nodes x s → TreeOf n nodes y t →
      (∀ j ∈ s.leaves, j ∉ t.leaves) → y < 2 * n - 2 := by
    intro x y s t hx hy hs ht hd
    by_contra hc
    have e : y = 2 * n - 2 := by have := hlen y hy; omega
    subst e
    obtain ⟨j, hj⟩ := s.exists_leaf
    apply hd j hj
    rw [ht.det _ hr1]
    exact hr2.mem_iff.2 (List.mem_range.2 (hleaf x s (hlen x hx) hs j hj))
  have hyr := hnr x y s t hx hy hs ht hdis
  have hxr := hnr y x t s hy hx ht hs hdis'
  obtain ⟨kx, ⟨hkx, a, ha, hca⟩, hux⟩ := g.parent x hxr
  obtain ⟨ky, ⟨hky, b, hb, hcb⟩, huy⟩ := g.parent y hyr
  have hax := hx.2 kx a hkx ha hca
  have hby := hy.2 ky b hky hb hcb
  rcases lt_trichotomy kx ky with hlt | heq | hgt
  · obtain ⟨v, h1, h2⟩ := far hd g i hkx ha hca hs y t ht (fun k hp => by rw [huy k hp]; exact hlt) (hlen y hy) hdis
      (fun c hc1 hc2 => by
        obtain ⟨⟨c', hc', hle⟩, -⟩ := hy
        rw [hc2] at hc'; cases hc'
        exact (hle hc1).trans hax.le)
    exact ⟨v, h1, hax.trans_le h2⟩
  · subst heq
    rw [ha] at hb; cases hb
    refine ⟨a.height, ?_, hax⟩
    rcases hca with e | e <;> rcases hcb with e' | e'
    · exact absurd (e.symm.trans e') hxy
    · subst e; subst e'; exact i.height kx a s t hkx ha hs ht
    · subst e; subst e'; exact (i.height kx a t s hkx ha ht hs).symm hd
    · exact absurd (e.symm.trans e') hxy
  · obtain ⟨v, h1, h2⟩ := far hd g i hky hb hcb ht x s hs (fun k hp => by rw [hux k hp]; exact hgt) (hlen x hx) hdis'
      (fun c hc1 hc2 => by
        obtain ⟨⟨c', hc', hle⟩, -⟩ := hx
        rw [hc2] at hc'; cases hc'
        exact (hle hc1).trans hby.le)
    exact ⟨v, h1.symm hd, hby.trans_le h2⟩

end
end Cl
end LDT
