import Verif.Lemmas.Cluster
import Mathlib.Tactic.Linarith
import Mathlib.Tactic.FieldSimp
import Mathlib.Tactic.Ring
import Mathlib.Data.Finset.Card
import Mathlib.Data.Finset.Range
/-!
# The nearest-neighbour chain of `HCluster::Calculate` never repeats, so the loop ends
-/
namespace LDT
namespace Cl
open Mx

section
variable {K : Type} [Field K] [LinearOrder K] [IsStrictOrderedRing K]

/-- All five linkages are reducible: merging two mutual neighbours brings nothing nearer. -/
theorem calcDist_ge (link : Linkage) (nl nr nn : Nat) (hl : 1 ≤ nl) (hr : 1 ≤ nr) (a b c : K) (ha : c ≤ a) (hb : c ≤ b) :
    min a b ≤ calcDist link nl nr nn a b c := by
  have pl : (0 : K) < nl := by exact_mod_cast hl
  have pr : (0 : K) < nr := by exact_mod_cast hr
  have pn : (0 : K) ≤ nn := by exact_mod_cast Nat.zero_le nn
  have ma := min_le_left a b
  have mb := min_le_right a b
  have mc : c ≤ min a b := le_min ha hb
  cases link with
  | single =>
    show min a b ≤ if a > b then b else a
    split
    · exact mb
    · exact ma
  | complete =>
    show min a b ≤ if a > b then a else b
    split
    · exact ma
    · exact mb
  | averageU =>
    show min a b ≤ (nl : K) / (nl + nr) * a + (1 - (nl : K) / (nl + nr)) * b
    have h0 : 0 ≤ (nl : K) / (nl + nr) := by positivity
    have h1 : (nl : K) / (nl + nr) ≤ 1 := by rw [div_le_one (by positivity)]; linarith
    nlinarith [mul_le_mul_of_nonneg_left ma h0, mul_le_mul_of_nonneg_left mb (sub_nonneg.2 h1)]
  | averageW =>
    show min a b ≤ (a + b) / 2
    linarith
  | ward =>
    show min a b ≤ ((nl + nn : Nat) : K) / ((nl + nr + nn : Nat) : K) * a + ((nr + nn : Nat) : K) / ((nl + nr + nn : Nat) : K) * b
      - (nn : K) / ((nl + nr + nn : Nat) : K) * c
    push_cast
    have hN : (0 : K) < nl + nr + nn := by positivity
    have e : ((nl : K) + nn) / (nl + nr + nn) * a + (nr + nn) / (nl + nr + nn) * b - nn / (nl + nr + nn) * c =
        ((nl + nn) * a + (nr + nn) * b - nn * c) / (nl + nr + nn) := by
      field_simp
    rw [e, le_div_iff₀ hN]
    nlinarith [mul_le_mul_of_nonneg_left ma (add_nonneg pl.le pn), mul_le_mul_of_nonneg_left mb (add_nonneg pr.le pn),
      mul_le_mul_of_nonneg_left mc pn]

/-! ## Chains -/

/-- Each element of the list is the nearest neighbour of the next one. -/
def Chain (nodes : List (Node K)) (dist : SymMat K) : List Nat → Prop
  | u :: v :: rest => IsNN nodes dist v u ∧ Chain nodes dist (v :: rest)
  | _ => True

/-- Along a chain the distance, or at equal distance the sum of the two ids, decreases. -/
def KeyLt (nodes : List (Node K)) (dist : SymMat K) (v u v' u' : Nat) : Prop :=
  D nodes dist v u < D nodes dist v' u' ∨ (D nodes dist v u = D nodes dist v' u' ∧ v + u < v' + u')

theorem KeyLt.trans {nodes : List (Node K)} {dist : SymMat K} {a b c d e f : Nat} (h : KeyLt nodes dist a b c d)
    (h' : KeyLt nodes dist c d e f) : KeyLt nodes dist a b e f := by
  rcases h with h | h <;> rcases h' with h' | h'
  · exact Or.inl (lt_trans h h')
  · exact Or.inl (by rw [← h'.1]; exact h)
  · exact Or.inl (by rw [h.1]; exact h')
  · exact Or.inr ⟨h.1.trans h'.1, by omega⟩

theorem KeyLt.irrefl {nodes : List (Node K)} {dist : SymMat K} {a b : Nat} : ¬ KeyLt nodes dist a b a b := by
  rintro (h | h)
  · exact lt_irrefl _ h
  · omega

theorem key_step {nodes : List (Node K)} {dist : SymMat K} {w v u : Nat} (hw : Act nodes w) (h1 : IsNN nodes dist w v)
    (h2 : IsNN nodes dist v u) (hne : u ≠ w) : KeyLt nodes dist v u w v := by
  unfold KeyLt
  rw [D_comm nodes dist w v]
  rcases h2.best w hw (Ne.symm h1.ne) with h | h
  · exact Or.inl h
  · exact Or.inr ⟨h.1, by omega⟩

theorem chain_key {nodes : List (Node K)} {dist : SymMat K} (rest : List Nat) : ∀ u v, Chain nodes dist (u :: v :: rest) →
    (u :: v :: rest).Nodup → (∀ y ∈ v :: rest, Act nodes y) → ∀ y ∈ rest, ∃ x ∈ v :: rest, IsNN nodes dist y x ∧
      KeyLt nodes dist v u y x := by
  induction rest with
  | nil => intro u v _ _ _ y hy; simp at hy
  | cons w rest ih =>
    intro u v hc hn ha y hy
    obtain ⟨h1, h2⟩ := hc
    have h3 : IsNN nodes dist w v := h2.1
    have huw : u ≠ w := by
      intro h; subst h
      simp at hn
    have k := key_step (ha w (by simp)) h3 h1 huw
    rcases List.mem_cons.1 hy with rfl | hy
    · exact ⟨v, by simp, h3, k⟩
    · obtain ⟨x, hx, n1, k1⟩ := ih v w h2 (List.nodup_cons.1 hn).2 (fun y hy => ha y (by simp [List.mem_cons.1 hy])) y hy
      exact ⟨x, List.mem_cons_of_mem _ hx, n1, k.trans k1⟩

/-- A chain never returns to itself, except by going straight back. -/
theorem no_return {nodes : List (Node K)} {dist : SymMat K} {p t q : Nat} {rest : List Nat}
    (hc : Chain nodes dist (p :: t :: rest)) (hn : (p :: t :: rest).Nodup) (ha : ∀ y ∈ t :: rest, Act nodes y)
    (hq : IsNN nodes dist p q) (hqt : q ≠ t) : q ∉ t :: rest := by
  intro hmem
  rcases List.mem_cons.1 hmem with h | hmem
  · exact hqt h
  obtain ⟨x, hx, h1, k1⟩ := chain_key rest p t hc hn ha q hmem
  have k2 := key_step (ha t (by simp)) hc.1 hq hqt
  have hxp : x ≠ p := by
    intro h; subst h
    exact (List.nodup_cons.1 hn).1 hx
  have k3 := key_step hc.1.act hq h1 hxp
  exact (k3.trans (k2.trans k1)).irrefl

/-- Merging two mutual neighbours keeps the other nearest-neighbour relations. -/
theorem nn_keep {link : Linkage} {n : Nat} {nodes nodes' : List (Node K)} {dist dist' : SymMat K} {l r : Nat}
    (m : Merged link n nodes dist l r (D nodes dist l r) nodes' dist') (hl : Act nodes l) (hr : Act nodes r)
    (pos : ∀ k, Act nodes k → 1 ≤ sz nodes k) (nlr : IsNN nodes dist l r)
    (nrl : IsNN nodes dist r l) {v u : Nat} (hv : Act nodes v) (vl : v ≠ l) (vr : v ≠ r) (h : IsNN nodes dist v u)
    (ul : u ≠ l) (ur : u ≠ r) : IsNN nodes' dist' v u := by
  have e := m.keep v u hv h.act vl vr ul ur (Ne.symm h.ne)
  refine ⟨(m.act u).2 (Or.inl ⟨h.act, ul, ur⟩), h.ne, fun w hw hwv => ?_⟩
  rcases (m.act w).1 hw with ⟨hw, wl, wr⟩ | hw
  · rw [e, m.keep v w hv hw vl vr wl wr (Ne.symm hwv)]
    exact h.best w hw hwv
  · subst hw
    rw [e, m.link v hv vl vr]
    have b := calcDist_ge link (sz nodes l) (sz nodes r) (sz nodes v) (pos l hl) (pos r hr) (D nodes dist l v)
      (D nodes dist r v) (D nodes dist l r) (nlr.le hv vl) (by rw [D_comm nodes dist l r]; exact nrl.le hv vr)
    have hle : D nodes dist v u ≤ min (D nodes dist l v) (D nodes dist r v) := by
      apply le_min
      · rw [D_comm nodes dist l v]; exact h.le hl (Ne.symm vl)
      · rw [D_comm nodes dist r v]; exact h.le hr (Ne.symm vr)
    rcases lt_or_eq_of_le (hle.trans b) with hlt | heq
    · exact Or.inl hlt
    · exact Or.inr ⟨heq, h.act.lt_len.le⟩

theorem chain_keep {link : Linkage} {n : Nat} {nodes nodes' : List (Node K)} {dist dist' : SymMat K} {l r : Nat}
    (m : Merged link n nodes dist l r (D nodes dist l r) nodes' dist') (hl : Act nodes l) (hr : Act nodes r)
    (pos : ∀ k, Act nodes k → 1 ≤ sz nodes k) (nlr : IsNN nodes dist l r)
    (nrl : IsNN nodes dist r l) (st : List Nat) (ha : ∀ y ∈ st, Act nodes y ∧ y ≠ l ∧ y ≠ r) (hc : Chain nodes dist st) :
    Chain nodes' dist' st := by
  induction st with
  | nil => trivial
  | cons u st ih =>
    cases st with
    | nil => trivial
    | cons v st =>
      have hu := ha u (by simp)
      have hv := ha v (by simp)
      exact ⟨nn_keep m hl hr pos nlr nrl hv.1 hv.2.1 hv.2.2 hc.1 hu.2.1 hu.2.2,
        ih (fun y hy => ha y (List.mem_cons_of_mem _ hy)) hc.2⟩

/-! ## The invariant of the loop -/

open Classical in
/-- The active nodes. -/
noncomputable def acts (nodes : List (Node K)) : Finset Nat := (Finset.range nodes.length).filter (Act nodes)

theorem mem_acts {nodes : List (Node K)} {k : Nat} : k ∈ acts nodes ↔ Act nodes k := by
  classical
  unfold acts
  rw [Finset.mem_filter, Finset.mem_range]
  exact ⟨fun h => h.2, fun h => ⟨h.lt_len, h⟩⟩

theorem acts_merged {link : Linkage} {n : Nat} {nodes nodes' : List (Node K)} {dist dist' : SymMat K} {l r : Nat} {h : K}
    (m : Merged link n nodes dist l r h nodes' dist') (hl : Act nodes l) (hr : Act nodes r) (hne : l ≠ r) :
    (acts nodes').card + 1 = (acts nodes).card := by
  classical
  have e : acts nodes' = insert nodes.length (((acts nodes).erase l).erase r) := by
    ext k
    rw [mem_acts, m.act, Finset.mem_insert, Finset.mem_erase, Finset.mem_erase, mem_acts]
    tauto
  rw [e, Finset.card_insert_of_notMem, Finset.card_erase_of_mem, Finset.card_erase_of_mem (mem_acts.2 hl)]
  · have : 1 < (acts nodes).card := Finset.one_lt_card.2 ⟨l, mem_acts.2 hl, r, mem_acts.2 hr, hne⟩
    omega
  · rw [Finset.mem_erase, mem_acts]; exact ⟨Ne.symm hne, hr⟩
  · intro hc
    rw [Finset.mem_erase, Finset.mem_erase, mem_acts] at hc
    have := hc.2.2.lt_len; omega

/-- The loop invariant of `Calculate`. -/
structure Inv (n : Nat) (s : St K) : Prop where
  wf : Wf n s.nodes s.dist
  len : s.ni = s.nodes.length
  pos : ∀ k, Act s.nodes k → 1 ≤ sz s.nodes k
  count : (acts s.nodes).card + s.ni = 2 * n
  stack : ∃ rest, s.stack = s.top :: rest
  act : ∀ x ∈ s.stack, Act s.nodes x
  nodup : s.stack.Nodup
  near : (s.near = none ∧ ∀ v, Act s.nodes v → v = s.top) ∨
    ∃ p, s.near = some (p, D s.nodes s.dist s.top p) ∧ p ∉ s.stack ∧ Chain s.nodes s.dist (p :: s.stack)

theorem Inv.ni_lt {n : Nat} {s : St K} (i : Inv n s) : s.ni + 1 ≤ 2 * n := by
  have := i.count
  have hp : 0 < (acts s.nodes).card := by
    obtain ⟨rest, h⟩ := i.stack
    exact Finset.card_pos.2 ⟨s.top, mem_acts.2 (i.act _ (by rw [h]; simp))⟩
  omega

theorem Inv.stack_le {n : Nat} {s : St K} (i : Inv n s) : s.stack.length + s.ni ≤ 2 * n := by
  have h : s.stack.toFinset ⊆ acts s.nodes := by
    intro x hx
    rw [List.mem_toFinset] at hx
    exact mem_acts.2 (i.act x hx)
  have := Finset.card_le_card h
  rw [List.toFinset_card_of_nodup i.nodup] at this
  have := i.count
  omega

/-- One merge of two mutual nearest neighbours. -/
def MergeOf (link : Linkage) (n : Nat) (nodes : List (Node K)) (dist : SymMat K) (nodes' : List (Node K))
    (dist' : SymMat K) : Prop :=
  ∃ l r, Act nodes l ∧ Act nodes r ∧ l ≠ r ∧ IsNN nodes dist l r ∧ IsNN nodes dist r l ∧
    Merged link n nodes dist l r (D nodes dist l r) nodes' dist'

/-- What is left to do. -/
def todo (n : Nat) (s : St K) : Nat := 3 * (2 * n - 1 - s.ni) + 1 - s.stack.length

theorem sz_merged {link : Linkage} {n : Nat} {nodes nodes' : List (Node K)} {dist dist' : SymMat K} {l r : Nat} {h : K}
    (m : Merged link n nodes dist l r h nodes' dist') :
    (∀ k, k < nodes.length → sz nodes' k = sz nodes k) ∧ sz nodes' nodes.length = sz nodes l + sz nodes r := by
  constructor
  · intro k hk
    unfold sz
    rw [m.old k hk]
    cases nodes[k]? with
    | none => rfl
    | some a => by_cases hc : k = l ∨ k = r <;> simp [hc]
  · obtain ⟨a, ha, -, -, -, hs, -⟩ := m.new
    simp [sz, ha] at hs ⊢
    exact hs

theorem nearest_inv {n : Nat} {nodes : List (Node K)} {dist : SymMat K} (w : Wf n nodes dist) {x : Nat}
    (hx : Act nodes x) : ∃ near, nearest nodes dist x = .ok near ∧
      ((near = none ∧ ∀ v, Act nodes v → v = x) ∨
        ∃ p, near = some (p, D nodes dist x p) ∧ p ∉ [x] ∧ Chain nodes dist (p :: [x])) := by
  rcases nearest_spec w hx with ⟨h1, h2⟩ | ⟨p, h1, h2⟩
  · exact ⟨none, h2, Or.inl ⟨rfl, h1⟩⟩
  · exact ⟨_, h1, Or.inr ⟨p, rfl, by simpa using h2.ne, h2, trivial⟩⟩

theorem step_spec (link : Linkage) {n : Nat} {s : St K} (i : Inv n s) (hni : s.ni ≠ 2 * n - 1) :
    ∃ s', step link s = .ok s' ∧ Inv n s' ∧ todo n s' < todo n s ∧
      ((s'.nodes = s.nodes ∧ s'.dist = s.dist) ∨ MergeOf link n s.nodes s.dist s'.nodes s'.dist) := by
  have hlt : s.ni + 2 ≤ 2 * n := by have := i.ni_lt; omega
  have htwo : 1 < (acts s.nodes).card := by have := i.count; omega
  obtain ⟨rest, hst⟩ := i.stack
  have htop : Act s.nodes s.top := i.act _ (by rw [hst]; simp)
  rcases i.near with ⟨hn, hall⟩ | ⟨p, hn, hp, hc⟩
  · exfalso
    obtain ⟨a, ha, b, hb, hab⟩ := Finset.one_lt_card.1 htwo
    rw [mem_acts] at ha hb
    exact hab ((hall a ha).trans (hall b hb).symm)
  have hc0 := hc
  rw [hst] at hc
  have hnn : IsNN s.nodes s.dist s.top p := hc.1
  rcases nearest_spec i.wf hnn.act with ⟨h1, -⟩ | ⟨q, eq, hq⟩
  · exact absurd (h1 _ htop).symm hnn.ne
  obtain ⟨qn, eqn, -⟩ := id hq.act
  obtain ⟨tn, etn, -⟩ := id htop
  obtain ⟨pn, epn, -⟩ := id hnn.act
  have hstep : step link s = (if qn.id = tn.id then
        match s.stack with
        | [] => .ub
        | _ :: st => do
          let r ← merge2 link s.nodes s.dist s.ni s.top p (D s.nodes s.dist s.top p)
          afterMerge r.1 r.2 (s.ni + 1) st
      else do
        let pn ← atV s.nodes p
        pure { s with stack := pn.id :: s.stack, top := p, near := some (q, D s.nodes s.dist p q) }) := by
    unfold step
    rw [hn]
    simp only [eq, Outcome.ok_bind, atV_ok eqn, atV_ok etn]
    by_cases hh : qn.id = tn.id
    · rw [if_pos hh, if_pos hh, hst]
    · rw [if_neg hh, if_neg hh]
  rw [hstep, i.wf.ids _ _ eqn, i.wf.ids _ _ etn]
  by_cases hqt : q = s.top
  · -- a merge
    rw [if_pos hqt, hst, i.len]
    subst hqt
    have hpt : s.top ≠ p := Ne.symm hnn.ne
    obtain ⟨nodes', dist', e, m⟩ := merge2_spec i.wf link htop hnn.act hpt (D s.nodes s.dist s.top p)
    simp only [e, Outcome.ok_bind]
    have hmo : MergeOf link n s.nodes s.dist nodes' dist' := ⟨_, _, htop, hnn.act, hpt, hnn, hq, m⟩
    have hcard := acts_merged m htop hnn.act hpt
    have hsz := sz_merged m
    have pos' : ∀ k, Act nodes' k → 1 ≤ sz nodes' k := by
      intro k hk
      rcases (m.act k).1 hk with ⟨hk, -⟩ | hk
      · rw [hsz.1 k hk.lt_len]; exact i.pos k hk
      · rw [hk, hsz.2]; have := i.pos _ htop; omega
    have hcount : (acts nodes').card + (s.nodes.length + 1) = 2 * n := by
      have := i.count; rw [i.len] at this; omega
    have hrest : ∀ y ∈ rest, Act s.nodes y ∧ y ≠ s.top ∧ y ≠ p := by
      intro y hy
      refine ⟨i.act y (by rw [hst]; simp [hy]), ?_, ?_⟩
      · rintro rfl
        have := i.nodup; rw [hst] at this; simp [hy] at this
      · rintro rfl
        exact hp (by rw [hst]; simp [hy])
    have hrest' : ∀ y ∈ rest, Act nodes' y := fun y hy => (m.act y).2 (Or.inl (hrest y hy))
    have hchain : Chain nodes' dist' rest := by
      apply chain_keep m htop hnn.act i.pos hnn hq rest hrest
      have := hc.2
      cases rest with
      | nil => trivial
      | cons a rest => exact this.2
    have hnd : rest.Nodup := by have := i.nodup; rw [hst] at this; exact (List.nodup_cons.1 this).2
    have hlen' := m.len
    have hslen : s.stack.length = rest.length + 1 := by rw [hst]; simp
    have hle := i.stack_le
    have hltn := i.len
    match rest, hrest, hrest', hchain, hnd, hslen with
    | [], _, _, _, _, hslen =>
      have hagg : Act nodes' s.nodes.length := (m.act _).2 (Or.inr rfl)
      obtain ⟨an, ean, hid, -⟩ := m.new
      obtain ⟨near, e1, e2⟩ := nearest_inv m.wf hagg
      refine ⟨{ nodes := nodes', dist := dist', ni := s.nodes.length + 1, top := s.nodes.length, near := near, stack := [s.nodes.length] },
        ?_, ⟨m.wf, hlen'.symm, pos', hcount, ⟨[], rfl⟩, ?_, by simp, e2⟩, ?_, Or.inr hmo⟩
      · simp only [afterMerge, hlen', Nat.add_sub_cancel, atV_ok ean, Outcome.ok_bind, e1, hid, Outcome.pure_eq]
      · intro x hx; simp at hx; rw [hx]; exact hagg
      · unfold todo; simp only [List.length_nil, List.length_cons] at hslen ⊢; omega
    | [x], hr, hr', _, _, hslen =>
      obtain ⟨near, e1, e2⟩ := nearest_inv m.wf (hr' x (by simp))
      refine ⟨{ nodes := nodes', dist := dist', ni := s.nodes.length + 1, top := x, near := near, stack := [x] },
        ?_, ⟨m.wf, hlen'.symm, pos', hcount, ⟨[], rfl⟩, ?_, by simp, e2⟩, ?_, Or.inr hmo⟩
      · simp only [afterMerge, e1, Outcome.ok_bind, Outcome.pure_eq]
      · intro y hy; simp at hy; rw [hy]; exact hr' x (by simp)
      · unfold todo; simp only [List.length_nil, List.length_cons] at hslen ⊢; omega
    | x :: v :: rest, hr, hr', hch, hnd, hslen =>
      have hx := hr' x (by simp)
      have hv := hr' v (by simp)
      obtain ⟨xn, exn, -⟩ := id hx
      obtain ⟨vn, evn, -⟩ := id hv
      have hxv : x ≠ v := by rintro rfl; simp at hnd
      have hg := symGet0_ok m.wf.good (m.wf.lt v hv) (m.wf.lt x hx) (fun h => hxv (m.wf.inj _ _ hx hv h.symm))
      have d1 : di nodes' x = xn.distanceIndex := by simp [di, exn]
      have d2 : di nodes' v = vn.distanceIndex := by simp [di, evn]
      refine ⟨{ nodes := nodes', dist := dist', ni := s.nodes.length + 1, top := v, near := some (x, D nodes' dist' v x), stack := v :: rest },
        ?_, ⟨m.wf, hlen'.symm, pos', hcount, ⟨rest, rfl⟩, ?_, (List.nodup_cons.1 hnd).2, Or.inr ⟨x, rfl, (List.nodup_cons.1 hnd).1, hch⟩⟩,
        ?_, Or.inr hmo⟩
      · simp only [afterMerge, atV_ok exn, atV_ok evn, Outcome.ok_bind, ← d1, ← d2, hg, Outcome.pure_eq]
        rfl
      · intro y hy; exact hr' y (List.mem_cons_of_mem _ hy)
      · unfold todo; simp only [List.length_cons] at hslen ⊢; omega
  · -- one level down
    rw [if_neg hqt, atV_ok epn, Outcome.ok_bind, i.wf.ids _ _ epn]
    have hnd : (p :: s.stack).Nodup := List.nodup_cons.2 ⟨hp, i.nodup⟩
    have hnot : q ∉ s.stack := by
      rw [hst] at hnd ⊢
      exact no_return hc hnd (fun y hy => i.act y (by rw [hst]; exact hy)) hq hqt
    have i' : Inv n { s with stack := p :: s.stack, top := p, near := some (q, D s.nodes s.dist p q) } := by
      refine ⟨i.wf, i.len, i.pos, i.count, ⟨s.stack, rfl⟩, ?_, hnd, Or.inr ⟨q, rfl, ?_, ?_⟩⟩
      · intro x hx
        rcases List.mem_cons.1 hx with rfl | hx
        · exact hnn.act
        · exact i.act x hx
      · intro hm
        rcases List.mem_cons.1 hm with h | h
        · exact hq.ne h
        · exact hnot h
      · exact ⟨hq, hc0⟩
    refine ⟨_, rfl, i', ?_, Or.inl ⟨rfl, rfl⟩⟩
    have h1 := i'.stack_le
    unfold todo
    simp only [List.length_cons] at h1 ⊢
    omega

/-- Whatever holds at the start and survives every merge of mutual nearest neighbours holds at the end; the loop ends. -/
theorem run_spec (link : Linkage) {n : Nat} (P : List (Node K) → SymMat K → Prop)
    (hP : ∀ nodes dist nodes' dist', Wf n nodes dist → (∀ k, Act nodes k → 1 ≤ sz nodes k) →
      MergeOf link n nodes dist nodes' dist' → P nodes dist → P nodes' dist') :
    ∀ fuel (s : St K), Inv n s → todo n s ≤ fuel → P s.nodes s.dist →
      ∃ s', run link n fuel s = .ok s' ∧ Inv n s' ∧ s'.ni = 2 * n - 1 ∧ P s'.nodes s'.dist := by
  intro fuel
  induction fuel with
  | zero =>
    intro s i hf hp
    by_cases h : s.ni = 2 * n - 1
    · exact ⟨s, by simp [run, h], i, h, hp⟩
    · obtain ⟨s', -, -, hlt, -⟩ := step_spec link i h
      omega
  | succ fuel ih =>
    intro s i hf hp
    by_cases h : s.ni = 2 * n - 1
    · exact ⟨s, by simp [run, h], i, h, hp⟩
    · obtain ⟨s1, e, i1, hlt, hm⟩ := step_spec link i h
      have hp1 : P s1.nodes s1.dist := by
        rcases hm with ⟨h1, h2⟩ | hm
        · rw [h1, h2]; exact hp
        · exact hP _ _ _ _ i.wf i.pos hm hp
      obtain ⟨s', e', i', hn', hp'⟩ := ih s1 i1 (by omega) hp1
      refine ⟨s', ?_, i', hn', hp'⟩
      simp only [run, if_neg h, e, Outcome.ok_bind, e']

end
end Cl
end LDT
