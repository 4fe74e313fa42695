import Verif.Spec.Matrix
import Verif.Lemmas.Outcome
import Mathlib.Tactic.Linarith
import Mathlib.Tactic.SplitIfs
import Mathlib.Tactic.Ring
import Mathlib.Data.List.Induction
import Mathlib.Algebra.Order.Ring.Int
namespace LDT
namespace Mx

variable {α : Type}

theorem read_ok_of {l : List α} {k : Int} (h0 : 0 ≤ k) (h1 : k < l.length) : ∃ v, read l k = .ok v := by
  have : k.toNat < l.length := by omega
  refine ⟨l[k.toNat], ?_⟩
  simp only [read, if_pos h0, List.getElem?_eq_getElem this]

theorem read_eq_ok {l : List α} {k : Int} {v : α} : read l k = .ok v ↔ 0 ≤ k ∧ l[k.toNat]? = some v := by
  unfold read
  split_ifs with h
  · cases hh : l[k.toNat]? <;> simp [h]
  · simp [h]

theorem read_congr {l l' : List α} {k : Int} (h : 0 ≤ k → l[k.toNat]? = l'[k.toNat]?) : read l k = read l' k := by
  unfold read
  split_ifs with h0
  · rw [h h0]
  · rfl

theorem write_ok_of {l : List α} {k : Int} (v : α) (h0 : 0 ≤ k) (h1 : k < l.length) :
    write l k v = .ok (l.set k.toNat v) := by
  simp only [write, if_pos (And.intro h0 h1)]

theorem read_set {l : List α} {k : Int} (v : α) (h0 : 0 ≤ k) (h1 : k < l.length) (k' : Int) :
    read (l.set k.toNat v) k' = if k' = k then .ok v else read l k' := by
  split_ifs with h
  · subst h
    rw [read_eq_ok]; refine ⟨h0, ?_⟩
    rw [List.getElem?_set_self (by omega)]
  · apply read_congr; intro h0'
    rw [List.getElem?_set_ne]
    intro e; apply h; omega

theorem idx_bounds {r c i j : Int} (hi0 : 0 ≤ i) (hi : i < r) (hj0 : 0 ≤ j) (hj : j < c) :
    0 ≤ i + r * j ∧ i + r * j < r * c := by
  have h1 : 0 ≤ r * j := mul_nonneg (by omega) hj0
  have h2 : r * (j + 1) ≤ r * c := mul_le_mul_of_nonneg_left (by omega) (by omega)
  have h3 : r * (j + 1) = r * j + r := by ring
  constructor <;> omega

theorem idx_inj {r i j i' j' : Int} (hi0 : 0 ≤ i) (hi : i < r) (hi0' : 0 ≤ i') (hi' : i' < r)
    (h : i + r * j = i' + r * j') : i = i' ∧ j = j' := by
  have hj : j = j' := by
    by_contra hne
    rcases lt_or_gt_of_ne hne with hlt | hlt
    · have : r * (j + 1) ≤ r * j' := mul_le_mul_of_nonneg_left (by omega) (by omega)
      have h3 : r * (j + 1) = r * j + r := by ring
      omega
    · have : r * (j' + 1) ≤ r * j := mul_le_mul_of_nonneg_left (by omega) (by omega)
      have h3 : r * (j' + 1) = r * j' + r := by ring
      omega
  subst hj
  exact ⟨by omega, rfl⟩

theorem SameShape.refl (m : Mat α) : SameShape m m := ⟨rfl, rfl, rfl, rfl, fun _ _ => rfl⟩

theorem SameShape.trans {a b c : Mat α} (h : SameShape a b) (h' : SameShape b c) : SameShape a c :=
  ⟨h'.rows.trans h.rows, h'.cols.trans h.cols, h'.alloc.trans h.alloc, h'.len.trans h.len,
    fun k hk => (h'.rest k (by rw [h.rows, h.cols]; exact hk)).trans (h.rest k hk)⟩

theorem SameShape.wf {a b : Mat α} (h : SameShape a b) (w : a.Wf) : b.Wf :=
  ⟨by rw [h.rows]; exact w.rows_nonneg, by rw [h.cols]; exact w.cols_nonneg, by rw [h.alloc]; exact w.alloc,
    by rw [h.rows, h.cols, h.len]; exact w.size⟩

theorem SameShape.inR {a b : Mat α} (h : SameShape a b) {i j : Int} : b.InR i j ↔ a.InR i j := by
  simp [Mat.InR, h.rows, h.cols]

theorem Mat.Wf.data_eq {m : Mat α} (w : m.Wf) : m.data = some m.mem := by
  have := w.alloc
  unfold Mat.mem
  cases h : m.data with
  | none => rw [h] at this; simp at this
  | some l => rfl

theorem Mat.Wf.idx {m : Mat α} (w : m.Wf) {i j : Int} (h : m.InR i j) :
    0 ≤ i + m.rows * j ∧ i + m.rows * j < m.mem.length := by
  have := idx_bounds h.1 h.2.1 h.2.2.1 h.2.2.2
  exact ⟨this.1, lt_of_lt_of_le this.2 w.size⟩

theorem get0_ok {m : Mat α} (w : m.Wf) {i j : Int} (h : m.InR i j) : ∃ v, m.get0 i j = .ok v :=
  read_ok_of (w.idx h).1 (w.idx h).2

theorem get_eq_get0 {m : Mat α} (w : m.Wf) {i j : Int} (h : m.InR i j) : m.get i j = m.get0 i j := by
  obtain ⟨h1, h2, h3, h4⟩ := h
  unfold Mat.get
  rw [if_neg (by rw [w.data_eq]; simp), if_neg (by omega)]

theorem set0_spec {m : Mat α} (w : m.Wf) {i j : Int} (h : m.InR i j) (v : α) :
    ∃ m', m.set0 i j v = .ok m' ∧ SameShape m m' ∧
      ∀ i' j', m.InR i' j' → m'.get0 i' j' = if i' = i ∧ j' = j then .ok v else m.get0 i' j' := by
  obtain ⟨b0, b1⟩ := w.idx h
  refine ⟨{ m with data := some (m.mem.set (i + m.rows * j).toNat v) }, ?_, ⟨rfl, rfl, ?_, ?_, ?_⟩, ?_⟩
  · simp only [Mat.set0, write_ok_of v b0 b1]; rfl
  · rw [w.data_eq]; rfl
  · simp [Mat.mem]
  · intro k hk
    show (m.mem.set _ v)[k]? = _
    rw [List.getElem?_set_ne]
    have := (idx_bounds h.1 h.2.1 h.2.2.1 h.2.2.2).2
    intro e; omega
  · intro i' j' h'
    show read (m.mem.set _ v) (i' + m.rows * j') = _
    rw [read_set v b0 b1]
    by_cases e : i' = i ∧ j' = j
    · rw [if_pos e, if_pos (by rw [e.1, e.2])]
    · rw [if_neg e, if_neg]
      · rfl
      · intro e'; exact e (idx_inj h'.1 h'.2.1 h.1 h.2.1 e')

/-- A loop of writes whose values depend only on the position written. -/
theorem fold_set {ι : Type} (pos : ι → Int × Int) (g : ι → Outcome α) (ps : List ι) (m : Mat α) (w : m.Wf)
    (hin : ∀ p ∈ ps, m.InR (pos p).1 (pos p).2) (hok : ∀ p ∈ ps, ∃ v, g p = .ok v)
    (hco : ∀ p ∈ ps, ∀ q ∈ ps, pos p = pos q → g p = g q) :
    ∃ m', ps.foldlM (fun d p => do let v ← g p; d.set0 (pos p).1 (pos p).2 v) m = .ok m' ∧ SameShape m m' ∧
      (∀ p ∈ ps, m'.get0 (pos p).1 (pos p).2 = g p) ∧
      (∀ i j, m.InR i j → (i, j) ∉ ps.map pos → m'.get0 i j = m.get0 i j) := by
  induction ps using List.reverseRecOn with
  | nil => exact ⟨m, rfl, SameShape.refl m, by simp, by simp⟩
  | append_singleton ps p ih =>
    obtain ⟨m1, e1, s1, v1, u1⟩ := ih (fun q hq => hin q (by simp [hq])) (fun q hq => hok q (by simp [hq]))
      (fun q hq r hr => hco q (by simp [hq]) r (by simp [hr]))
    obtain ⟨v, hv⟩ := hok p (by simp)
    have w1 := s1.wf w
    have hp : m1.InR (pos p).1 (pos p).2 := s1.inR.2 (hin p (by simp))
    obtain ⟨m2, e2, s2, c2⟩ := set0_spec w1 hp v
    refine ⟨m2, ?_, s1.trans s2, ?_, ?_⟩
    · rw [List.foldlM_append, e1, Outcome.ok_bind, List.foldlM_cons, hv, Outcome.ok_bind, e2]; rfl
    · intro q hq
      have hqin : m1.InR (pos q).1 (pos q).2 := s1.inR.2 (hin q hq)
      rw [c2 _ _ hqin]
      split_ifs with e
      · rw [← hv]
        exact (hco q hq p (by simp) (Prod.ext e.1 e.2)).symm
      · rcases List.mem_append.1 hq with h | h
        · exact v1 q h
        · simp at h; subst h; simp at e
    · intro i j hij hnot
      rw [List.map_append, List.mem_append] at hnot
      rw [c2 i j (s1.inR.2 hij), if_neg, u1 i j hij (fun h => hnot (Or.inl h))]
      intro e; apply hnot; right; simp [Prod.ext_iff, e.1, e.2]

theorem mem_countFrom {p q i : Int} {l : List Int} :
    (q, i) ∈ countFrom p l ↔ ∃ k : Nat, q = p + k ∧ l[k]? = some i := by
  induction l generalizing p with
  | nil => simp [countFrom]
  | cons a l ih =>
    simp only [countFrom, List.mem_cons, Prod.mk.injEq, ih]
    constructor
    · rintro (⟨rfl, rfl⟩ | ⟨k, rfl, h⟩)
      · exact ⟨0, by simp, by simp⟩
      · exact ⟨k + 1, by push_cast; ring, by simpa using h⟩
    · rintro ⟨k, rfl, h⟩
      cases k with
      | zero => left; simp at h; simp [h]
      | succ k => right; exact ⟨k, by push_cast; ring, by simpa using h⟩

theorem getElem?_upTo (a b : Int) (k : Nat) :
    (upTo a b)[k]? = if (k : Int) < b - a then some (a + k) else none := by
  unfold upTo
  rw [List.getElem?_map]
  split_ifs with h
  · rw [List.getElem?_range (by omega)]; rfl
  · rw [List.getElem?_eq_none (by simp; omega)]; rfl

theorem length_upTo (a b : Int) : (upTo a b).length = (b - a).toNat := by simp [upTo]

theorem mem_upTo {a b x : Int} : x ∈ upTo a b ↔ a ≤ x ∧ x < b := by
  unfold upTo
  simp only [List.mem_map, List.mem_range]
  constructor
  · rintro ⟨k, hk, rfl⟩; omega
  · rintro ⟨h1, h2⟩; exact ⟨(x - a).toNat, by omega, by omega⟩

theorem countFrom_length (p : Int) (l : List Int) : (countFrom p l).length = l.length := by
  induction l generalizing p with
  | nil => rfl
  | cons a l ih => simp [countFrom, ih]

theorem countFrom_getElem? (p : Int) (l : List Int) (k : Nat) :
    (countFrom p l)[k]? = (l[k]?).map (fun i => (p + (k : Int), i)) := by
  induction l generalizing p k with
  | nil => simp [countFrom]
  | cons a l ih =>
    cases k with
    | zero => simp [countFrom]
    | succ k => simp only [countFrom, List.getElem?_cons_succ, ih]; congr 1; funext i; push_cast; congr 1; ring

theorem countFrom_swap (a b n : Int) :
    (countFrom a (upTo b (b + n))).map Prod.swap = countFrom b (upTo a (a + n)) := by
  apply List.ext_getElem?
  intro k
  rw [List.getElem?_map, countFrom_getElem?, countFrom_getElem?, getElem?_upTo, getElem?_upTo]
  split_ifs with h1 h2 h2 <;> first | rfl | (exfalso; omega)

/-- The common shape of all block copies: for `a`, `b` counting the lists `R`, `C`,
`dst(p0 + a, q0 + b) := G R[a] C[b]`, outer loop over `R`. -/
def copyFold (G : Int → Int → Outcome α) (dst : Mat α) (p0 : Int) (R : List Int) (q0 : Int) (C : List Int) :
    Outcome (Mat α) :=
  (countFrom p0 R).foldlM (fun d pi => (countFrom q0 C).foldlM (fun d qj => do
    let v ← G pi.2 qj.2
    d.set0 pi.1 qj.1 v) d) dst

/-- The same with the outer loop over `C`. -/
def copyFoldT (G : Int → Int → Outcome α) (dst : Mat α) (p0 : Int) (R : List Int) (q0 : Int) (C : List Int) :
    Outcome (Mat α) :=
  (countFrom q0 C).foldlM (fun d qj => (countFrom p0 R).foldlM (fun d pi => do
    let v ← G pi.2 qj.2
    d.set0 pi.1 qj.1 v) d) dst

/-- What a block copy does. -/
structure BlockCopied (G : Int → Int → Outcome α) (dst : Mat α) (p0 : Int) (R : List Int) (q0 : Int)
    (C : List Int) (res : Mat α) : Prop where
  shape : SameShape dst res
  block : ∀ (a b : Nat) (r c : Int), R[a]? = some r → C[b]? = some c → res.get0 (p0 + a) (q0 + b) = G r c
  other : ∀ i j, dst.InR i j → ¬ (p0 ≤ i ∧ i < p0 + R.length ∧ q0 ≤ j ∧ j < q0 + C.length) →
    res.get0 i j = dst.get0 i j

theorem lt_length_of_some {β : Type} {l : List β} {k : Nat} {x : β} (h : l[k]? = some x) : k < l.length := by
  by_contra hc
  rw [List.getElem?_eq_none (by omega)] at h; simp at h

theorem mem_of_some {β : Type} {l : List β} {k : Nat} {x : β} (h : l[k]? = some x) : x ∈ l :=
  List.mem_of_getElem? h

theorem copy_aux {ι : Type} (G : Int → Int → Outcome α) (dst : Mat α) (w : dst.Wf) (p0 : Int) (R : List Int) (q0 : Int)
    (C : List Int) (hp : 0 ≤ p0) (hq : 0 ≤ q0) (hR : p0 + R.length ≤ dst.rows) (hC : q0 + C.length ≤ dst.cols)
    (hG : ∀ r ∈ R, ∀ c ∈ C, ∃ v, G r c = .ok v) (ps : List ι) (pos : ι → Int × Int) (src : ι → Int × Int)
    (hmem : ∀ x y, (∃ p ∈ ps, pos p = x ∧ src p = y) ↔
      ((x.1, y.1) ∈ countFrom p0 R ∧ (x.2, y.2) ∈ countFrom q0 C)) :
    ∃ m', ps.foldlM (fun d p => do let v ← G (src p).1 (src p).2; d.set0 (pos p).1 (pos p).2 v) dst = .ok m' ∧
      BlockCopied G dst p0 R q0 C m' := by
  have key : ∀ p ∈ ps, ∃ a b : Nat, (pos p).1 = p0 + a ∧ R[a]? = some (src p).1 ∧ (pos p).2 = q0 + b ∧
      C[b]? = some (src p).2 := by
    intro p hp
    obtain ⟨h1, h2⟩ := (hmem (pos p) (src p)).1 ⟨p, hp, rfl, rfl⟩
    obtain ⟨a, ha, ha'⟩ := mem_countFrom.1 h1
    obtain ⟨b, hb, hb'⟩ := mem_countFrom.1 h2
    exact ⟨a, b, ha, ha', hb, hb'⟩
  obtain ⟨m', e, s, v, u⟩ := fold_set pos (fun p => G (src p).1 (src p).2) ps dst w
    (by
      intro p hp
      obtain ⟨a, b, h1, h2, h3, h4⟩ := key p hp
      have := lt_length_of_some h2
      have := lt_length_of_some h4
      refine ⟨?_, ?_, ?_, ?_⟩ <;> omega)
    (by
      intro p hp
      obtain ⟨a, b, h1, h2, h3, h4⟩ := key p hp
      exact hG _ (mem_of_some h2) _ (mem_of_some h4))
    (by
      intro p hp q hq e
      obtain ⟨a, b, h1, h2, h3, h4⟩ := key p hp
      obtain ⟨a', b', h1', h2', h3', h4'⟩ := key q hq
      have ea : a = a' := by rw [e, h1'] at h1; omega
      have eb : b = b' := by rw [e, h3'] at h3; omega
      subst ea; subst eb
      rw [h2] at h2'; rw [h4] at h4'
      rw [Option.some.inj h2', Option.some.inj h4'])
  refine ⟨m', e, s, ?_, ?_⟩
  · intro a b r c hr hc
    obtain ⟨p, hp, e1, e2⟩ := (hmem (p0 + a, q0 + b) (r, c)).2
      ⟨mem_countFrom.2 ⟨a, rfl, hr⟩, mem_countFrom.2 ⟨b, rfl, hc⟩⟩
    have := v p hp
    simp only [e1, e2] at this
    exact this
  · intro i j hij hnot
    apply u i j hij
    intro hm
    obtain ⟨p, hp, e⟩ := List.mem_map.1 hm
    obtain ⟨a, b, h1, h2, h3, h4⟩ := key p hp
    have := lt_length_of_some h2
    have := lt_length_of_some h4
    rw [e] at h1 h3
    apply hnot
    simp only at h1 h3
    refine ⟨?_, ?_, ?_, ?_⟩ <;> omega

theorem copyFold_spec (G : Int → Int → Outcome α) (dst : Mat α) (w : dst.Wf) (p0 : Int) (R : List Int) (q0 : Int)
    (C : List Int) (hp : 0 ≤ p0) (hq : 0 ≤ q0) (hR : p0 + R.length ≤ dst.rows) (hC : q0 + C.length ≤ dst.cols)
    (hG : ∀ r ∈ R, ∀ c ∈ C, ∃ v, G r c = .ok v) :
    ∃ m', copyFold G dst p0 R q0 C = .ok m' ∧ BlockCopied G dst p0 R q0 C m' := by
  unfold copyFold
  rw [foldlM_nested (fun (d : Mat α) (pi qj : Int × Int) => do let v ← G pi.2 qj.2; d.set0 pi.1 qj.1 v)]
  apply copy_aux G dst w p0 R q0 C hp hq hR hC hG _ (fun x : (Int × Int) × (Int × Int) => (x.1.1, x.2.1))
    (fun x => (x.1.2, x.2.2))
  rintro ⟨x1, x2⟩ ⟨y1, y2⟩
  simp only [List.mem_flatMap, List.mem_map]
  constructor
  · rintro ⟨p, ⟨a, ha, b, hb, rfl⟩, e1, e2⟩
    simp only [Prod.mk.injEq] at e1 e2
    rw [← e1.1, ← e1.2, ← e2.1, ← e2.2]; exact ⟨ha, hb⟩
  · rintro ⟨h1, h2⟩
    exact ⟨((x1, y1), (x2, y2)), ⟨_, h1, _, h2, rfl⟩, rfl, rfl⟩

theorem copyFoldT_spec (G : Int → Int → Outcome α) (dst : Mat α) (w : dst.Wf) (p0 : Int) (R : List Int) (q0 : Int)
    (C : List Int) (hp : 0 ≤ p0) (hq : 0 ≤ q0) (hR : p0 + R.length ≤ dst.rows) (hC : q0 + C.length ≤ dst.cols)
    (hG : ∀ r ∈ R, ∀ c ∈ C, ∃ v, G r c = .ok v) :
    ∃ m', copyFoldT G dst p0 R q0 C = .ok m' ∧ BlockCopied G dst p0 R q0 C m' := by
  unfold copyFoldT
  rw [foldlM_nested (fun (d : Mat α) (qj pi : Int × Int) => do let v ← G pi.2 qj.2; d.set0 pi.1 qj.1 v)]
  apply copy_aux G dst w p0 R q0 C hp hq hR hC hG _ (fun x : (Int × Int) × (Int × Int) => (x.2.1, x.1.1))
    (fun x => (x.2.2, x.1.2))
  rintro ⟨x1, x2⟩ ⟨y1, y2⟩
  simp only [List.mem_flatMap, List.mem_map]
  constructor
  · rintro ⟨p, ⟨a, ha, b, hb, rfl⟩, e1, e2⟩
    simp only [Prod.mk.injEq] at e1 e2
    rw [← e1.1, ← e1.2, ← e2.1, ← e2.2]; exact ⟨hb, ha⟩
  · rintro ⟨h1, h2⟩
    exact ⟨((x2, y2), (x1, y1)), ⟨_, h2, _, h1, rfl⟩, rfl, rfl⟩

theorem setSub0_eq (this : Mat α) (rs cs : Int) (source : Mat α) (srs scs rc cc : Int) :
    this.setSub0 rs cs source srs scs rc cc
      = copyFold source.get0 this rs (upTo srs (srs + rc)) cs (upTo scs (scs + cc)) := by
  unfold Mat.setSub0 copyFold
  rw [← countFrom_swap srs rs rc, ← countFrom_swap scs cs cc, List.foldlM_map]
  simp only [List.foldlM_map]
  rfl

theorem setSubT0_eq (this : Mat α) (rs cs : Int) (source : Mat α) (srs scs rc cc : Int) :
    this.setSubT0 rs cs source srs scs rc cc
      = copyFold (fun r c => source.get0 c r) this rs (upTo scs (scs + rc)) cs (upTo srs (srs + cc)) := by
  unfold Mat.setSubT0 copyFold
  rw [← countFrom_swap scs rs rc, ← countFrom_swap srs cs cc, List.foldlM_map]
  simp only [List.foldlM_map]
  rfl

end Mx
end LDT
