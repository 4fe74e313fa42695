import Verif.Lemmas.Matrix
import Mathlib.Data.List.Nodup
import Mathlib.Data.List.Basic
namespace LDT
namespace Mx

variable {α : Type}

/-! ## C33 -/

/-- The checked accessors reject every position outside the matrix, whatever the matrix. -/
theorem C33_rejects (m : Mat α) (i j : Int) (v : α) (h : ¬ m.InR i j) :
    m.get i j = .throws ∧ m.set i j v = .throws := by
  have h' : i ≥ m.rows ∨ j ≥ m.cols ∨ i < 0 ∨ j < 0 := by
    by_contra hc
    exact h ⟨by omega, by omega, by omega, by omega⟩
  unfold Mat.get Mat.set
  rw [if_pos h']
  constructor
  · split_ifs <;> rfl
  · rw [if_pos h']; split_ifs <;> rfl

/-- A matrix without memory rejects every access. -/
theorem C33_null (m : Mat α) (i j : Int) (v : α) (h : m.data = none) :
    m.get i j = .throws ∧ m.set i j v = .throws ∧ m.getLin i = .throws ∧ m.setLin i v = .throws := by
  simp [Mat.get, Mat.set, Mat.getLin, Mat.setLin, h]

/-- Writing one cell succeeds, changes that cell and no other, and leaves shape and the memory behind the
matrix as they were. -/
theorem C33_set_get (m : Mat α) (w : m.Wf) (i j : Int) (h : m.InR i j) (v : α) :
    ∃ m', m.set i j v = .ok m' ∧ SameShape m m' ∧ m'.get i j = .ok v ∧
      ∀ i' j', m.InR i' j' → (i', j') ≠ (i, j) → m'.get i' j' = m.get i' j' := by
  obtain ⟨m', e, s, c⟩ := set0_spec w h v
  refine ⟨m', ?_, s, ?_, ?_⟩
  · obtain ⟨h1, h2, h3, h4⟩ := h
    unfold Mat.set
    rw [if_neg (by rw [w.data_eq]; simp), if_neg (by omega), e]
  · rw [get_eq_get0 (s.wf w) (s.inR.2 h), c i j h, if_pos ⟨rfl, rfl⟩]
  · intro i' j' h' hne
    rw [get_eq_get0 (s.wf w) (s.inR.2 h'), c i' j' h', if_neg, get_eq_get0 w h']
    rintro ⟨rfl, rfl⟩; exact hne rfl

/-- Every position can be read; no access, in range or not, leaves the memory. -/
theorem C33_safe (m : Mat α) (w : m.Wf) (i j : Int) (v : α) :
    (m.InR i j → ∃ x, m.get i j = .ok x) ∧ m.get i j ≠ .ub ∧ m.set i j v ≠ .ub := by
  by_cases h : m.InR i j
  · obtain ⟨x, hx⟩ := get0_ok w h
    obtain ⟨m', e, _⟩ := C33_set_get m w i j h v
    rw [get_eq_get0 w h, hx, e]
    exact ⟨fun _ => ⟨x, rfl⟩, by simp, by simp⟩
  · obtain ⟨e1, e2⟩ := C33_rejects m i j v h
    rw [e1, e2]; exact ⟨fun h' => absurd h' h, by simp, by simp⟩

/-- The one-index accessor enumerates the cells column by column, and `TranslateIndex` is its inverse. -/
theorem C33_linear (m : Mat α) (w : m.Wf) :
    (∀ i j, m.InR i j → m.getLin (i + m.rows * j) = m.get i j ∧
      m.translateIndex (i + m.rows * j) = .ok (i, j)) ∧
    (∀ k, 0 ≤ k → k < m.length → ∃ i j, m.InR i j ∧ k = i + m.rows * j) ∧
    (∀ k, k < 0 ∨ m.length ≤ k → m.getLin k = .throws) := by
  refine ⟨?_, ?_, ?_⟩
  · intro i j h
    have b := idx_bounds h.1 h.2.1 h.2.2.1 h.2.2.2
    constructor
    · rw [get_eq_get0 w h]
      unfold Mat.getLin
      rw [if_neg (by rw [w.data_eq]; simp), if_neg (by unfold Mat.length; omega)]; rfl
    · have hr : 0 < m.rows := lt_of_le_of_lt h.1 h.2.1
      unfold Mat.translateIndex
      rw [if_neg (by omega), Int.tmod_eq_emod_of_nonneg b.1, Int.tdiv_eq_ediv_of_nonneg b.1,
        Int.add_mul_emod_self_left, Int.emod_eq_of_lt h.1 h.2.1, Int.add_mul_ediv_left _ _ (by omega),
        Int.ediv_eq_zero_of_lt h.1 h.2.1, zero_add]
  · intro k h0 h1
    unfold Mat.length at h1
    have hr : 0 < m.rows := by
      rcases lt_or_eq_of_le w.rows_nonneg with h | h
      · exact h
      · rw [← h] at h1; simp at h1; omega
    refine ⟨k % m.rows, k / m.rows, ⟨Int.emod_nonneg _ (by omega), Int.emod_lt_of_pos _ hr,
      Int.ediv_nonneg h0 (by omega), ?_⟩, ?_⟩
    · apply Int.ediv_lt_of_lt_mul hr; rw [mul_comm]; exact h1
    · exact (Int.emod_add_mul_ediv k m.rows).symm
  · intro k hk
    unfold Mat.getLin
    split_ifs with h1 h2
    · rfl
    · rfl

example : (⟨2, 3, some [1, 2, 3, 4, 5, 6]⟩ : Mat Nat).Wf ∧ (⟨2, 3, some [1, 2, 3, 4, 5, 6]⟩ : Mat Nat).InR 1 2 :=
  ⟨⟨by decide, by decide, by decide, by decide⟩, by unfold Mat.InR; decide⟩

/-- `Last` reads one cell behind the matrix: with a block that holds just the matrix it is undefined
behaviour, for every matrix. -/
theorem C33_violated_last (m : Mat α) (h : (m.mem.length : Int) = m.length) : m.last = .ub := by
  unfold Mat.last read
  split_ifs
  · rw [List.getElem?_eq_none (by omega)]
  · rfl

/-! ## C34 -/

theorem two_tri (i : Int) (h : 0 ≤ i) : 2 * (i * (i + 1)).tdiv 2 = i * (i + 1) := by
  rw [Int.tdiv_eq_ediv_of_nonneg (mul_nonneg h (by omega))]
  have h2 : i * (i + 1) % 2 = 0 := by
    rcases Int.emod_two_eq_zero_or_one i with h | h
    · rw [Int.mul_emod, h]; simp
    · rw [Int.mul_emod, Int.add_emod, h]; simp
  omega

/-- Position of the pair with `i ≤ j` (or `i < j` without diagonal), times two. -/
theorem symIndex_val (diag : Bool) (n i j : Int) (hi : 0 ≤ i) (hij : if diag then i ≤ j else i < j) :
    ∃ k, symIndex diag n i j = some k ∧ symIndex diag n j i = some k ∧
      2 * k = if diag then 2 * (i * n + j) - i * (i + 1) else 2 * (i * n + j) - (i + 1) * (i + 2) := by
  cases diag with
  | true =>
    simp only [if_true] at hij ⊢
    refine ⟨i * n + j - (i * (i + 1)).tdiv 2, ?_, ?_, ?_⟩
    · simp only [symIndex, if_true]; rw [if_neg (by omega)]
    · simp only [symIndex, if_true]
      by_cases e : j > i
      · rw [if_pos e]
      · rw [if_neg e]; have : i = j := by omega
        subst this; rfl
    · have := two_tri i hi; omega
  | false =>
    simp only [Bool.false_eq_true, if_false] at hij ⊢
    refine ⟨i * n + j - ((i + 1) * (i + 2)).tdiv 2, ?_, ?_, ?_⟩
    · simp only [symIndex, Bool.false_eq_true, if_false]; rw [if_neg (by omega), if_neg (by omega)]
    · simp only [symIndex, Bool.false_eq_true, if_false]; rw [if_neg (by omega), if_pos (by omega)]
    · have := two_tri (i + 1) (by omega)
      have e : (i + 1) * (i + 1 + 1) = (i + 1) * (i + 2) := by ring
      rw [e] at this; omega

theorem two_symLength (diag : Bool) (n : Int) (hn : 0 ≤ n) :
    2 * symLength diag n = if diag then n * (n + 1) else n * (n - 1) := by
  cases diag with
  | true => simp only [symLength, if_true]; exact two_tri n hn
  | false =>
    simp only [symLength, Bool.false_eq_true, if_false]
    by_cases h : n = 0
    · subst h; simp
    · have := two_tri (n - 1) (by omega)
      have e : (n - 1) * (n - 1 + 1) = n * (n - 1) := by ring
      rw [e] at this; exact this

/-- The pair `(i, j)` with `i` first has a cell: `i ≤ j`, or `i < j` when the diagonal is not stored. -/
def OrderedPair (diag : Bool) (n i j : Int) : Prop := 0 ≤ i ∧ j < n ∧ if diag then i ≤ j else i < j

/-- Both orders of a pair address the same cell, inside the packed storage. -/
theorem C34_in_range (diag : Bool) (n i j : Int) (h : OrderedPair diag n i j) :
    ∃ k, symIndex diag n i j = some k ∧ symIndex diag n j i = some k ∧ 0 ≤ k ∧ k < symLength diag n := by
  obtain ⟨hi, hj, hij⟩ := h
  obtain ⟨k, e1, e2, e3⟩ := symIndex_val diag n i j hi hij
  refine ⟨k, e1, e2, ?_⟩
  have hl := two_symLength diag n (by cases diag <;> simp at hij <;> omega)
  cases diag with
  | true =>
    simp only [if_true] at *
    constructor
    · nlinarith
    · nlinarith
  | false =>
    simp only [Bool.false_eq_true, if_false] at *
    constructor
    · nlinarith
    · nlinarith

/-- Different pairs have different cells. -/
theorem C34_injective (diag : Bool) (n i j i' j' : Int) (h : OrderedPair diag n i j)
    (h' : OrderedPair diag n i' j') (e : symIndex diag n i j = symIndex diag n i' j') : i = i' ∧ j = j' := by
  obtain ⟨hi, hj, hij⟩ := h
  obtain ⟨hi', hj', hij'⟩ := h'
  obtain ⟨k, e1, _, e3⟩ := symIndex_val diag n i j hi hij
  obtain ⟨k', e1', _, e3'⟩ := symIndex_val diag n i' j' hi' hij'
  have hk : k = k' := by rw [e1, e1'] at e; exact Option.some.inj e
  subst hk
  have key : i = i' := by
    by_contra hne
    rcases lt_or_gt_of_ne hne with hlt | hlt <;> cases diag <;>
      simp only [if_true, Bool.false_eq_true, if_false] at * <;> nlinarith
  subst key
  refine ⟨rfl, ?_⟩
  cases diag <;> simp only [if_true, Bool.false_eq_true, if_false] at e3 e3' <;> omega

/-- Twice the first position of row `i`. -/
theorem row_cover (diag : Bool) (n k : Int) (hk : 0 ≤ k) : ∀ m : Nat, (m : Int) ≤ n →
    (2 * k < if diag then 2 * (m * n + m) - m * (m + 1) else 2 * (m * n + (m + 1)) - (m + 1) * (m + 2)) →
    ∃ i j, OrderedPair diag n i j ∧ symIndex diag n i j = some k := by
  intro m
  induction m with
  | zero =>
    intro _ h
    cases diag <;> simp at h <;> omega
  | succ m ih =>
    intro hm h
    by_cases hc : 2 * k < if diag then 2 * ((m : Int) * n + m) - m * (m + 1)
        else 2 * ((m : Int) * n + (m + 1)) - (m + 1) * (m + 2)
    · exact ih (by push_cast at hm; omega) hc
    · push_cast at hm h
      cases diag with
      | true =>
        simp only [if_true] at h hc
        have hdiv := two_tri (m : Int) (by omega)
        have ho : OrderedPair true n m (k - m * n + ((m : Int) * (m + 1)).tdiv 2) := by
          refine ⟨by omega, ?_, ?_⟩
          · nlinarith
          · simp only [if_true]; nlinarith
        refine ⟨m, _, ho, ?_⟩
        obtain ⟨k', e, _, e3⟩ := symIndex_val true n m _ ho.1 ho.2.2
        rw [e]; simp only [if_true] at e3; congr 1; nlinarith
      | false =>
        simp only [Bool.false_eq_true, if_false] at h hc
        have hdiv := two_tri (m + 1 : Int) (by omega)
        have ho : OrderedPair false n m (k - m * n + (((m : Int) + 1) * (m + 1 + 1)).tdiv 2) := by
          refine ⟨by omega, ?_, ?_⟩
          · nlinarith
          · simp only [Bool.false_eq_true, if_false]; nlinarith
        refine ⟨m, _, ho, ?_⟩
        obtain ⟨k', e, _, e3⟩ := symIndex_val false n m _ ho.1 ho.2.2
        rw [e]; simp only [Bool.false_eq_true, if_false] at e3; congr 1; nlinarith

/-- Every position of the packed storage is the cell of some pair: nothing is wasted. -/
theorem C34_surjective (diag : Bool) (n k : Int) (hn : 0 ≤ n) (h0 : 0 ≤ k) (h1 : k < symLength diag n) :
    ∃ i j, OrderedPair diag n i j ∧ symIndex diag n i j = some k := by
  have hl := two_symLength diag n hn
  obtain ⟨m, rfl⟩ := Int.eq_ofNat_of_zero_le hn
  apply row_cover diag m k h0 m (le_refl _)
  cases diag <;> simp only [if_true, Bool.false_eq_true, if_false] at * <;> nlinarith

/-- Writing `(i, j)` is seen at `(i, j)` and `(j, i)` and nowhere else; positions outside, and the diagonal
when it is not stored, are rejected. -/
theorem C34_set_get (diag : Bool) (m : SymMat α) (hm : (m.data.length : Int) = symLength diag m.rows)
    (i j : Int) (v : α) :
    (OrderedPair diag m.rows i j ∨ OrderedPair diag m.rows j i →
      ∃ m', m.set diag i j v = .ok m' ∧ m'.rows = m.rows ∧ m'.data.length = m.data.length ∧
        m'.get diag i j = .ok v ∧ m'.get diag j i = .ok v ∧
        ∀ a b, (a, b) ≠ (i, j) → (a, b) ≠ (j, i) → m'.get diag a b = m.get diag a b) ∧
    (¬ OrderedPair diag m.rows i j → ¬ OrderedPair diag m.rows j i →
      m.get diag i j = .throws ∧ m.set diag i j v = .throws) := by
  constructor
  · intro h
    obtain ⟨k, e1, e2, b0, b1⟩ : ∃ k, symIndex diag m.rows i j = some k ∧ symIndex diag m.rows j i = some k ∧
        0 ≤ k ∧ k < symLength diag m.rows := by
      rcases h with h | h
      · exact C34_in_range diag _ i j h
      · obtain ⟨k, a, b, c⟩ := C34_in_range diag _ j i h; exact ⟨k, b, a, c⟩
    have hin : 0 ≤ i ∧ i < m.rows ∧ 0 ≤ j ∧ j < m.rows := by
      rcases h with ⟨h1, h2, h3⟩ | ⟨h1, h2, h3⟩ <;> cases diag <;> simp at h3 <;> omega
    rw [← hm] at b1
    refine ⟨{ m with data := m.data.set k.toNat v }, ?_, rfl, by simp, ?_, ?_, ?_⟩
    · unfold SymMat.set; rw [if_neg (by omega), e1]; simp only [write_ok_of v b0 b1]; rfl
    · unfold SymMat.get; rw [if_neg (by simp only; omega)]; simp only [e1]
      rw [read_set v b0 b1, if_pos rfl]
    · unfold SymMat.get; rw [if_neg (by simp only; omega)]; simp only [e2]
      rw [read_set v b0 b1, if_pos rfl]
    · intro a b h1 h2
      unfold SymMat.get
      simp only
      by_cases hc : a ≥ m.rows ∨ b ≥ m.rows ∨ a < 0 ∨ b < 0
      · rw [if_pos hc, if_pos hc]
      · rw [if_neg hc, if_neg hc]
        cases hk : symIndex diag m.rows a b with
        | none => rfl
        | some k' =>
          simp only
          rw [read_set v b0 b1, if_neg]
          rintro rfl
          -- bring both pairs into order and use injectivity
          have ord : ∀ x y, symIndex diag m.rows x y = some k' → 0 ≤ x → x < m.rows → 0 ≤ y → y < m.rows →
              ∃ p q, OrderedPair diag m.rows p q ∧ symIndex diag m.rows p q = some k' ∧
                ((x, y) = (p, q) ∨ (x, y) = (q, p)) := by
            intro x y hxy hx hx' hy hy'
            rcases lt_trichotomy x y with hlt | heq | hgt
            · exact ⟨x, y, ⟨hx, hy', by cases diag <;> simp <;> omega⟩, hxy, Or.inl rfl⟩
            · subst heq
              cases diag with
              | true => exact ⟨x, x, ⟨hx, hy', by simp⟩, hxy, Or.inl rfl⟩
              | false => simp [symIndex] at hxy
            · have ho : OrderedPair diag m.rows y x := ⟨hy, hx', by cases diag <;> simp <;> omega⟩
              obtain ⟨k2, a1, a2, _⟩ := C34_in_range diag _ y x ho
              rw [hxy] at a2
              exact ⟨y, x, ho, by rw [a1, a2], Or.inr rfl⟩
          obtain ⟨p, q, o, s, c⟩ := ord a b hk (by omega) (by omega) (by omega) (by omega)
          obtain ⟨p', q', o', s', c'⟩ := ord i j e1 (by omega) (by omega) (by omega) (by omega)
          obtain ⟨r1, r2⟩ := C34_injective diag _ p q p' q' o o' (by rw [s, s'])
          subst r1; subst r2
          simp only [Prod.mk.injEq, ne_eq] at c c' h1 h2
          rcases c with c | c <;> rcases c' with c' | c' <;>
            · first
                | exact h1 ⟨by omega, by omega⟩
                | exact h2 ⟨by omega, by omega⟩
  · intro h1 h2
    unfold SymMat.get SymMat.set
    by_cases hc : i ≥ m.rows ∨ j ≥ m.rows ∨ i < 0 ∨ j < 0
    · rw [if_pos hc, if_pos hc]; exact ⟨rfl, rfl⟩
    · rw [if_neg hc, if_neg hc]
      have hn : symIndex diag m.rows i j = none := by
        cases diag with
        | true =>
          exfalso
          rcases le_total i j with h | h
          · exact h1 ⟨by omega, by omega, by simpa using h⟩
          · exact h2 ⟨by omega, by omega, by simpa using h⟩
        | false =>
          have : i = j := by
            rcases lt_trichotomy i j with h | h | h
            · exact absurd (⟨by omega, by omega, by simpa using h⟩ : OrderedPair false m.rows i j) h1
            · exact h
            · exact absurd (⟨by omega, by omega, by simpa using h⟩ : OrderedPair false m.rows j i) h2
          simp [symIndex, this]
      rw [hn]; exact ⟨rfl, rfl⟩

example : ((⟨3, [1, 2, 3, 4, 5, 6]⟩ : SymMat Nat).data.length : Int) = symLength true 3 ∧
    OrderedPair true 3 1 2 ∧ OrderedPair false 3 0 2 := by
  refine ⟨by decide, ?_, ?_⟩ <;> (unfold OrderedPair; decide)

/-! ## C35 -/

/-- What copying the block `rows R × columns C` of `src` to `(p, q)` of `dst` means to the user, in terms of
`Get` only: the block is there, every other cell and the memory behind the matrix are untouched. -/
structure Copied (src dst : Mat α) (R : List Int) (C : List Int) (p q : Int) (res : Mat α) : Prop where
  shape : SameShape dst res
  block : ∀ (a b : Nat) (r c : Int), R[a]? = some r → C[b]? = some c → res.get (p + a) (q + b) = src.get r c
  other : ∀ i j, ¬ (p ≤ i ∧ i < p + R.length ∧ q ≤ j ∧ j < q + C.length) → res.get i j = dst.get i j

theorem BlockCopied.copied {src dst : Mat α} {R C : List Int} {p q : Int} {res : Mat α}
    (h : BlockCopied src.get0 dst p R q C res) (ws : src.Wf) (wd : dst.Wf) (hp : 0 ≤ p) (hq : 0 ≤ q)
    (hR : p + R.length ≤ dst.rows) (hC : q + C.length ≤ dst.cols)
    (hin : ∀ r ∈ R, ∀ c ∈ C, src.InR r c) : Copied src dst R C p q res := by
  refine ⟨h.shape, ?_, ?_⟩
  · intro a b r c hr hc
    rw [get_eq_get0 (h.shape.wf wd), h.block a b r c hr hc, get_eq_get0 ws]
    · exact hin r (mem_of_some hr) c (mem_of_some hc)
    · apply h.shape.inR.2
      have := lt_length_of_some hr
      have := lt_length_of_some hc
      refine ⟨?_, ?_, ?_, ?_⟩ <;> omega
  · intro i j hn
    by_cases hi : dst.InR i j
    · rw [get_eq_get0 (h.shape.wf wd) (h.shape.inR.2 hi), h.other i j hi hn, get_eq_get0 wd hi]
    · have h1 : ¬ res.InR i j := fun hh => hi (h.shape.inR.1 hh)
      unfold Mat.get
      unfold Mat.InR at hi h1
      rw [if_neg (by rw [(h.shape.wf wd).data_eq]; simp), if_pos (by omega),
        if_neg (by rw [wd.data_eq]; simp), if_pos (by omega)]

theorem upTo_len (s n : Int) (h : 0 ≤ n) : ((upTo s (s + n)).length : Int) = n := by
  rw [length_upTo]; omega

/-- `SetSub` with non-negative arguments that fit both matrices copies the block. -/
theorem C35_set_sub (this source : Mat α) (wt : this.Wf) (ws : source.Wf) (rs cs srs scs rc cc : Int)
    (h1 : 0 ≤ rs) (h2 : 0 ≤ cs) (h3 : 0 ≤ srs) (h4 : 0 ≤ scs) (h5 : 0 ≤ rc) (h6 : 0 ≤ cc)
    (f1 : rs + rc ≤ this.rows) (f2 : cs + cc ≤ this.cols) (f3 : srs + rc ≤ source.rows)
    (f4 : scs + cc ≤ source.cols) :
    ∃ res, this.setSub rs cs source srs scs rc cc = .ok res ∧
      Copied source this (upTo srs (srs + rc)) (upTo scs (scs + cc)) rs cs res := by
  have hin : ∀ r ∈ upTo srs (srs + rc), ∀ c ∈ upTo scs (scs + cc), source.InR r c := by
    intro r hr c hc
    have := mem_upTo.1 hr; have := mem_upTo.1 hc
    refine ⟨?_, ?_, ?_, ?_⟩ <;> omega
  have hR : rs + ((upTo srs (srs + rc)).length : Int) ≤ this.rows := by rw [upTo_len _ _ h5]; exact f1
  have hC : cs + ((upTo scs (scs + cc)).length : Int) ≤ this.cols := by rw [upTo_len _ _ h6]; exact f2
  obtain ⟨res, e, b⟩ := copyFold_spec source.get0 this wt rs _ cs _ h1 h2 hR hC
    (fun r hr c hc => get0_ok ws (hin r hr c hc))
  refine ⟨res, ?_, b.copied ws wt h1 h2 hR hC hin⟩
  unfold Mat.setSub
  rw [if_neg (by omega), if_neg (by omega), if_neg (by omega), if_neg (by omega), setSub0_eq, e]

/-- `SetSub` rejects a block that does not fit one of the matrices. -/
theorem C35_set_sub_rejects (this source : Mat α) (rs cs srs scs rc cc : Int)
    (h : this.rows < rs + rc ∨ this.cols < cs + cc ∨ source.rows < srs + rc ∨ source.cols < scs + cc) :
    this.setSub rs cs source srs scs rc cc = .throws := by
  unfold Mat.setSub
  split_ifs <;> first | rfl | (exfalso; omega)

/-- `SetSub_t` copies the transposed block: cell `(rs+a, cs+b)` becomes `source(srs+b, scs+a)`. -/
theorem C35_set_sub_t (this source : Mat α) (wt : this.Wf) (ws : source.Wf) (rs cs srs scs rc cc : Int)
    (h1 : 0 ≤ rs) (h2 : 0 ≤ cs) (h3 : 0 ≤ srs) (h4 : 0 ≤ scs) (h5 : 0 ≤ rc) (h6 : 0 ≤ cc)
    (f1 : rs + rc ≤ this.rows) (f2 : cs + cc ≤ this.cols) (f3 : scs + rc ≤ source.cols)
    (f4 : srs + cc ≤ source.rows) :
    ∃ res, this.setSubT rs cs source srs scs rc cc = .ok res ∧ SameShape this res ∧
      (∀ a b : Int, 0 ≤ a → a < rc → 0 ≤ b → b < cc → res.get (rs + a) (cs + b) = source.get (srs + b) (scs + a)) ∧
      (∀ i j, this.InR i j → ¬ (rs ≤ i ∧ i < rs + rc ∧ cs ≤ j ∧ j < cs + cc) → res.get i j = this.get i j) := by
  have hR : rs + ((upTo scs (scs + rc)).length : Int) ≤ this.rows := by rw [upTo_len _ _ h5]; exact f1
  have hC : cs + ((upTo srs (srs + cc)).length : Int) ≤ this.cols := by rw [upTo_len _ _ h6]; exact f2
  obtain ⟨res, e, b⟩ := copyFold_spec (fun r c => source.get0 c r) this wt rs _ cs _ h1 h2 hR hC
    (fun r hr c hc => get0_ok ws (by
      have := mem_upTo.1 hr; have := mem_upTo.1 hc
      refine ⟨?_, ?_, ?_, ?_⟩ <;> omega))
  refine ⟨res, ?_, b.shape, ?_, ?_⟩
  · unfold Mat.setSubT
    rw [if_neg (by omega), if_neg (by omega), if_neg (by omega), if_neg (by omega), setSubT0_eq, e]
  · intro x y hx hx' hy hy'
    have hb := b.block x.toNat y.toNat (scs + x) (srs + y)
      (by rw [getElem?_upTo, if_pos (by omega)]; congr 1; omega)
      (by rw [getElem?_upTo, if_pos (by omega)]; congr 1; omega)
    rw [show ((x.toNat : Nat) : Int) = x by omega, show ((y.toNat : Nat) : Int) = y by omega] at hb
    rw [get_eq_get0 (b.shape.wf wt) (b.shape.inR.2 ⟨by omega, by omega, by omega, by omega⟩), hb,
      get_eq_get0 ws ⟨by omega, by omega, by omega, by omega⟩]
  · intro i j hij hn
    rw [get_eq_get0 (b.shape.wf wt) (b.shape.inR.2 hij), b.other i j hij
      (by rw [upTo_len _ _ h5, upTo_len _ _ h6]; exact hn), get_eq_get0 wt hij]

/-- `GetSub` into a storage of exactly the needed size fills the block and touches nothing else. -/
theorem C35_get_sub_partial (this storage : Mat α) (wt : this.Wf) (ws : storage.Wf) (rs cs rc cc p q : Int)
    (h1 : 0 ≤ rs) (h2 : 0 ≤ cs) (h3 : 0 ≤ rc) (h4 : 0 ≤ cc) (h5 : 0 ≤ p) (h6 : 0 ≤ q)
    (f1 : rs + rc ≤ this.rows) (f2 : cs + cc ≤ this.cols) (f3 : storage.rows = rc + p)
    (f4 : storage.cols = cc + q) :
    ∃ res, this.getSub rs cs rc cc storage p q = .ok res ∧
      Copied this storage (upTo rs (rs + rc)) (upTo cs (cs + cc)) p q res := by
  obtain ⟨res, e, c⟩ := C35_set_sub storage this ws wt p q rs cs rc cc h5 h6 h1 h2 h3 h4 (by omega) (by omega)
    (by omega) (by omega)
  refine ⟨res, ?_, c⟩
  unfold Mat.getSub
  rw [if_neg (by omega), if_neg (by omega), if_neg (by omega)]
  unfold Mat.setSub at e
  rw [if_neg (by omega), if_neg (by omega), if_neg (by omega), if_neg (by omega)] at e
  exact e

/-- The size check of `GetSub` is reversed: a storage that is too small is accepted and memory behind it is
written (undefined behaviour), a storage with room to spare is rejected. -/
theorem C35_violated_get_sub :
    (⟨2, 2, some [1, 2, 3, 4]⟩ : Mat Nat).getSub 0 0 2 2 ⟨1, 1, some [0]⟩ 0 0 = .ub ∧
    (⟨2, 2, some [1, 2, 3, 4]⟩ : Mat Nat).getSub 0 0 1 1 ⟨2, 2, some [0, 0, 0, 0]⟩ 0 0 = .throws := by
  decide +kernel

/-- Even with enough memory, a storage with too few rows is accepted and filled wrongly: the columns of the
block overlap. -/
theorem C35_violated_get_sub_overlap :
    ∃ res, (⟨2, 2, some [1, 2, 3, 4]⟩ : Mat Nat).getSub 0 0 2 2 ⟨1, 2, some [0, 0, 0, 0]⟩ 0 0 = .ok res ∧
      res.get 0 1 = .ok 2 ∧ (⟨2, 2, some [1, 2, 3, 4]⟩ : Mat Nat).get 0 1 = .ok 3 :=
  ⟨_, rfl, by decide +kernel, by decide +kernel⟩

/-- Negative start positions are not rejected. -/
theorem C35_violated_negative_start :
    (⟨2, 2, some [1, 2, 3, 4]⟩ : Mat Nat).setSub (-1) 0 ⟨2, 2, some [5, 6, 7, 8]⟩ 0 0 1 1 = .ub := by
  decide +kernel

/-- `GetSub` with index lists for rows and columns. -/
theorem C35_get_sub_indexes (this storage : Mat α) (wt : this.Wf) (ws : storage.Wf) (R C : List Int) (p q : Int)
    (h5 : 0 ≤ p) (h6 : 0 ≤ q) (hin : ∀ r ∈ R, ∀ c ∈ C, this.InR r c) :
    (storage.rows = R.length + p → storage.cols = C.length + q →
      ∃ res, this.getSubIdx2 R C storage p q = .ok res ∧ Copied this storage R C p q res) ∧
    (storage.rows ≠ R.length + p ∨ storage.cols ≠ C.length + q →
      this.getSubIdx2 R C storage p q = .throws) := by
  constructor
  · intro f1 f2
    obtain ⟨res, e, b⟩ := copyFold_spec this.get0 storage ws p R q C h5 h6 (by omega) (by omega)
      (fun r hr c hc => get0_ok wt (hin r hr c hc))
    refine ⟨res, ?_, b.copied wt ws h5 h6 (by omega) (by omega) hin⟩
    unfold Mat.getSubIdx2
    rw [if_neg (by omega), if_neg (by omega)]; exact e
  · intro h
    unfold Mat.getSubIdx2
    split_ifs <;> first | rfl | (exfalso; omega)

/-- `GetSub` with a range in one direction and indexes (kept or excluded) in the other. -/
theorem C35_get_sub_range (this storage : Mat α) (wt : this.Wf) (ws : storage.Wf) (fs fc : Int) (idx : List Int)
    (byRow excl : Bool) (p q : Int) (h5 : 0 ≤ p) (h6 : 0 ≤ q) (h7 : 0 ≤ fs) (h8 : 0 ≤ fc)
    (hf : fs + fc ≤ if byRow then this.rows else this.cols)
    (hidx : ∀ k ∈ idx, 0 ≤ k ∧ k < if byRow then this.cols else this.rows)
    (hnd : excl = true → idx.Nodup)
    (kept : List Int)
    (hk : kept = if excl then (upTo 0 (if byRow then this.cols else this.rows)).filter (fun k => k ∉ idx) else idx)
    (s1 : storage.rows = (if byRow then fc else kept.length) + p)
    (s2 : storage.cols = (if byRow then (kept.length : Int) else fc) + q) :
    ∃ res, this.getSubIdx fs fc idx byRow storage p q excl = .ok res ∧
      Copied this storage (if byRow then upTo fs (fs + fc) else kept) (if byRow then kept else upTo fs (fs + fc))
        p q res := by
  have hsub : this.subIndexes idx byRow excl = kept := by
    rw [hk]; unfold Mat.subIndexes; cases excl <;> cases byRow <;> simp
  have hkin : ∀ k ∈ kept, 0 ≤ k ∧ k < if byRow then this.cols else this.rows := by
    intro k hkk
    rw [hk] at hkk
    cases excl with
    | true => simp only [if_true, List.mem_filter] at hkk; exact mem_upTo.1 hkk.1
    | false => simp only [Bool.false_eq_true, if_false] at hkk; exact hidx k hkk
  -- the excluded list has the size the check expects
  have hlen : excl = true → (kept.length : Int) = (if byRow then this.cols else this.rows) - idx.length := by
    intro he
    generalize hN : (if byRow then this.cols else this.rows) = N at *
    have hN0 : 0 ≤ N := by rw [← hN]; cases byRow <;> simp [wt.rows_nonneg, wt.cols_nonneg]
    subst he
    simp only [if_true] at hk
    have hp : ((upTo 0 N).filter (fun k => decide (k ∈ idx))).Perm idx := by
      apply (List.perm_ext_iff_of_nodup _ (hnd rfl)).2
      · intro a; simp only [List.mem_filter, decide_eq_true_eq]
        constructor
        · exact fun h => h.2
        · exact fun h => ⟨mem_upTo.2 (hidx a h), h⟩
      · apply List.Nodup.filter
        unfold upTo
        apply List.Nodup.map (f := fun (k : Nat) => (0 : Int) + (k : Int)) _ List.nodup_range
        intro a b hab; simpa using hab
    have hsum := List.length_eq_length_filter_add (l := upTo 0 N) (fun k => decide (k ∈ idx))
    rw [length_upTo, hp.length_eq] at hsum
    rw [hk]
    have e : (fun k => decide (k ∉ idx)) = fun k => !decide (k ∈ idx) := by funext k; simp
    rw [e]
    omega
  cases byRow with
  | true =>
    simp only [if_true] at *
    have hR : p + ((upTo fs (fs + fc)).length : Int) ≤ storage.rows := by rw [upTo_len _ _ h8]; omega
    have hin : ∀ r ∈ upTo fs (fs + fc), ∀ c ∈ kept, this.InR r c := fun r hr c hc => by
      have := mem_upTo.1 hr; have := hkin c hc; exact ⟨by omega, by omega, by omega, by omega⟩
    obtain ⟨res, e, b⟩ := copyFold_spec this.get0 storage ws p (upTo fs (fs + fc)) q kept h5 h6 hR (by omega)
      (fun r hr c hc => get0_ok wt (hin r hr c hc))
    refine ⟨res, ?_, b.copied wt ws h5 h6 hR (by omega) hin⟩
    rw [← e]
    unfold Mat.getSubIdx Mat.getSubIdx0
    simp only [if_true, hsub]
    cases excl with
    | true => simp only [if_true]; rw [if_neg (by omega), if_neg (by have := hlen rfl; omega)]; rfl
    | false =>
      simp only [Bool.false_eq_true, if_false] at hk ⊢
      rw [if_neg (by omega), if_neg (by rw [← hk]; omega)]; rfl
  | false =>
    simp only [Bool.false_eq_true, if_false] at *
    have hC : q + ((upTo fs (fs + fc)).length : Int) ≤ storage.cols := by rw [upTo_len _ _ h8]; omega
    have hin : ∀ r ∈ kept, ∀ c ∈ upTo fs (fs + fc), this.InR r c := fun r hr c hc => by
      have := mem_upTo.1 hc; have := hkin r hr; exact ⟨by omega, by omega, by omega, by omega⟩
    obtain ⟨res, e, b⟩ := copyFoldT_spec this.get0 storage ws p kept q (upTo fs (fs + fc)) h5 h6 (by omega) hC
      (fun r hr c hc => get0_ok wt (hin r hr c hc))
    refine ⟨res, ?_, b.copied wt ws h5 h6 (by omega) hC hin⟩
    rw [← e]
    unfold Mat.getSubIdx Mat.getSubIdx0
    simp only [Bool.false_eq_true, if_false, hsub]
    cases excl with
    | true => simp only [if_true]; rw [if_neg (by omega), if_neg (by have := hlen rfl; omega)]; rfl
    | false =>
      simp only [Bool.false_eq_true, if_false] at hk ⊢
      rw [if_neg (by omega), if_neg (by rw [← hk]; omega)]; rfl

example : ∃ res, (⟨2, 3, some [1, 2, 3, 4, 5, 6]⟩ : Mat Nat).getSubIdx 0 2 [1] true ⟨2, 2, some [0, 0, 0, 0]⟩ 0 0 true
    = .ok res ∧ res.data = some [1, 2, 5, 6] := ⟨_, rfl, by decide +kernel⟩

end Mx
end LDT
