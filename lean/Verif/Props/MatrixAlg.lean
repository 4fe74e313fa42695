import Verif.Lemmas.MatrixAlg
/-!
# C58-C60: transposition, Kronecker products, matrix products
-/
namespace LDT
namespace Mx
variable {α : Type}

/-! ## C58: transposition -/

/-- Transposing into a matrix of the transposed shape; every other shape is rejected. -/
theorem C58_transpose_to (this storage : Mat α) (wt : this.Wf) (ws : storage.Wf) :
    (storage.rows = this.cols → storage.cols = this.rows →
      ∃ res, this.transposeTo storage = .ok res ∧ SameShape storage res ∧
        ∀ i j, this.InR i j → res.get j i = this.get i j) ∧
    (storage.rows ≠ this.cols ∨ storage.cols ≠ this.rows → this.transposeTo storage = .throws) := by
  constructor
  · intro hr hc
    obtain ⟨res, e, s, h⟩ := loop_inv (a := 0) (b := this.rows) wt.rows_nonneg
      (fun s i => (upTo 0 this.cols).foldlM (fun s j => do
        let v ← this.get0 i j
        s.set0 j i v) s)
      (fun i s => SameShape storage s ∧ ∀ a b, this.InR a b → a < i → s.get0 b a = this.get0 a b) (s := storage)
      ⟨SameShape.refl _, fun a b h1 h2 => by have := h1.1; omega⟩
      (by
        intro i h0 h1 s ⟨hs, hd⟩
        obtain ⟨s', e, hs', hd'⟩ := loop_inv (a := 0) (b := this.cols) wt.cols_nonneg
          (fun (s : Mat α) j => do
            let v ← this.get0 i j
            s.set0 j i v)
          (fun j s => SameShape storage s ∧
            ∀ a b, this.InR a b → a < i ∨ (a = i ∧ b < j) → s.get0 b a = this.get0 a b) (s := s)
          ⟨hs, fun a b h2 h3 => by
            rcases h3 with h3 | h3
            · exact hd a b h2 h3
            · have := h2.2.2.1; omega⟩
          (by
            intro j hj0 hj1 s ⟨hs, hd⟩
            obtain ⟨v, hv⟩ := get0_ok wt (i := i) (j := j) ⟨h0, h1, hj0, hj1⟩
            have hin : s.InR j i := ⟨hj0, by rw [hs.rows, hr]; exact hj1, h0, by rw [hs.cols, hc]; exact h1⟩
            obtain ⟨s', e, ss, c⟩ := set0_spec (hs.wf ws) hin v
            refine ⟨s', by rw [hv, Outcome.ok_bind, e], hs.trans ss, ?_⟩
            intro a b hab hor
            have hin' : s.InR b a := ⟨hab.2.2.1, by rw [hs.rows, hr]; exact hab.2.2.2, hab.1, by
              rw [hs.cols, hc]; exact hab.2.1⟩
            rw [c b a hin']
            split_ifs with hx
            · rw [hx.1, hx.2, hv]
            · exact hd a b hab (by omega))
        exact ⟨s', e, hs', fun a b hab hlt => hd' a b hab (by have := hab.2.2.2; omega)⟩)
    refine ⟨res, ?_, s, ?_⟩
    · unfold Mat.transposeTo Mat.transpose0
      rw [if_neg (by omega), e]
    · intro i j hij
      have hin : storage.InR j i := ⟨hij.2.2.1, by rw [hr]; exact hij.2.2.2, hij.1, by rw [hc]; exact hij.2.1⟩
      rw [get_eq_get0 (s.wf ws) (s.inR.2 hin), get_eq_get0 wt hij]
      exact h i j hij hij.2.1
  · intro h
    unfold Mat.transposeTo
    rw [if_pos h]

/-- In-place transposition: for every square matrix and every non-empty rectangular one the loop ends (within as
many rounds per cycle as there are cells), the shape is exchanged, cell `(i, j)` is found at `(j, i)`, and memory
behind the matrix is untouched. -/
theorem C58_transpose_in (m : Mat α) (w : m.Wf) (h : m.rows = m.cols ∨ 0 < m.length) (fuel : Nat)
    (hf : m.length ≤ fuel) :
    ∃ res, m.transposeIn fuel = .ok res ∧ res.Wf ∧ res.rows = m.cols ∧ res.cols = m.rows ∧
      (∀ i j, m.InR i j → res.get j i = m.get i j) ∧
      (∀ k : Nat, m.length ≤ k → res.mem[k]? = m.mem[k]?) := by
  have main : ∃ l, m.transposeIn fuel = .ok { rows := m.cols, cols := m.rows, data := some l } ∧
      l.length = m.mem.length ∧
      (∀ a b, m.InR a b → read l (b + m.cols * a) = read m.mem (a + m.rows * b)) ∧
      ∀ k, m.length ≤ k → read l k = read m.mem k := by
    unfold Mat.transposeIn
    by_cases hsq : m.rows = m.cols
    · rw [if_pos hsq]
      obtain ⟨l, e, h1, h2, h3⟩ := transposeSquare_spec m w hsq
      refine ⟨l, ?_, h1, ?_, h3⟩
      · rw [e, hsq]
      · rw [← hsq]; exact h2
    · rw [if_neg hsq]
      exact transposeCycles_spec m w (by rcases h with h | h; exact absurd h hsq; exact h) fuel hf
  obtain ⟨l, e, hl, hc, hr⟩ := main
  have wf : (⟨m.cols, m.rows, some l⟩ : Mat α).Wf :=
    ⟨w.cols_nonneg, w.rows_nonneg, rfl, by show m.cols * m.rows ≤ (l.length : Int); rw [hl, mul_comm]; exact w.size⟩
  refine ⟨_, e, wf, rfl, rfl, ?_, ?_⟩
  · intro i j hij
    rw [get_eq_get0 wf ⟨hij.2.2.1, hij.2.2.2, hij.1, hij.2.1⟩, get_eq_get0 w hij]
    exact hc i j hij
  · intro k hk
    have hk' := hr k hk
    show l[k]? = _
    unfold read at hk'
    rw [if_pos (by omega), if_pos (by omega), Int.toNat_natCast] at hk'
    by_cases hlt : k < l.length
    · have hlt' : k < m.mem.length := by omega
      rw [List.getElem?_eq_getElem hlt, List.getElem?_eq_getElem hlt'] at hk' ⊢
      simp only [Outcome.ok.injEq] at hk'; rw [hk']
    · rw [List.getElem?_eq_none (by omega), List.getElem?_eq_none (by omega)]

/-- Transposing twice gives back every cell. -/
theorem C58_transpose_twice (m : Mat α) (w : m.Wf) (h : m.rows = m.cols ∨ 0 < m.length) (fuel : Nat)
    (hf : m.length ≤ fuel) :
    ∃ t res, m.transposeIn fuel = .ok t ∧ t.transposeIn fuel = .ok res ∧ res.rows = m.rows ∧ res.cols = m.cols ∧
      ∀ i j, m.InR i j → res.get i j = m.get i j := by
  obtain ⟨t, e, wt, h1, h2, h3, _⟩ := C58_transpose_in m w h fuel hf
  have hl : t.length = m.length := by unfold Mat.length; rw [h1, h2, mul_comm]
  obtain ⟨res, e', _, h1', h2', h3', _⟩ := C58_transpose_in t wt (by rw [hl, h1, h2]; tauto) fuel (by rw [hl]; exact hf)
  refine ⟨t, res, e, e', by rw [h1', h2], by rw [h2', h1], fun i j hij => ?_⟩
  rw [h3' j i ⟨hij.2.2.1, by rw [h1]; exact hij.2.2.2, hij.1, by rw [h2]; exact hij.2.1⟩, h3 i j hij]

example : ∃ res, (⟨2, 3, some [1, 2, 3, 4, 5, 6]⟩ : Mat Nat).transposeIn 6 = .ok res ∧
    res = ⟨3, 2, some [1, 3, 5, 2, 4, 6]⟩ := ⟨_, rfl, by decide +kernel⟩
example : (⟨2, 3, some [1, 2, 3, 4, 5, 6]⟩ : Mat Nat).Wf :=
  ⟨by decide, by decide, by decide, by decide⟩

/-- A matrix without cells that is not square cannot be transposed in place: an exception. -/
theorem C58_transpose_in_empty (m : Mat α) (h : m.length ≤ 0) (hne : m.rows ≠ m.cols) (fuel : Nat) :
    m.transposeIn fuel = .throws := by
  unfold Mat.transposeIn Mat.transposeCycles
  rw [if_neg hne, if_pos (by omega)]

/-! ## C59: Kronecker products -/

section Kron
variable [MulZeroOneClass α]

/-- `A ⊗ B`: block `(i, j)` is `A(i, j) B`; a storage of another shape is rejected. -/
theorem C59_kron (A B S : Mat α) (wa : A.Wf) (wb : B.Wf) (ws : S.Wf) :
    (S.rows = A.rows * B.rows → S.cols = A.cols * B.cols →
      ∃ res, A.kron B S = .ok res ∧ SameShape S res ∧
        ∀ i j ii jj a b, A.InR i j → B.InR ii jj → A.get i j = .ok a → B.get ii jj = .ok b →
          res.get (i * B.rows + ii) (j * B.cols + jj) = .ok (a * b)) ∧
    (S.rows ≠ A.rows * B.rows ∨ S.cols ≠ A.cols * B.cols → A.kron B S = .throws) := by
  constructor
  · intro hr hc
    obtain ⟨res, r, e, s, h⟩ := kronLoops_spec A.rows B.rows A.cols B.cols wa.rows_nonneg wb.rows_nonneg wa.cols_nonneg
      wb.cols_nonneg (fun i ii j jj => mulO (A.get0 i j) (B.get0 ii jj)) (fun i ii j jj => A.val i j * B.val ii jj)
      (by
        intro i ii j jj h1 h2 h3 h4 h5 h6 h7 h8
        unfold mulO
        rw [get0_val wa ⟨h1, h2, h5, h6⟩, Outcome.ok_bind, get0_val wb ⟨h3, h4, h7, h8⟩]; rfl) S ws hr hc
    refine ⟨res, ?_, s, ?_⟩
    · unfold Mat.kron Mat.kron0
      rw [if_neg (by omega), e]; rfl
    · intro i j ii jj a b hA hB ha hb
      rw [get_val wa hA, Outcome.ok.injEq] at ha
      rw [get_val wb hB, Outcome.ok.injEq] at hb
      have hin : S.InR (i * B.rows + ii) (j * B.cols + jj) := by
        refine ⟨?_, by rw [hr]; exact block_lt hA.2.1 hB.1 hB.2.1, ?_, by rw [hc]; exact block_lt hA.2.2.2 hB.2.2.1 hB.2.2.2⟩
        · have := mul_nonneg hA.1 wb.rows_nonneg; have := hB.1; omega
        · have := mul_nonneg hA.2.2.1 wb.cols_nonneg; have := hB.2.2.1; omega
      rw [get_eq_get0 (s.wf ws) (s.inR.2 hin), h i ii j jj hA.1 hA.2.1 hB.1 hB.2.1 hA.2.2.1 hA.2.2.2 hB.2.2.1 hB.2.2.2,
        ha, hb]
  · intro h
    unfold Mat.kron
    rw [if_pos (by omega)]

/-- `A ⊗ I`. -/
theorem C59_kron_iden (A S : Mat α) (wa : A.Wf) (ws : S.Wf) (h : Int) (hh : 0 ≤ h) :
    (S.rows = A.rows * h → S.cols = A.cols * h →
      ∃ res, A.kronIden h S = .ok res ∧ SameShape S res ∧
        ∀ i j ii jj a, A.InR i j → 0 ≤ ii → ii < h → 0 ≤ jj → jj < h → A.get i j = .ok a →
          res.get (i * h + ii) (j * h + jj) = .ok (if ii = jj then a else 0)) ∧
    (S.rows ≠ A.rows * h ∨ S.cols ≠ A.cols * h → A.kronIden h S = .throws) := by
  constructor
  · intro hr hc
    obtain ⟨res, r, e, s, hv⟩ := kronLoops_spec A.rows h A.cols h wa.rows_nonneg hh wa.cols_nonneg
      hh (fun i ii j jj => mulO (A.get0 i j) (iden ii jj)) (fun i ii j jj => if ii = jj then A.val i j else 0)
      (by
        intro i ii j jj h1 h2 h3 h4 h5 h6 h7 h8
        unfold mulO iden
        rw [get0_val wa ⟨h1, h2, h5, h6⟩, Outcome.ok_bind, Outcome.ok_bind]
        split_ifs <;> simp) S ws hr hc
    refine ⟨res, ?_, s, ?_⟩
    · unfold Mat.kronIden Mat.kronIden0
      rw [if_neg (by omega), e]; rfl
    · intro i j ii jj a hA h3 h4 h7 h8 ha
      rw [get_val wa hA, Outcome.ok.injEq] at ha
      have hin : S.InR (i * h + ii) (j * h + jj) := by
        refine ⟨?_, by rw [hr]; exact block_lt hA.2.1 h3 h4, ?_, by rw [hc]; exact block_lt hA.2.2.2 h7 h8⟩
        · have := mul_nonneg hA.1 hh; omega
        · have := mul_nonneg hA.2.2.1 hh; omega
      rw [get_eq_get0 (s.wf ws) (s.inR.2 hin), hv i ii j jj hA.1 hA.2.1 h3 h4 hA.2.2.1 hA.2.2.2 h7 h8, ha]
  · intro h'
    unfold Mat.kronIden
    rw [if_pos (by omega)]

/-- `I ⊗ A`: `A` on the block diagonal. -/
theorem C59_iden_kron (A S : Mat α) (wa : A.Wf) (ws : S.Wf) (h : Int) (hh : 0 ≤ h) :
    (S.rows = A.rows * h → S.cols = A.cols * h →
      ∃ res, A.idenKron h S = .ok res ∧ SameShape S res ∧
        ∀ i j ii jj a, A.InR i j → 0 ≤ ii → ii < h → 0 ≤ jj → jj < h → A.get i j = .ok a →
          res.get (ii * A.rows + i) (jj * A.cols + j) = .ok (if ii = jj then a else 0)) ∧
    (S.rows ≠ A.rows * h ∨ S.cols ≠ A.cols * h → A.idenKron h S = .throws) := by
  constructor
  · intro hr hc
    obtain ⟨res, r, e, s, hv⟩ := kronLoops_spec h A.rows h A.cols hh wa.rows_nonneg hh wa.cols_nonneg
      (fun ii i jj j => mulO (A.get0 i j) (iden ii jj)) (fun ii i jj j => if ii = jj then A.val i j else 0)
      (by
        intro ii i jj j h3 h4 h1 h2 h7 h8 h5 h6
        unfold mulO iden
        rw [get0_val wa ⟨h1, h2, h5, h6⟩, Outcome.ok_bind, Outcome.ok_bind]
        split_ifs <;> simp) S ws (by rw [hr, mul_comm]) (by rw [hc, mul_comm])
    refine ⟨res, ?_, s, ?_⟩
    · unfold Mat.idenKron Mat.idenKron0
      rw [if_neg (by omega), e]; rfl
    · intro i j ii jj a hA h3 h4 h7 h8 ha
      rw [get_val wa hA, Outcome.ok.injEq] at ha
      have hin : S.InR (ii * A.rows + i) (jj * A.cols + j) := by
        refine ⟨?_, by rw [hr, mul_comm A.rows h]; exact block_lt h4 hA.1 hA.2.1, ?_, by
          rw [hc, mul_comm A.cols h]; exact block_lt h8 hA.2.2.1 hA.2.2.2⟩
        · have := mul_nonneg h3 wa.rows_nonneg; have := hA.1; omega
        · have := mul_nonneg h7 wa.cols_nonneg; have := hA.2.2.1; omega
      rw [get_eq_get0 (s.wf ws) (s.inR.2 hin), hv ii i jj j h3 h4 hA.1 hA.2.1 h7 h8 hA.2.2.1 hA.2.2.2, ha]
  · intro h'
    unfold Mat.idenKron
    rw [if_pos (by omega)]

/-- `A' ⊗ I`. -/
theorem C59_tr_kron_iden (A S : Mat α) (wa : A.Wf) (ws : S.Wf) (h : Int) (hh : 0 ≤ h) :
    (S.rows = A.cols * h → S.cols = A.rows * h →
      ∃ res, A.trKronIden h S = .ok res ∧ SameShape S res ∧
        ∀ i j ii jj a, A.InR j i → 0 ≤ ii → ii < h → 0 ≤ jj → jj < h → A.get j i = .ok a →
          res.get (i * h + ii) (j * h + jj) = .ok (if ii = jj then a else 0)) ∧
    (S.rows ≠ A.cols * h ∨ S.cols ≠ A.rows * h → A.trKronIden h S = .throws) := by
  constructor
  · intro hr hc
    obtain ⟨res, r, e, s, hv⟩ := kronLoops_spec A.cols h A.rows h wa.cols_nonneg hh wa.rows_nonneg
      hh (fun i ii j jj => mulO (A.get0 j i) (iden ii jj)) (fun i ii j jj => if ii = jj then A.val j i else 0)
      (by
        intro i ii j jj h1 h2 h3 h4 h5 h6 h7 h8
        unfold mulO iden
        rw [get0_val wa ⟨h5, h6, h1, h2⟩, Outcome.ok_bind, Outcome.ok_bind]
        split_ifs <;> simp) S ws hr hc
    refine ⟨res, ?_, s, ?_⟩
    · unfold Mat.trKronIden Mat.trKronIden0
      rw [if_neg (by omega), e]; rfl
    · intro i j ii jj a hA h3 h4 h7 h8 ha
      rw [get_val wa hA, Outcome.ok.injEq] at ha
      have hin : S.InR (i * h + ii) (j * h + jj) := by
        refine ⟨?_, by rw [hr]; exact block_lt hA.2.2.2 h3 h4, ?_, by rw [hc]; exact block_lt hA.2.1 h7 h8⟩
        · have := mul_nonneg hA.2.2.1 hh; omega
        · have := mul_nonneg hA.1 hh; omega
      rw [get_eq_get0 (s.wf ws) (s.inR.2 hin), hv i ii j jj hA.2.2.1 hA.2.2.2 h3 h4 hA.1 hA.2.1 h7 h8, ha]
  · intro h'
    unfold Mat.trKronIden
    rw [if_pos (by omega)]

end Kron

example : ∃ res, (⟨1, 2, some [2, 3]⟩ : Mat Int).kron ⟨2, 1, some [5, 7]⟩ ⟨2, 2, some [0, 0, 0, 0]⟩ = .ok res ∧
    res.data = some [10, 14, 15, 21] := ⟨_, rfl, by decide +kernel⟩
example : ∃ res, (⟨1, 2, some [2, 3]⟩ : Mat Int).trKronIden 2 ⟨4, 2, some [9, 9, 9, 9, 9, 9, 9, 9]⟩ = .ok res ∧
    res.data = some [2, 0, 3, 0, 0, 2, 0, 3] := ⟨_, rfl, by decide +kernel⟩
example : ∃ res, (⟨1, 2, some [2, 3]⟩ : Mat Int).idenKron 2 ⟨2, 4, some [9, 9, 9, 9, 9, 9, 9, 9]⟩ = .ok res ∧
    res.data = some [2, 0, 3, 0, 0, 2, 0, 3] := ⟨_, rfl, by decide +kernel⟩

end Mx
end LDT
