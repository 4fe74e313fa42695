import Verif.Model.DataSplit
import Verif.Props.MatrixOps
/-! Lemmas about filling the two samples. -/
namespace LDT
namespace Split
open Mx

variable {α : Type}

/-- Two samples over one storage that is large enough, of which the first `I0.length` rows of the first and
the first `I1.length` rows of the second hold the rows `I0` and `I1` of the data. -/
structure Filled (data : Mat α) (len : Nat) (n0 n1 : Int) (s : Samples α) (I0 I1 : List Int) : Prop where
  e0 : s.n0 = n0
  e1 : s.n1 = n1
  cols : s.cols = data.cols
  n0_nonneg : 0 ≤ n0
  n1_nonneg : 0 ≤ n1
  el : s.store.length = len
  size : (n0 + n1) * data.cols ≤ len
  c0 : ∀ (a : Nat) k, I0[a]? = some k → (a : Int) < n0 → ∀ j, 0 ≤ j → j < data.cols → s.s0.get0 a j = data.get0 k j
  c1 : ∀ (a : Nat) k, I1[a]? = some k → (a : Int) < n1 → ∀ j, 0 ≤ j → j < data.cols → s.s1.get0 a j = data.get0 k j

theorem setRow0_spec (this source : Mat α) (wt : this.Wf) (ws : source.Wf) (i k : Int)
    (hc : this.cols ≤ source.cols) (h0 : 0 ≤ i) (h1 : i < this.rows) (h2 : 0 ≤ k) (h3 : k < source.rows) :
    ∃ res, this.setRowFromRow0 i source k = .ok res ∧ SameShape this res ∧
        (∀ j, 0 ≤ j → j < this.cols → res.get0 i j = source.get0 k j) ∧
        (∀ i' j, this.InR i' j → i' ≠ i → res.get0 i' j = this.get0 i' j) := by
  obtain ⟨res, e, s, v, u⟩ := fold_set (fun j : Int => (i, j)) (fun j => source.get0 k j) (upTo 0 this.cols) this wt
    (fun j hj => ⟨h0, h1, (mem_upTo.1 hj).1, (mem_upTo.1 hj).2⟩)
    (fun j hj => get0_ok ws ⟨h2, h3, (mem_upTo.1 hj).1, by have := (mem_upTo.1 hj).2; omega⟩)
    (fun p _ q _ hpq => by simp only [Prod.mk.injEq] at hpq; rw [hpq.2])
  refine ⟨res, e, s, ?_, ?_⟩
  · intro j hj0 hj1
    exact v j (mem_upTo.2 ⟨hj0, hj1⟩)
  · intro i' j hin hne
    rw [u i' j hin]
    simp only [List.mem_map, Prod.mk.injEq, not_exists, not_and]
    rintro x - rfl; exact absurd rfl hne

variable {data : Mat α} {len : Nat} {n0 n1 : Int} {s : Samples α} {I0 I1 : List Int}

theorem Filled.wf0 (h : Filled data len n0 n1 s I0 I1) (wd : data.Wf) : s.s0.Wf := by
  refine ⟨by simpa [Samples.s0, h.e0] using h.n0_nonneg, by simpa [Samples.s0, h.cols] using wd.cols_nonneg, rfl, ?_⟩
  have := h.size
  have hm := mul_nonneg h.n1_nonneg wd.cols_nonneg
  simp only [Samples.s0, Mat.mem, Option.getD_some, h.e0, h.cols, h.el]
  linarith [add_mul n0 n1 data.cols]

theorem Filled.wf1 (h : Filled data len n0 n1 s I0 I1) (wd : data.Wf) : s.s1.Wf := by
  refine ⟨by simpa [Samples.s1, h.e1] using h.n1_nonneg, by simpa [Samples.s1, h.cols] using wd.cols_nonneg, rfl, ?_⟩
  have := h.size
  have hm := mul_nonneg h.n1_nonneg wd.cols_nonneg
  have hm0 := mul_nonneg h.n0_nonneg wd.cols_nonneg
  have e := add_mul n0 n1 data.cols
  simp only [Samples.s1, Mat.mem, Option.getD_some, h.e0, h.cols, h.e1, List.length_drop, h.el]
  generalize n0 * data.cols = x at *
  generalize n1 * data.cols = y at *
  omega

theorem read_drop (l : List α) (n : Nat) (k : Int) (h : 0 ≤ k) : read (l.drop n) k = read l (n + k) := by
  unfold Mx.read
  rw [if_pos h, if_pos (by omega), List.getElem?_drop, show ((n : Int) + k).toNat = n + k.toNat by omega]

theorem read_append_right (l l' : List α) (n : Nat) (k : Int) (hl : l.length = n) (h : 0 ≤ k) :
    read (l ++ l') (n + k) = read l' k := by
  unfold Mx.read
  rw [if_pos h, if_pos (by omega), List.getElem?_append_right (by omega),
    show ((n : Int) + k).toNat - l.length = k.toNat by omega]

theorem read_append_left (l l' : List α) (k : Int) (h : k < l.length) :
    read (l ++ l') k = read l k := by
  unfold Mx.read
  split_ifs with h0
  · rw [List.getElem?_append_left (by omega)]
  · rfl

theorem put0_step (wd : data.Wf) (h : Filled data len n0 n1 s I0 I1) (hl : (I0.length : Int) < n0) (k : Int)
    (hk0 : 0 ≤ k) (hk : k < data.rows) :
    ∃ s', s.put0 I0.length data k = .ok s' ∧ Filled data len n0 n1 s' (I0 ++ [k]) I1 := by
  obtain ⟨m, e, sh, v, u⟩ := setRow0_spec s.s0 data (h.wf0 wd) wd I0.length k
    (by simp [Samples.s0, h.cols]) (by omega) (by simpa [Samples.s0, h.e0] using hl) hk0 hk
  refine ⟨{ s with store := m.mem }, by unfold Samples.put0; rw [e]; rfl, ?_⟩
  have hm : ({ s with store := m.mem } : Samples α).s0.mem = m.mem := rfl
  have hlen : m.mem.length = s.store.length := sh.len
  have hget : ∀ i j, ({ s with store := m.mem } : Samples α).s0.get0 i j = m.get0 i j := by
    intro i j
    show read m.mem (i + s.n0 * j) = read m.mem (i + m.rows * j)
    rw [show m.rows = s.n0 from sh.rows]
  refine ⟨h.e0, h.e1, h.cols, h.n0_nonneg, h.n1_nonneg, by simpa [hlen] using h.el, h.size, ?_, ?_⟩
  · intro a k' hk' ha j hj0 hj1
    rw [hget]
    have hcol : j < s.s0.cols := by simpa [Samples.s0, h.cols] using hj1
    by_cases hc : a = I0.length
    · subst hc
      rw [List.getElem?_append_right (le_refl _)] at hk'
      simp at hk'
      subst hk'
      exact v j hj0 hcol
    · have hlt : a < I0.length := by
        have := lt_length_of_some hk'; simp at this; omega
      rw [List.getElem?_append_left hlt] at hk'
      rw [u a j ⟨by omega, by simpa [Samples.s0, h.e0] using ha, hj0, hcol⟩ (by omega)]
      exact h.c0 a k' hk' ha j hj0 hj1
  · intro a k' hk' ha j hj0 hj1
    rw [← h.c1 a k' hk' ha j hj0 hj1]
    show read (m.mem.drop (s.n0 * s.cols).toNat) (a + s.n1 * j) = read (s.store.drop (s.n0 * s.cols).toNat) (a + s.n1 * j)
    have hp : 0 ≤ (a : Int) + s.n1 * j := by
      have := mul_nonneg h.n1_nonneg hj0
      rw [h.e1]; omega
    rw [read_drop _ _ _ hp, read_drop _ _ _ hp]
    apply read_congr
    intro _
    apply sh.rest
    show s.n0 * s.cols ≤ _
    have := mul_nonneg h.n0_nonneg wd.cols_nonneg
    rw [← h.e0, ← h.cols] at this
    generalize s.n0 * s.cols = x at *
    omega

theorem put1_step (wd : data.Wf) (h : Filled data len n0 n1 s I0 I1) (hl : (I1.length : Int) < n1) (k : Int)
    (hk0 : 0 ≤ k) (hk : k < data.rows) :
    ∃ s', s.put1 I1.length data k = .ok s' ∧ Filled data len n0 n1 s' I0 (I1 ++ [k]) := by
  obtain ⟨m, e, sh, v, u⟩ := setRow0_spec s.s1 data (h.wf1 wd) wd I1.length k
    (by simp [Samples.s1, h.cols]) (by omega) (by simpa [Samples.s1, h.e1] using hl) hk0 hk
  refine ⟨_, by unfold Samples.put1; rw [e]; rfl, ?_⟩
  have hx := mul_nonneg h.n0_nonneg wd.cols_nonneg
  have hy := mul_nonneg h.n1_nonneg wd.cols_nonneg
  have hle : (s.n0 * s.cols).toNat ≤ s.store.length := by
    have := h.size
    rw [add_mul] at this
    rw [h.e0, h.cols, h.el]
    generalize n0 * data.cols = x at *
    generalize n1 * data.cols = y at *
    omega
  have htake : (s.store.take (s.n0 * s.cols).toNat).length = (s.n0 * s.cols).toNat := by simp [hle]
  have hmlen : m.mem.length = s.store.length - (s.n0 * s.cols).toNat := by
    rw [sh.len]; simp [Samples.s1, Mat.mem]
  set s' : Samples α := { s with store := s.store.take (s.n0 * s.cols).toNat ++ m.mem } with hs'
  have hget : ∀ i j, 0 ≤ i → 0 ≤ j → s'.s1.get0 i j = m.get0 i j := by
    intro i j hi hj
    show read ((s.store.take (s.n0 * s.cols).toNat ++ m.mem).drop (s.n0 * s.cols).toNat) (i + s.n1 * j) =
      read m.mem (i + m.rows * j)
    rw [List.drop_append_of_le_length (by omega), List.drop_eq_nil_of_le (by omega), List.nil_append,
      show m.rows = s.n1 from sh.rows]
  refine ⟨h.e0, h.e1, h.cols, h.n0_nonneg, h.n1_nonneg, ?_, h.size, ?_, ?_⟩
  · rw [hs', List.length_append, htake, hmlen, ← h.el]; omega
  · intro a k' hk' ha j hj0 hj1
    rw [← h.c0 a k' hk' ha j hj0 hj1]
    show read (s.store.take (s.n0 * s.cols).toNat ++ m.mem) (a + s.n0 * j) = read s.store (a + s.n0 * j)
    have hb := (idx_bounds (r := s.n0) (c := s.cols) (i := a) (j := j) (by omega) (by rw [h.e0]; exact ha) hj0
      (by rw [h.cols]; exact hj1))
    rw [read_append_left _ _ _ (by rw [htake]; omega)]
    apply read_congr
    intro h0
    rw [List.getElem?_take, if_pos (by omega)]
  · intro a k' hk' ha j hj0 hj1
    rw [hget _ _ (by omega) hj0]
    have hcol : j < s.s1.cols := by simpa [Samples.s1, h.cols] using hj1
    by_cases hc : a = I1.length
    · subst hc
      rw [List.getElem?_append_right (le_refl _)] at hk'
      simp at hk'
      subst hk'
      exact v j hj0 hcol
    · have hlt : a < I1.length := by
        have := lt_length_of_some hk'; simp at this; omega
      rw [List.getElem?_append_left hlt] at hk'
      rw [u a j ⟨by omega, by simpa [Samples.s1, h.e1] using ha, hj0, hcol⟩ (by omega)]
      exact h.c1 a k' hk' ha j hj0 hj1

/-- A fresh storage. -/
theorem Filled.start (data : Mat α) (storage : List α) (n0 : Int) (h0 : 0 ≤ n0) (h1 : n0 ≤ data.rows)
    (hs : data.rows * data.cols ≤ storage.length) :
    Filled data storage.length n0 (data.rows - n0) ⟨storage, n0, data.rows - n0, data.cols⟩ [] [] :=
  ⟨rfl, rfl, rfl, h0, by omega, rfl, by rw [show n0 + (data.rows - n0) = data.rows by omega]; exact hs, by simp,
    by simp⟩

end Split
end LDT
