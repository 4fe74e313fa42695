import Verif.Props.Matrix
import Verif.Props.MatrixOps
import Verif.Lemmas.Poly
/-!
# C33 and C44, continued: linear writes, reshaping, reading rows and columns, reordering columns
-/
namespace LDT
namespace Mx

variable {α : Type}

/-- A write through the linear index is the write to the cell with that index; other indexes are rejected. -/
theorem C33_set_linear (m : Mat α) (w : m.Wf) (v : α) :
    (∀ i j, m.InR i j → m.setLin (i + m.rows * j) v = m.set i j v) ∧
    (∀ k, k < 0 ∨ m.length ≤ k → m.setLin k v = .throws) := by
  constructor
  · intro i j h
    have b := idx_bounds h.1 h.2.1 h.2.2.1 h.2.2.2
    obtain ⟨h1, h2, h3, h4⟩ := h
    unfold Mat.setLin Mat.set Mat.set0
    rw [if_neg (by rw [w.data_eq]; simp), if_neg (by unfold Mat.length; omega),
      if_neg (by rw [w.data_eq]; simp), if_neg (by omega)]
  · intro k hk
    unfold Mat.setLin
    split_ifs <;> first | rfl | (exfalso; omega)

/-- Reshaping is accepted for exactly the shapes with the same number of cells, and the linear order of the
cells is kept. -/
theorem C33_restructure (m : Mat α) (r c : Int) :
    (r * c = m.length → ∃ m', m.restructure r c = .ok m' ∧ m'.rows = r ∧ m'.cols = c ∧
      ∀ k, m'.getLin k = m.getLin k) ∧
    (r * c ≠ m.length → m.restructure r c = .throws) := by
  unfold Mat.restructure Mat.length
  constructor
  · intro h
    rw [if_neg (by simpa using h)]
    refine ⟨_, rfl, rfl, rfl, fun k => ?_⟩
    unfold Mat.getLin Mat.length Mat.mem
    simp only [h]
  · intro h; rw [if_pos h]

example : ∃ m', (⟨2, 3, some [1, 2, 3, 4, 5, 6]⟩ : Mat Nat).restructure 3 2 = .ok m' ∧ m'.get 2 0 = .ok 3 :=
  ⟨_, rfl, by decide +kernel⟩

/-- Copying values into the first cells of a vector. -/
theorem fillLin_spec (storage : Mat α) (w : storage.Wf) (n : Int) (hn : 0 ≤ n) (hl : storage.length = n)
    (g : Int → Outcome α) (hg : ∀ k, 0 ≤ k → k < n → ∃ v, g k = .ok v) :
    ∃ res, (upTo 0 n).foldlM (fun (d : Mat α) j => do
        let v ← g j
        let l ← write d.mem j v
        pure { d with data := some l }) storage = .ok res ∧ SameShape storage res ∧
      ∀ k, 0 ≤ k → k < n → res.getLin k = g k := by
  unfold Mat.length at hl
  have hsz := w.size
  obtain ⟨res, e, s, c⟩ := loop_inv (a := 0) (b := n) hn (fun (d : Mat α) j => do
        let v ← g j
        let l ← write d.mem j v
        pure { d with data := some l })
    (fun i (d : Mat α) => SameShape storage d ∧ ∀ k, 0 ≤ k → k < i → read d.mem k = g k) (s := storage)
    ⟨SameShape.refl _, fun k h1 h2 => by omega⟩
    (fun i h1 h2 d ⟨s, c⟩ => by
      obtain ⟨v, hv⟩ := hg i h1 h2
      have hlen : i < d.mem.length := by rw [s.len]; omega
      refine ⟨{ d with data := some (d.mem.set i.toNat v) }, ?_, ⟨s.rows, s.cols, ?_, ?_, ?_⟩, ?_⟩
      · simp only [hv, Outcome.ok_bind, write_ok_of v h1 hlen]; rfl
      · rw [w.data_eq]; rfl
      · show (d.mem.set _ v).length = _
        rw [List.length_set, s.len]
      · intro k hk
        show (d.mem.set _ v)[k]? = _
        rw [List.getElem?_set_ne (by omega)]; exact s.rest k hk
      · intro k h3 h4
        show read (d.mem.set _ v) k = _
        rw [read_set v h1 hlen]
        split_ifs with hki
        · rw [hki, hv]
        · exact c k h3 (by omega))
  refine ⟨res, e, s, fun k h1 h2 => ?_⟩
  have wr := s.wf w
  unfold Mat.getLin Mat.length
  rw [if_neg (by rw [wr.data_eq]; simp), if_neg (by rw [s.rows, s.cols]; omega)]
  exact c k h1 h2

/-- Reading a row gives its cells in order; a missing row or a storage of another length is rejected. -/
theorem C44_get_row (this storage : Mat α) (wt : this.Wf) (ws : storage.Wf) (i : Int) :
    (0 ≤ i → i < this.rows → storage.length = this.cols →
      ∃ res, this.getRow i storage = .ok res ∧ SameShape storage res ∧
        ∀ j, 0 ≤ j → j < this.cols → res.getLin j = this.get i j) ∧
    (i < 0 ∨ this.rows ≤ i ∨ storage.length ≠ this.cols → this.getRow i storage = .throws) := by
  constructor
  · intro h0 h1 hl
    unfold Mat.getRow
    rw [if_neg (by omega), if_neg (by simpa using hl)]
    obtain ⟨res, e, s, c⟩ := fillLin_spec storage ws this.cols wt.cols_nonneg hl (fun j => read this.mem (i + this.rows * j))
      (fun k a b => get0_ok wt ⟨h0, h1, a, b⟩)
    exact ⟨res, e, s, fun j a b => by rw [c j a b, get_eq_get0 wt ⟨h0, h1, a, b⟩]; rfl⟩
  · intro h
    unfold Mat.getRow
    split_ifs <;> first | rfl | (exfalso; omega)

/-- Reading a column gives its cells in order. -/
theorem C44_get_column (this storage : Mat α) (wt : this.Wf) (ws : storage.Wf) (j : Int) :
    (0 ≤ j → j < this.cols → storage.length = this.rows →
      ∃ res, this.getColumn j storage = .ok res ∧ SameShape storage res ∧
        ∀ i, 0 ≤ i → i < this.rows → res.getLin i = this.get i j) ∧
    (j < 0 ∨ this.cols ≤ j ∨ storage.length ≠ this.rows → this.getColumn j storage = .throws) := by
  constructor
  · intro h0 h1 hl
    unfold Mat.getColumn
    rw [if_neg (by omega), if_neg (by simpa using hl)]
    obtain ⟨res, e, s, c⟩ := fillLin_spec storage ws this.rows wt.rows_nonneg hl (fun i => read this.mem (this.rows * j + i))
      (fun k a b => by rw [add_comm]; exact get0_ok wt ⟨a, b, h0, h1⟩)
    exact ⟨res, e, s, fun i a b => by
      rw [c i a b, get_eq_get0 wt ⟨a, b, h0, h1⟩]; unfold Mat.get0; rw [add_comm]⟩
  · intro h
    unfold Mat.getColumn
    split_ifs <;> first | rfl | (exfalso; omega)

example : ∃ res, (⟨2, 3, some [1, 2, 3, 4, 5, 6]⟩ : Mat Nat).getRow 1 ⟨3, 1, some [0, 0, 0]⟩ = .ok res ∧
    res.data = some [2, 4, 6] := ⟨_, rfl, by decide +kernel⟩
example : ∃ res, (⟨2, 3, some [1, 2, 3, 4, 5, 6]⟩ : Mat Nat).getColumn 1 ⟨2, 1, some [0, 0]⟩ = .ok res ∧
    res.data = some [3, 4] := ⟨_, rfl, by decide +kernel⟩

theorem sortColumns_fold (this : Mat α) (wt : this.Wf) (storage0 : Mat α) (w0 : storage0.Wf)
    (hr : storage0.cols = this.cols) (hc : storage0.rows = this.rows) :
    ∀ (idx : List Int), (∀ x ∈ idx, 0 ≤ x ∧ x < this.cols) → ∀ (p : Nat) (storage : Mat α),
      SameShape storage0 storage → (p : Int) + idx.length ≤ this.cols →
      ∃ res, (countFrom p idx).foldlM (fun (d : Mat α) ji => d.setColumnFromColumn ji.1 this ji.2) storage = .ok res ∧
        SameShape storage0 res ∧
        (∀ (a : Nat) (x j : Int), idx[a]? = some x → 0 ≤ j → j < this.rows → res.get j (p + a) = this.get j x) ∧
        (∀ i j, this.InR i j → j < p → res.get i j = storage.get i j) := by
  intro idx
  induction idx with
  | nil => intro _ p st s _; exact ⟨st, rfl, s, by simp, fun _ _ _ _ => rfl⟩
  | cons x idx ih =>
    intro hin p st s hlen
    have wst := s.wf w0
    simp only [List.length_cons] at hlen
    push_cast at hlen
    have hx := hin x (by simp)
    obtain ⟨r1, e1, s1, v1, o1⟩ := (C44_set_column_from_column_partial st this wst wt p x (by rw [s.rows, hc])).1
      (by omega) (by rw [s.cols, hr]; omega) hx.1 hx.2
    obtain ⟨res, e, sh, v, o⟩ := ih (fun y hy => hin y (List.mem_cons_of_mem _ hy)) (p + 1) r1 (s.trans s1)
      (by push_cast; omega)
    refine ⟨res, ?_, sh, ?_, ?_⟩
    · rw [countFrom, List.foldlM_cons]
      simp only [e1, Outcome.ok_bind]
      push_cast at e; exact e
    · intro a y j ha hj0 hj1
      cases a with
      | zero =>
        simp at ha; subst ha
        rw [show (p : Int) + ((0 : Nat) : Int) = p by simp, o j p ⟨hj0, hj1, by omega, by omega⟩ (by push_cast; omega)]
        exact v1 j hj0 (by rw [s.rows, hc]; exact hj1)
      | succ a =>
        have := v a y j (by simpa using ha) hj0 hj1
        push_cast at this ⊢
        rw [← this]; congr 1; ring
    · intro i j hij hlt
      rw [o i j hij (by push_cast; omega)]
      exact o1 i j ⟨hij.1, by rw [s.rows, hc]; exact hij.2.1, hij.2.2.1, by rw [s.cols, hr]; exact hij.2.2.2⟩ (by omega)

theorem sortColumns_throws (this : Mat α) (wt : this.Wf) (storage0 : Mat α) (w0 : storage0.Wf)
    (hr : storage0.cols = this.cols) (hc : storage0.rows = this.rows) :
    ∀ (idx : List Int), (∀ x ∈ idx, x < this.cols) → (∃ x ∈ idx, x < 0) → ∀ (p : Nat) (storage : Mat α),
      SameShape storage0 storage → (p : Int) + idx.length ≤ this.cols →
      (countFrom p idx).foldlM (fun (d : Mat α) ji => d.setColumnFromColumn ji.1 this ji.2) storage = .throws := by
  intro idx
  induction idx with
  | nil => intro _ h; simp at h
  | cons x idx ih =>
    intro hin hneg p st s hlen
    have wst := s.wf w0
    simp only [List.length_cons] at hlen
    push_cast at hlen
    rw [countFrom, List.foldlM_cons]
    simp only
    by_cases hx : x < 0
    · rw [(C44_set_column_from_column_partial st this wst wt p x (by rw [s.rows, hc])).2 (by omega)]; rfl
    · obtain ⟨r1, e1, s1, _, _⟩ := (C44_set_column_from_column_partial st this wst wt p x (by rw [s.rows, hc])).1
        (by omega) (by rw [s.cols, hr]; omega) (by omega) (hin x (by simp))
      rw [e1, Outcome.ok_bind]
      have := ih (fun y hy => hin y (List.mem_cons_of_mem _ hy)) (by
        obtain ⟨y, hy, hy0⟩ := hneg
        rcases List.mem_cons.1 hy with rfl | hy
        · exact absurd hy0 hx
        · exact ⟨y, hy, hy0⟩) (p + 1) r1 (s.trans s1) (by push_cast; omega)
      push_cast at this; exact this

/-- Reordering columns by an index list: column `a` of the result is column `idx[a]`; any other list is
rejected. -/
theorem C44_sort_columns_partial (this storage : Mat α) (wt : this.Wf) (ws : storage.Wf) (idx : List Int)
    (hr : storage.cols = this.cols) (hc : storage.rows = this.rows) (hpos : 0 < this.cols) :
    ((idx.length : Int) = this.cols → (∀ x ∈ idx, 0 ≤ x ∧ x < this.cols) →
      ∃ res, this.sortColumnsBy storage idx = .ok res ∧ SameShape storage res ∧
        ∀ (a : Nat) (x j : Int), idx[a]? = some x → 0 ≤ j → j < this.rows → res.get j a = this.get j x) ∧
    ((idx.length : Int) ≠ this.cols ∨ (∃ x ∈ idx, x < 0 ∨ this.cols ≤ x) →
      this.sortColumnsBy storage idx = .throws) := by
  constructor
  · intro hl hin
    unfold Mat.sortColumnsBy
    rw [if_neg (by rw [hr, hc]; simp), if_neg (by omega)]
    cases hm : maxElem idx with
    | none =>
      cases idx with
      | nil => simp at hl; omega
      | cons a l => simp [maxElem] at hm
    | some mx =>
      simp only
      have hmx := hin mx (le_maxElem idx mx hm).2
      rw [if_neg (by rw [hr]; omega)]
      obtain ⟨res, e, s, v, _⟩ := sortColumns_fold this wt storage ws hr hc idx hin 0 storage (SameShape.refl _)
        (by push_cast; omega)
      refine ⟨res, e, s, ?_⟩
      intro a x j h1 h2 h3
      have := v a x j h1 h2 h3
      simpa using this
  · intro h
    unfold Mat.sortColumnsBy
    rw [if_neg (by rw [hr, hc]; simp)]
    by_cases hl : (idx.length : Int) ≠ this.cols
    · rw [if_pos hl]
    · rw [if_neg hl]
      obtain ⟨x, hx, hbad⟩ : ∃ x ∈ idx, x < 0 ∨ this.cols ≤ x := by
        rcases h with h | h
        · exact absurd h hl
        · exact h
      cases hm : maxElem idx with
      | none =>
        cases idx with
        | nil => simp at hx
        | cons a l => simp [maxElem] at hm
      | some mx =>
        simp only
        obtain ⟨hle, hmem⟩ := le_maxElem idx mx hm
        by_cases hmx : mx > storage.cols - 1
        · rw [if_pos hmx]
        · rw [if_neg hmx]
          rw [hr] at hmx
          refine sortColumns_throws this wt storage ws hr hc idx (fun y hy => ?_) ⟨x, hx, ?_⟩ 0 storage
            (SameShape.refl _) (by push_cast; omega)
          · have := hle y hy; omega
          · have := hle x hx; omega

end Mx
end LDT
