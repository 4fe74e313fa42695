import Verif.Lemmas.MatrixRemove
namespace LDT
namespace Mx

variable {α : Type}

theorem mem_mapped (m : Mat α) (w : m.Wf) (r c : Int) (l' : List α) :
    (⟨r, c, m.data.map (fun _ => l')⟩ : Mat α).mem = l' := by
  have h := w.alloc
  unfold Mat.mem
  cases hd : m.data with
  | none => rw [hd] at h; simp at h
  | some l => rfl

/-! ## C43: removing values and columns in place -/

/-- Removing missing values from a vector keeps the other values, all of them, in order; a column vector
stays a column and a row vector a row. -/
theorem C43_remove_nan_vector (bad : α → Bool) (m : Mat α) (w : m.Wf) (good : List α)
    (hg : good = (m.mem.take m.length.toNat).filter (fun v => !bad v)) :
    ∃ res, m.removeNanVectorIn bad = .ok res ∧ res.length = good.length ∧
      (if m.cols > 1 then res.rows = 1 else res.cols = 1) ∧
      ∀ (k : Nat) (v : α), good[k]? = some v → res.getLin k = .ok v := by
  have hsz := w.size
  have hl : m.length = m.rows * m.cols := rfl
  obtain ⟨l', e, el, et⟩ := removeNanLoop_spec bad m.length.toNat 0 0 m.mem (le_refl _) (by omega)
  simp only [List.drop_zero, List.take_zero, List.nil_append, Nat.zero_add] at e et
  rw [← hg] at e et
  unfold Mat.removeNanVectorIn
  rw [show ((0 : Nat) : Int) = 0 from rfl] at e
  rw [e, Outcome.ok_bind]
  have hread : ∀ (k : Nat) (v : α), good[k]? = some v → read l' (k : Int) = .ok v := by
    intro k v hk
    rw [read_eq_ok]
    refine ⟨by omega, ?_⟩
    have hlt := lt_length_of_some hk
    rw [← et, List.getElem?_take_of_lt hlt] at hk
    simpa using hk
  simp only
  split_ifs with hc
  · refine ⟨_, rfl, by simp [Mat.length], rfl, ?_⟩
    intro k v hk
    have hlt := lt_length_of_some hk
    unfold Mat.getLin
    rw [if_neg (by simp [w.data_eq]), if_neg (by simp [Mat.length]; omega)]
    rw [mem_mapped m w]
    exact hread k v hk
  · refine ⟨_, rfl, by simp [Mat.length], rfl, ?_⟩
    intro k v hk
    have hlt := lt_length_of_some hk
    unfold Mat.getLin
    rw [if_neg (by simp [w.data_eq]), if_neg (by simp [Mat.length]; omega)]
    rw [mem_mapped m w]
    exact hread k v hk

theorem compact_start (rows : Int) (l : List α) : Compact rows l l 0 0 [] :=
  ⟨rfl, rfl, le_refl _, by simp, fun _ _ => rfl⟩

theorem compact_get (m : Mat α) (w : m.Wf) (l' : List α) (kept : List Int)
    (hc : Compact m.rows m.mem l' m.cols kept.length kept) (hin : ∀ j ∈ kept, 0 ≤ j ∧ j < m.cols)
    (i : Int) (b : Nat) (c : Int) (h0 : 0 ≤ i) (h1 : i < m.rows) (hb : kept[b]? = some c) :
    (⟨m.rows, kept.length, m.data.map (fun _ => l')⟩ : Mat α).get i b = m.get i c := by
  have hlt := lt_length_of_some hb
  have hcin := hin c (mem_of_some hb)
  rw [get_eq_get0 w ⟨h0, h1, hcin.1, hcin.2⟩]
  unfold Mat.get
  rw [if_neg (by simp [w.data_eq]), if_neg (by simp only; omega)]
  have := hc.front b c hb i h0 h1
  unfold Mat.get0
  rw [mem_mapped m w]
  simp only
  rw [show i + m.rows * (b : Int) = b * m.rows + i by ring, this,
    show i + m.rows * c = c * m.rows + i by ring]

/-- Removing listed columns keeps exactly the other columns, in order, with their contents. -/
theorem C43_remove_columns (m : Mat α) (w : m.Wf) (cols kept : List Int)
    (hk : kept = (upTo 0 m.cols).filter (fun j => decide (j ∉ cols))) :
    ∃ res, m.removeColumnsIn cols = .ok res ∧ res.rows = m.rows ∧ res.cols = kept.length ∧
      ∀ (i : Int) (b : Nat) (c : Int), 0 ≤ i → i < m.rows → kept[b]? = some c → res.get i b = m.get i c := by
  have hc0 := w.cols_nonneg
  unfold Mat.removeColumnsIn
  by_cases hn : cols = []
  · rw [if_pos hn]
    subst hn
    have hke : kept = upTo 0 m.cols := by rw [hk]; simp
    refine ⟨m, rfl, rfl, by rw [hke, length_upTo]; omega, ?_⟩
    intro i b c _ _ hb
    rw [hke, getElem?_upTo] at hb
    split_ifs at hb
    have := Option.some.inj hb
    rw [← this, zero_add]
  · rw [if_neg hn]
    have hsz := w.size
    obtain ⟨l', e, hc⟩ := removeColsLoop_spec m.rows w.rows_nonneg cols m.mem m.cols.toNat 0 0 [] m.mem
      (compact_start _ _) (by rw [zero_add, mul_comm, show ((m.cols.toNat : Nat) : Int) = m.cols by omega]; exact hsz)
    rw [zero_add, show ((m.cols.toNat : Nat) : Int) = m.cols by omega, List.nil_append, ← hk] at e hc
    rw [e, Outcome.ok_bind]
    refine ⟨_, rfl, rfl, rfl, ?_⟩
    intro i b c h0 h1 hb
    refine compact_get m w l' kept hc ?_ i b c h0 h1 hb
    intro j hj; rw [hk, List.mem_filter] at hj; exact mem_upTo.1 hj.1

/-- Removing columns with missing values keeps exactly the columns without them, in order. -/
theorem C43_remove_columns_nan (bad : α → Bool) (m : Mat α) (w : m.Wf) :
    ∃ (res : Mat α) (kept : List Int), m.removeColumnsAnyNanIn bad = .ok res ∧ res.rows = m.rows ∧ res.cols = kept.length ∧
      kept.Pairwise (· < ·) ∧
      (∀ j, j ∈ kept ↔ (0 ≤ j ∧ j < m.cols ∧ ∀ i, 0 ≤ i → i < m.rows → ∃ v, m.get i j = .ok v ∧ bad v = false)) ∧
      ∀ (i : Int) (b : Nat) (c : Int), 0 ≤ i → i < m.rows → kept[b]? = some c → res.get i b = m.get i c := by
  have hc0 := w.cols_nonneg
  have hsz := w.size
  obtain ⟨l', kept, e, hc, more, hm, hs, hmem⟩ := removeColsNanLoop_spec bad m.rows w.rows_nonneg m.mem m.cols.toNat
    0 0 [] m.mem (compact_start _ _)
    (by rw [zero_add, mul_comm, show ((m.cols.toNat : Nat) : Int) = m.cols by omega]; exact hsz)
  rw [List.nil_append] at hm
  subst hm
  rw [zero_add, show ((m.cols.toNat : Nat) : Int) = m.cols by omega] at hc hmem
  have hmem' : ∀ j, j ∈ kept ↔ (0 ≤ j ∧ j < m.cols ∧ ∀ i, 0 ≤ i → i < m.rows → ∃ v, m.get i j = .ok v ∧ bad v = false) := by
    intro j
    rw [hmem j]
    constructor
    · rintro ⟨a, b, c⟩
      refine ⟨a, b, fun i h0 h1 => ?_⟩
      obtain ⟨v, hv, hb⟩ := c i h0 h1
      refine ⟨v, ?_, hb⟩
      rw [get_eq_get0 w ⟨h0, h1, a, b⟩]; unfold Mat.get0
      rw [← hv]; congr 1; ring
    · rintro ⟨a, b, c⟩
      refine ⟨a, b, fun i h0 h1 => ?_⟩
      obtain ⟨v, hv, hb⟩ := c i h0 h1
      refine ⟨v, ?_, hb⟩
      rw [get_eq_get0 w ⟨h0, h1, a, b⟩] at hv; unfold Mat.get0 at hv
      rw [← hv]; congr 1; ring
  unfold Mat.removeColumnsAnyNanIn
  rw [e, Outcome.ok_bind]
  refine ⟨_, kept, rfl, rfl, rfl, hs, hmem', ?_⟩
  intro i b c h0 h1 hb
  exact compact_get m w l' kept hc (fun j hj => ⟨((hmem' j).1 hj).1, ((hmem' j).1 hj).2.1⟩) i b c h0 h1 hb

example : ∃ res, (⟨2, 3, some [some 1, some 2, none, some 4, some 5, some 6]⟩ : Mat (Option Nat)).removeColumnsAnyNanIn
    Option.isNone = .ok res ∧ res.cols = 2 ∧ res.get 0 1 = .ok (some 5) := ⟨_, rfl, by decide +kernel, by decide +kernel⟩

/-! ## C44: moving rows and columns -/

/-- Copying a row of a matrix with at least as many columns changes that row only. -/
theorem C44_set_row_from_row (this source : Mat α) (wt : this.Wf) (ws : source.Wf) (i k : Int)
    (hc : this.cols ≤ source.cols) :
    (0 ≤ i → i < this.rows → 0 ≤ k → k < source.rows →
      ∃ res, this.setRowFromRow i source k = .ok res ∧ SameShape this res ∧
        (∀ j, 0 ≤ j → j < this.cols → res.get i j = source.get k j) ∧
        (∀ i' j, this.InR i' j → i' ≠ i → res.get i' j = this.get i' j)) ∧
    (i < 0 ∨ this.rows ≤ i ∨ k < 0 ∨ source.rows ≤ k → this.setRowFromRow i source k = .throws) := by
  constructor
  · intro h0 h1 h2 h3
    obtain ⟨res, e, s, v, u⟩ := fold_set (fun j : Int => (i, j)) (fun j => source.get0 k j) (upTo 0 this.cols) this wt
      (fun j hj => ⟨h0, h1, (mem_upTo.1 hj).1, (mem_upTo.1 hj).2⟩)
      (fun j hj => get0_ok ws ⟨h2, h3, (mem_upTo.1 hj).1, by have := (mem_upTo.1 hj).2; omega⟩)
      (fun p _ q _ hpq => by simp only [Prod.mk.injEq] at hpq; rw [hpq.2])
    refine ⟨res, ?_, s, ?_, ?_⟩
    · unfold Mat.setRowFromRow
      rw [if_neg (by omega), if_neg (by omega)]; exact e
    · intro j hj0 hj1
      rw [get_eq_get0 (s.wf wt) (s.inR.2 ⟨h0, h1, hj0, hj1⟩), v j (mem_upTo.2 ⟨hj0, hj1⟩),
        get_eq_get0 ws ⟨h2, h3, hj0, by omega⟩]
    · intro i' j hin hne
      rw [get_eq_get0 (s.wf wt) (s.inR.2 hin), u i' j hin, get_eq_get0 wt hin]
      simp only [List.mem_map, Prod.mk.injEq, not_exists, not_and]
      rintro x - rfl; exact absurd rfl hne
  · intro h
    unfold Mat.setRowFromRow
    split_ifs <;> first | rfl | (exfalso; omega)

/-- Copying a column between matrices with the same number of rows changes that column only. -/
theorem C44_set_column_from_column_partial (this source : Mat α) (wt : this.Wf) (ws : source.Wf) (j k : Int)
    (hr : this.rows = source.rows) :
    (0 ≤ j → j < this.cols → 0 ≤ k → k < source.cols →
      ∃ res, this.setColumnFromColumn j source k = .ok res ∧ SameShape this res ∧
        (∀ i, 0 ≤ i → i < this.rows → res.get i j = source.get i k) ∧
        (∀ i j', this.InR i j' → j' ≠ j → res.get i j' = this.get i j')) ∧
    (j < 0 ∨ this.cols ≤ j ∨ k < 0 ∨ source.cols ≤ k → this.setColumnFromColumn j source k = .throws) := by
  constructor
  · intro h0 h1 h2 h3
    obtain ⟨res, e, s, v, u⟩ := fold_set (fun i : Int => (i, j)) (fun i => source.get0 i k) (upTo 0 this.rows) this wt
      (fun i hi => ⟨(mem_upTo.1 hi).1, (mem_upTo.1 hi).2, h0, h1⟩)
      (fun i hi => get0_ok ws ⟨(mem_upTo.1 hi).1, by have := (mem_upTo.1 hi).2; omega, h2, h3⟩)
      (fun p _ q _ hpq => by simp only [Prod.mk.injEq] at hpq; rw [hpq.1])
    refine ⟨res, ?_, s, ?_, ?_⟩
    · unfold Mat.setColumnFromColumn
      rw [if_neg (by omega), if_neg (by omega), hr]
      rw [hr] at e; exact e
    · intro i hi0 hi1
      rw [get_eq_get0 (s.wf wt) (s.inR.2 ⟨hi0, hi1, h0, h1⟩), v i (mem_upTo.2 ⟨hi0, hi1⟩),
        get_eq_get0 ws ⟨hi0, by omega, h2, h3⟩]
    · intro i j' hin hne
      rw [get_eq_get0 (s.wf wt) (s.inR.2 hin), u i j' hin, get_eq_get0 wt hin]
      simp only [List.mem_map, Prod.mk.injEq, not_exists, not_and]
      rintro x - - rfl; exact absurd rfl hne
  · intro h
    unfold Mat.setColumnFromColumn
    split_ifs <;> first | rfl | (exfalso; omega)

/-- With a taller source the wrong column is copied (the offset uses the row count of the destination). -/
theorem C44_violated_set_column_taller :
    ∃ res, (⟨2, 1, some [0, 0]⟩ : Mat Nat).setColumnFromColumn 0 ⟨3, 2, some [1, 2, 3, 4, 5, 6]⟩ 1 = .ok res ∧
      res.get 0 0 = .ok 3 ∧ (⟨3, 2, some [1, 2, 3, 4, 5, 6]⟩ : Mat Nat).get 0 1 = .ok 4 :=
  ⟨_, rfl, by decide +kernel, by decide +kernel⟩

/-- Copying a row into a column runs over the number of columns: for a tall matrix cells are missed, for a
wide one the next column is overwritten or memory is left. -/
theorem C44_violated_set_column_from_row :
    (∃ res, (⟨3, 1, some [0, 0, 0]⟩ : Mat Nat).setColumnFromRow 0 ⟨1, 3, some [7, 8, 9]⟩ 0 = .ok res ∧
      res.get 1 0 = .ok 0) ∧
    (∃ res, (⟨1, 3, some [0, 0, 0]⟩ : Mat Nat).setColumnFromRow 0 ⟨1, 3, some [7, 8, 9]⟩ 0 = .ok res ∧
      res.get 0 1 = .ok 8) ∧
    (⟨1, 3, some [0, 0, 0]⟩ : Mat Nat).setColumnFromRow 2 ⟨1, 3, some [7, 8, 9]⟩ 0 = .ub :=
  ⟨⟨_, rfl, by decide +kernel⟩, ⟨_, rfl, by decide +kernel⟩, by decide +kernel⟩

theorem le_maxElem : ∀ (l : List Int) (m : Int), maxElem l = some m → (∀ x ∈ l, x ≤ m) ∧ m ∈ l := by
  intro l m h
  cases l with
  | nil => simp [maxElem] at h
  | cons a l =>
    simp only [maxElem, Option.some.injEq] at h
    subst h
    have key : ∀ (l : List Int) (a : Int), (∀ x ∈ a :: l, x ≤ l.foldl max a) ∧ l.foldl max a ∈ a :: l := by
      intro l
      induction l with
      | nil => intro a; simp
      | cons b l ih =>
        intro a
        obtain ⟨h1, h2⟩ := ih (max a b)
        simp only [List.foldl_cons]
        constructor
        · intro x hx
          have hmax := h1 (max a b) (by simp)
          rcases List.mem_cons.1 hx with rfl | hx
          · exact le_trans (le_max_left _ _) hmax
          · rcases List.mem_cons.1 hx with rfl | hx
            · exact le_trans (le_max_right _ _) hmax
            · exact h1 x (by simp [hx])
        · rcases List.mem_cons.1 h2 with h | h
          · rw [h]
            rcases max_choice a b with h' | h' <;> rw [h'] <;> simp
          · simp [h]
    exact key l a

theorem sortRows_fold (this : Mat α) (wt : this.Wf) (storage0 : Mat α) (w0 : storage0.Wf)
    (hr : storage0.rows = this.rows) (hc : storage0.cols = this.cols) :
    ∀ (idx : List Int), (∀ x ∈ idx, 0 ≤ x ∧ x < this.rows) → ∀ (p : Nat) (storage : Mat α),
      SameShape storage0 storage → (p : Int) + idx.length ≤ this.rows →
      ∃ res, (countFrom p idx).foldlM (fun (d : Mat α) ji => d.setRowFromRow ji.1 this ji.2) storage = .ok res ∧
        SameShape storage0 res ∧
        (∀ (a : Nat) (x j : Int), idx[a]? = some x → 0 ≤ j → j < this.cols → res.get (p + a) j = this.get x j) ∧
        (∀ i j, this.InR i j → i < p → res.get i j = storage.get i j) := by
  intro idx
  induction idx with
  | nil => intro _ p st s _; exact ⟨st, rfl, s, by simp, fun _ _ _ _ => rfl⟩
  | cons x idx ih =>
    intro hin p st s hlen
    have wst := s.wf w0
    simp only [List.length_cons] at hlen
    push_cast at hlen
    have hx := hin x (by simp)
    obtain ⟨r1, e1, s1, v1, o1⟩ := (C44_set_row_from_row st this wst wt p x (by rw [s.cols, hc])).1
      (by omega) (by rw [s.rows, hr]; omega) hx.1 hx.2
    obtain ⟨res, e, sh, v, o⟩ := ih (fun y hy => hin y (List.mem_cons_of_mem _ hy)) (p + 1) r1 (s.trans s1)
      (by push_cast; omega)
    refine ⟨res, ?_, sh, ?_, ?_⟩
    · rw [countFrom, List.foldlM_cons]
      simp only [e1, Outcome.ok_bind]
      push_cast at e; exact e
    · intro a y j ha hj0 hj1
      cases a with
      | zero =>
        simp at ha; subst ha
        rw [show (p : Int) + ((0 : Nat) : Int) = p by simp, o p j ⟨by omega, by omega, hj0, hj1⟩ (by push_cast; omega)]
        exact v1 j hj0 (by rw [s.cols, hc]; exact hj1)
      | succ a =>
        have := v a y j (by simpa using ha) hj0 hj1
        push_cast at this ⊢
        rw [← this]; congr 1; ring
    · intro i j hij hlt
      rw [o i j hij (by push_cast; omega)]
      exact o1 i j ⟨hij.1, by rw [s.rows, hr]; exact hij.2.1, hij.2.2.1, by rw [s.cols, hc]; exact hij.2.2.2⟩ (by omega)

theorem sortRows_throws (this : Mat α) (wt : this.Wf) (storage0 : Mat α) (w0 : storage0.Wf)
    (hr : storage0.rows = this.rows) (hc : storage0.cols = this.cols) :
    ∀ (idx : List Int), (∀ x ∈ idx, x < this.rows) → (∃ x ∈ idx, x < 0) → ∀ (p : Nat) (storage : Mat α),
      SameShape storage0 storage → (p : Int) + idx.length ≤ this.rows →
      (countFrom p idx).foldlM (fun (d : Mat α) ji => d.setRowFromRow ji.1 this ji.2) storage = .throws := by
  intro idx
  induction idx with
  | nil => intro _ h; simp at h
  | cons x idx ih =>
    intro hin hneg p st s hlen
    have wst := s.wf w0
    simp only [List.length_cons] at hlen
    push_cast at hlen
    rw [countFrom, List.foldlM_cons]
    simp only
    by_cases hx : x < 0
    · rw [(C44_set_row_from_row st this wst wt p x (by rw [s.cols, hc])).2 (by omega)]; rfl
    · obtain ⟨r1, e1, s1, _, _⟩ := (C44_set_row_from_row st this wst wt p x (by rw [s.cols, hc])).1
        (by omega) (by rw [s.rows, hr]; omega) (by omega) (hin x (by simp))
      rw [e1, Outcome.ok_bind]
      have := ih (fun y hy => hin y (List.mem_cons_of_mem _ hy)) (by
        obtain ⟨y, hy, hy0⟩ := hneg
        rcases List.mem_cons.1 hy with rfl | hy
        · exact absurd hy0 hx
        · exact ⟨y, hy, hy0⟩) (p + 1) r1 (s.trans s1) (by push_cast; omega)
      push_cast at this; exact this

/-- Reordering rows by an index list: row `a` of the result is row `idx[a]`; any other list is rejected. -/
theorem C44_sort_rows_partial (this storage : Mat α) (wt : this.Wf) (ws : storage.Wf) (idx : List Int)
    (hr : storage.rows = this.rows) (hc : storage.cols = this.cols) (hpos : 0 < this.rows) :
    ((idx.length : Int) = this.rows → (∀ x ∈ idx, 0 ≤ x ∧ x < this.rows) →
      ∃ res, this.sortRowsBy storage idx = .ok res ∧ SameShape storage res ∧
        ∀ (a : Nat) (x j : Int), idx[a]? = some x → 0 ≤ j → j < this.cols → res.get a j = this.get x j) ∧
    ((idx.length : Int) ≠ this.rows ∨ (∃ x ∈ idx, x < 0 ∨ this.rows ≤ x) →
      this.sortRowsBy storage idx = .throws) := by
  constructor
  · intro hl hin
    unfold Mat.sortRowsBy
    rw [if_neg (by rw [hr, hc]; simp), if_neg (by omega)]
    cases hm : maxElem idx with
    | none =>
      cases idx with
      | nil => simp at hl; omega
      | cons a l => simp [maxElem] at hm
    | some mx =>
      simp only
      have hmx := hin mx (le_maxElem idx mx hm).2
      rw [if_neg (by rw [hr]; omega)]
      obtain ⟨res, e, s, v, _⟩ := sortRows_fold this wt storage ws hr hc idx hin 0 storage (SameShape.refl _)
        (by push_cast; omega)
      refine ⟨res, e, s, ?_⟩
      intro a x j h1 h2 h3
      have := v a x j h1 h2 h3
      simpa using this
  · intro h
    unfold Mat.sortRowsBy
    rw [if_neg (by rw [hr, hc]; simp)]
    by_cases hl : (idx.length : Int) ≠ this.rows
    · rw [if_pos hl]
    · rw [if_neg hl]
      obtain ⟨x, hx, hbad⟩ : ∃ x ∈ idx, x < 0 ∨ this.rows ≤ x := by
        rcases h with h | h
        · exact absurd h hl
        · exact h
      cases hm : maxElem idx with
      | none =>
        cases idx with
        | nil => simp at hx
        | cons a l => simp [maxElem] at hm
      | some mx =>
        simp only
        obtain ⟨hle, hmem⟩ := le_maxElem idx mx hm
        by_cases hmx : mx > storage.rows - 1
        · rw [if_pos hmx]
        · rw [if_neg hmx]
          rw [hr] at hmx
          refine sortRows_throws this wt storage ws hr hc idx (fun y hy => ?_) ⟨x, hx, ?_⟩ 0 storage
            (SameShape.refl _) (by push_cast; omega)
          · have := hle y hy; omega
          · have := hle x hx; omega

/-- With no rows the maximum of an empty list is taken: undefined behaviour. -/
theorem C44_violated_sort_empty : (⟨0, 2, some []⟩ : Mat Nat).sortRowsBy ⟨0, 2, some []⟩ [] = .ub := by
  decide +kernel

example : ∃ res, (⟨2, 2, some [1, 2, 3, 4]⟩ : Mat Nat).sortRowsBy ⟨2, 2, some [0, 0, 0, 0]⟩ [1, 0] = .ok res ∧
    res.data = some [2, 1, 4, 3] := ⟨_, rfl, by decide +kernel⟩

end Mx
end LDT
