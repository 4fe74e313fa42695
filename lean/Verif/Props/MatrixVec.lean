import Verif.Lemmas.MatrixVec
import Verif.Spec.Stat
/-!
# C91: rows, columns and parts of vectors

`m.get i j` and `m.getLin k` are the checked accesses; `SameShape a b`: same sizes and memory outside the cells unchanged.
-/
namespace LDT
namespace Mx
open De (getLin_eq)

section
variable {α : Type}

theorem getLin_readable {m : Mat α} (w : m.Wf) {k : Int} (h0 : 0 ≤ k) (h1 : k < m.length) : ∃ v, read m.mem k = .ok v :=
  w.read_lin h0 h1

/-- **C91**, `SetRow`: row `i` becomes the first cells of the source, the other rows stay; an `i` outside is refused. Partial: the
size of the source is not checked (`C91_set_row_violated`). -/
theorem C91_set_row_partial (this source : Mat α) (wt : this.Wf) (ws : source.Wf) (i : Int) :
    (0 ≤ i → i < this.rows → this.cols ≤ source.length →
      ∃ res, this.setRow i source = .ok res ∧ SameShape this res ∧
        (∀ j, 0 ≤ j → j < this.cols → res.get i j = source.getLin j) ∧
        (∀ i' j, this.InR i' j → i' ≠ i → res.get i' j = this.get i' j)) ∧
    (i < 0 ∨ this.rows ≤ i → this.setRow i source = .throws) := by
  constructor
  · intro h0 h1 h2
    obtain ⟨res, e, s, v, u⟩ := rowLoop wt h0 h1 le_rfl le_rfl (fun j => read source.mem j)
      (fun j hj0 hj1 => ws.read_lin hj0 (by omega))
    refine ⟨res, ?_, s, fun j hj0 hj1 => ?_, fun i' j hin hne => u i' j hin (Or.inl hne)⟩
    · unfold Mat.setRow; rw [if_neg (by omega)]; exact e
    · rw [v j hj0 hj1, getLin_eq ws hj0 (by omega)]
  · intro h; unfold Mat.setRow; rw [if_pos (by omega)]

example : (⟨2, 2, some [1, 2, 3, 4]⟩ : Mat Nat).setRow 1 ⟨2, 1, some [7, 8]⟩ = .ok ⟨2, 2, some [1, 7, 3, 8]⟩ := by decide +kernel

/-- **C91**, violated: a source with too few cells is read past its end. -/
theorem C91_set_row_violated : (⟨1, 2, some [1, 2]⟩ : Mat Nat).setRow 0 ⟨1, 1, some [7]⟩ = .ub := by decide +kernel

/-- **C91**, `SetColumn`, likewise. -/
theorem C91_set_column_partial (this source : Mat α) (wt : this.Wf) (ws : source.Wf) (j : Int) :
    (0 ≤ j → j < this.cols → this.rows ≤ source.length →
      ∃ res, this.setColumn j source = .ok res ∧ SameShape this res ∧
        (∀ i, 0 ≤ i → i < this.rows → res.get i j = source.getLin i) ∧
        (∀ i j', this.InR i j' → j' ≠ j → res.get i j' = this.get i j')) ∧
    (j < 0 ∨ this.cols ≤ j → this.setColumn j source = .throws) := by
  constructor
  · intro h0 h1 h2
    obtain ⟨res, e, s, v, u⟩ := colLoop wt h0 h1 (fun i => read source.mem i)
      (fun i hi0 hi1 => ws.read_lin hi0 (by omega))
    refine ⟨res, ?_, s, fun i hi0 hi1 => ?_, u⟩
    · unfold Mat.setColumn; rw [if_neg (by omega)]; exact e
    · rw [v i hi0 hi1, getLin_eq ws hi0 (by omega)]
  · intro h; unfold Mat.setColumn; rw [if_pos (by omega)]

example : (⟨2, 2, some [1, 2, 3, 4]⟩ : Mat Nat).setColumn 1 ⟨2, 1, some [7, 8]⟩ = .ok ⟨2, 2, some [1, 2, 7, 8]⟩ := by decide +kernel

/-- **C91**, violated: a source with too few cells is read past its end. -/
theorem C91_set_column_violated : (⟨2, 1, some [1, 2]⟩ : Mat Nat).setColumn 0 ⟨1, 1, some [7]⟩ = .ub := by decide +kernel

/-- **C91**, `SetRowFromDiag`: row `i` becomes the diagonal of a square source with as many columns; anything else is refused. -/
theorem C91_row_from_diag (this source : Mat α) (wt : this.Wf) (ws : source.Wf) (i : Int) :
    (0 ≤ i → i < this.rows → source.rows = this.cols → source.cols = this.cols →
      ∃ res, this.setRowFromDiag i source = .ok res ∧ SameShape this res ∧
        (∀ j, 0 ≤ j → j < this.cols → res.get i j = source.get j j) ∧
        (∀ i' j, this.InR i' j → i' ≠ i → res.get i' j = this.get i' j)) ∧
    (i < 0 ∨ this.rows ≤ i ∨ source.rows ≠ this.cols ∨ source.cols ≠ this.cols → this.setRowFromDiag i source = .throws) := by
  constructor
  · intro h0 h1 h2 h3
    obtain ⟨res, e, s, v, u⟩ := rowLoop wt h0 h1 le_rfl le_rfl (fun j => source.get0 j j)
      (fun j hj0 hj1 => get0_ok ws ⟨hj0, by omega, hj0, by omega⟩)
    refine ⟨res, ?_, s, fun j hj0 hj1 => ?_, fun i' j hin hne => u i' j hin (Or.inl hne)⟩
    · unfold Mat.setRowFromDiag
      rw [if_neg (by omega), if_neg (by omega)]
      exact diagLoop_eq source (fun j => (i, j)) wt.cols_nonneg this res e
    · rw [v j hj0 hj1, get_eq_get0 ws ⟨hj0, by omega, hj0, by omega⟩]
  · intro h; unfold Mat.setRowFromDiag; split_ifs <;> first | rfl | (exfalso; omega)

example : (⟨2, 2, some [1, 2, 3, 4]⟩ : Mat Nat).setRowFromDiag 1 ⟨2, 2, some [5, 6, 7, 8]⟩ = .ok ⟨2, 2, some [1, 5, 3, 8]⟩ := by
  decide +kernel

/-- **C91**, `SetColumnFromDiag`, likewise. -/
theorem C91_column_from_diag (this source : Mat α) (wt : this.Wf) (ws : source.Wf) (j : Int) :
    (0 ≤ j → j < this.cols → source.rows = this.rows → source.cols = this.rows →
      ∃ res, this.setColumnFromDiag j source = .ok res ∧ SameShape this res ∧
        (∀ i, 0 ≤ i → i < this.rows → res.get i j = source.get i i) ∧
        (∀ i j', this.InR i j' → j' ≠ j → res.get i j' = this.get i j')) ∧
    (j < 0 ∨ this.cols ≤ j ∨ source.rows ≠ this.rows ∨ source.cols ≠ this.rows → this.setColumnFromDiag j source = .throws) := by
  constructor
  · intro h0 h1 h2 h3
    obtain ⟨res, e, s, v, u⟩ := colLoop wt h0 h1 (fun i => source.get0 i i)
      (fun i hi0 hi1 => get0_ok ws ⟨hi0, by omega, hi0, by omega⟩)
    refine ⟨res, ?_, s, fun i hi0 hi1 => ?_, u⟩
    · unfold Mat.setColumnFromDiag
      rw [if_neg (by omega), if_neg (by omega)]
      exact diagLoop_eq source (fun i => (i, j)) wt.rows_nonneg this res e
    · rw [v i hi0 hi1, get_eq_get0 ws ⟨hi0, by omega, hi0, by omega⟩]
  · intro h; unfold Mat.setColumnFromDiag; split_ifs <;> first | rfl | (exfalso; omega)

example : (⟨2, 2, some [1, 2, 3, 4]⟩ : Mat Nat).setColumnFromDiag 1 ⟨2, 2, some [5, 6, 7, 8]⟩ = .ok ⟨2, 2, some [1, 2, 5, 8]⟩ := by
  decide +kernel

/-- **C91**, `SetSubRow`: the cells of row `row` from column `colstart` become the first `length` cells of the source, and nothing else
changes; a row outside, a part beyond the last column or beyond the source is refused. Partial: `colstart` is not negative
(`C91_sub_row_violated`). -/
theorem C91_sub_row_partial (this source : Mat α) (wt : this.Wf) (ws : source.Wf) (row colstart length : Int) (hc : 0 ≤ colstart) :
    (0 ≤ row → row < this.rows → colstart + length ≤ this.cols → length ≤ source.length →
      ∃ res, this.setSubRow row colstart source length = .ok res ∧ SameShape this res ∧
        (∀ j, 0 ≤ j → j < length → res.get row (colstart + j) = source.getLin j) ∧
        (∀ i j, this.InR i j → i ≠ row ∨ j < colstart ∨ colstart + length ≤ j → res.get i j = this.get i j)) ∧
    (row < 0 ∨ this.rows ≤ row ∨ this.cols < colstart + length ∨ source.length < length →
      this.setSubRow row colstart source length = .throws) := by
  constructor
  · intro h0 h1 h2 h3
    obtain ⟨res, e, s, v, u⟩ := rowLoop wt h0 h1 hc h2 (fun j => read source.mem (j - colstart))
      (fun j hj0 hj1 => ws.read_lin (by omega) (by omega))
    refine ⟨res, ?_, s, fun j hj0 hj1 => ?_, u⟩
    · unfold Mat.setSubRow; rw [if_neg (by omega), if_neg (by omega), if_neg (by omega)]; exact e
    · rw [v _ (by omega) (by omega), getLin_eq ws hj0 (by omega), add_sub_cancel_left]
  · intro h; unfold Mat.setSubRow; split_ifs <;> first | rfl | (exfalso; omega)

example : (⟨2, 3, some [1, 2, 3, 4, 5, 6]⟩ : Mat Nat).setSubRow 1 1 ⟨2, 1, some [7, 8]⟩ 2 = .ok ⟨2, 3, some [1, 2, 3, 7, 5, 8]⟩ := by
  decide +kernel

/-- **C91**, violated: with a negative start the memory in front of the matrix is written. -/
theorem C91_sub_row_violated (this source : Mat α) (ws : source.Wf) (row colstart length : Int)
    (h0 : 0 ≤ row) (h1 : row < this.rows) (h2 : colstart + length ≤ this.cols) (h3 : length ≤ source.length)
    (hc : colstart < 0) (hl : 0 < length) : this.setSubRow row colstart source length = .ub := by
  unfold Mat.setSubRow
  rw [if_neg (by omega), if_neg (by omega), if_neg (by omega)]
  have hu : upTo colstart (colstart + length) = colstart :: upTo (colstart + 1) (colstart + length) := by
    obtain ⟨n, rfl⟩ : ∃ n : Nat, length = n + 1 := ⟨(length - 1).toNat, by omega⟩
    unfold upTo
    rw [show (colstart + ((n : Int) + 1) - colstart).toNat = n + 1 by omega,
      show (colstart + ((n : Int) + 1) - (colstart + 1)).toNat = n by omega, List.range_succ_eq_map]
    simp only [List.map_cons, List.map_map, Nat.cast_zero, add_zero]
    congr 1
    apply List.map_congr_left
    intro a _
    simp only [Function.comp, Nat.succ_eq_add_one]
    push_cast; ring
  obtain ⟨v, hv⟩ := ws.read_lin (k := colstart - colstart) (by omega) (by omega)
  rw [hu, List.foldlM_cons, hv, Outcome.ok_bind]
  unfold Mat.set0 write
  have : row + this.rows * colstart < 0 := by nlinarith
  rw [if_neg (by omega)]; rfl

/-- **C91**, `SetSubVector`: the cells from `start` become the `count` cells of the source from `sourcestart`, and nothing else changes;
a part beyond the last row is refused. Partial: the starts are not negative and the source has that many cells
(`C91_sub_vector_violated`). -/
theorem C91_sub_vector_partial (this source : Mat α) (wt : this.Wf) (ws : source.Wf) (hv : this.cols = 1) (start sourcestart count : Int)
    (h0 : 0 ≤ start) (h1 : 0 ≤ sourcestart) (hc : 0 ≤ count) :
    (start + count ≤ this.rows → sourcestart + count ≤ source.length →
      ∃ res, this.setSubVector start source sourcestart count = .ok res ∧ SameShape this res ∧
        (∀ j, 0 ≤ j → j < count → res.getLin (start + j) = source.getLin (sourcestart + j)) ∧
        (∀ j, 0 ≤ j → j < this.rows → j < start ∨ start + count ≤ j → res.getLin j = this.getLin j)) ∧
    (this.rows < start + count → this.setSubVector start source sourcestart count = .throws) := by
  have hln : this.length = this.rows := by unfold Mat.length; rw [hv, mul_one]
  constructor
  · intro h2 h3
    obtain ⟨res, e, s, v, u⟩ := partLoop wt h0 (b := start + count) (by omega) (by omega)
      (fun i => read source.mem (sourcestart + (i - start))) (fun i hi0 hi1 => ws.read_lin (by omega) (by omega))
    have hlr : res.length = this.rows := by unfold Mat.length; rw [s.rows, s.cols, hv, mul_one]
    refine ⟨res, ?_, s, fun j hj0 hj1 => ?_, fun j hj0 hj1 hj => ?_⟩
    · unfold Mat.setSubVector; rw [if_neg (by omega)]; exact e
    · rw [getLin_eq (s.wf wt) (by omega) (by omega), v _ (by omega) (by omega), getLin_eq ws (by omega) (by omega),
        add_sub_cancel_left]
    · rw [getLin_eq (s.wf wt) hj0 (by omega), u j hj, getLin_eq wt hj0 (by omega)]
  · intro h; unfold Mat.setSubVector; rw [if_pos (by omega)]

example : (⟨4, 1, some [1, 2, 3, 4]⟩ : Mat Nat).setSubVector 1 ⟨3, 1, some [7, 8, 9]⟩ 1 2 = .ok ⟨4, 1, some [1, 8, 9, 4]⟩ := by
  decide +kernel

/-- **C91**, violated: the sizes of the source and the sign of the start are not checked. -/
theorem C91_sub_vector_violated :
    (⟨3, 1, some [1, 2, 3]⟩ : Mat Nat).setSubVector 0 ⟨2, 1, some [7, 8]⟩ 1 2 = .ub ∧
    (⟨3, 1, some [1, 2, 3]⟩ : Mat Nat).setSubVector (-1) ⟨2, 1, some [7, 8]⟩ 0 2 = .ub := by decide +kernel

/-- **C91**, `GetSubVector`: the storage has from `storagestart` on the `count` cells of the vector from `start`; a matrix with several
columns and a storage of another size are refused. Partial: the part has to be in the vector (`C91_get_sub_vector_violated`). -/
theorem C91_get_sub_vector_partial (this storage : Mat α) (wt : this.Wf) (ws : storage.Wf) (hv : storage.cols = 1)
    (start count storagestart : Int) :
    (this.cols = 1 → storage.rows = count + storagestart → 0 ≤ start → 0 ≤ storagestart → 0 ≤ count → start + count ≤ this.rows →
      ∃ res, this.getSubVector start count storage storagestart = .ok res ∧ SameShape storage res ∧
        (∀ j, 0 ≤ j → j < count → res.getLin (storagestart + j) = this.getLin (start + j)) ∧
        (∀ j, 0 ≤ j → j < storagestart → res.getLin j = storage.getLin j)) ∧
    (this.cols ≠ 1 ∨ storage.rows ≠ count + storagestart → this.getSubVector start count storage storagestart = .throws) := by
  constructor
  · intro h0 h1 h2 h3 h4 h5
    have hln : this.length = this.rows := by unfold Mat.length; rw [h0, mul_one]
    obtain ⟨res, e, s, v, u⟩ := (C91_sub_vector_partial storage this ws wt hv storagestart start count h3 h2 h4).1 (by omega) (by omega)
    refine ⟨res, ?_, s, v, fun j hj0 hj1 => u j hj0 (by omega) (Or.inl hj1)⟩
    unfold Mat.getSubVector; rw [if_neg (by omega), if_neg (by omega)]; exact e
  · intro h; unfold Mat.getSubVector; split_ifs <;> first | rfl | (exfalso; omega)

example : (⟨4, 1, some [1, 2, 3, 4]⟩ : Mat Nat).getSubVector 1 2 ⟨3, 1, some [7, 8, 9]⟩ 1 = .ok ⟨3, 1, some [7, 2, 3]⟩ := by
  decide +kernel

/-- **C91**, violated: the end of the part is not checked. -/
theorem C91_get_sub_vector_violated :
    (⟨3, 1, some [1, 2, 3]⟩ : Mat Nat).getSubVector 2 2 ⟨2, 1, some [7, 8]⟩ 0 = .ub := by decide +kernel

/-- **C91**, `GetRow0`, for a row of the matrix and a storage with enough cells: the row. -/
theorem getRow0_spec (this storage : Mat α) (wt : this.Wf) (ws : storage.Wf) (i : Int) (h0 : 0 ≤ i) (h1 : i < this.rows)
    (h2 : this.cols ≤ storage.length) :
    ∃ res, this.getRow0 i storage = .ok res ∧ SameShape storage res ∧
      ∀ j, 0 ≤ j → j < this.cols → read res.mem j = this.get0 i j := by
  obtain ⟨res, e, s, v, -⟩ := partLoop ws le_rfl wt.cols_nonneg h2 (fun j => read this.mem (i + this.rows * j))
    (fun j hj0 hj1 => get0_ok wt ⟨h0, h1, hj0, hj1⟩)
  exact ⟨res, e, s, v⟩

end

section
variable {K : Type}
open Arr (Val)
open Stat (numbers)

theorem countNumbers_spec (data : Mat (Val K)) (w : data.Wf) (xs : List (Val K)) (h : IsCells data xs) :
    countNumbers Option.isNone data = .ok ((numbers xs).length : Int) := by
  have hln := h.len
  obtain ⟨c, e, hc⟩ := loop_inv (a := 0) (b := data.length) (by omega) (fun c i => do
      let v ← read data.mem i
      pure (if Option.isNone v then c else c + 1))
    (fun t c => c = ((numbers (xs.take t.toNat)).length : Int)) (s := 0) (by simp [numbers]) (by
      intro t h0 h1 c hc
      have ht : t.toNat < xs.length := by omega
      have hr := isCells_read h t.toNat xs[t.toNat] (by rw [List.getElem?_eq_getElem ht])
      rw [zero_add, Int.toNat_of_nonneg h0] at hr
      refine ⟨_, by simp only [hr, Outcome.ok_bind]; rfl, ?_⟩
      rw [show (t + 1).toNat = t.toNat + 1 by omega, List.take_succ_eq_append_getElem ht]
      unfold numbers at hc ⊢
      rw [List.filterMap_append, List.length_append, hc]
      cases hx : xs[t.toNat] <;> simp)
  unfold countNumbers
  rw [e, hc, ← hln]
  simp

/-- **C91**, `RemoveNanVector`: without a storage the number of numbers; with one, the numbers in their order (the number returned is
the length of the storage). -/
theorem C91_remove_nan (data storage : Mat (Val K)) (w : data.Wf) (xs : List (Val K)) (h : IsCells data xs) :
    (storage.data = none → removeNanVector Option.isNone data storage = .ok (storage, ((numbers xs).length : Int))) ∧
    (storage.Wf → ((numbers xs).length : Int) ≤ storage.length →
      ∃ res, removeNanVector Option.isNone data storage = .ok (res, storage.length) ∧ SameShape storage res ∧
        (∀ (k : Nat) x, (numbers xs)[k]? = some x → res.getLin k = .ok (some x)) ∧
        (∀ k : Int, (numbers xs).length ≤ k → k < storage.length → res.getLin k = storage.getLin k)) := by
  have hln := h.len
  constructor
  · intro hs
    unfold removeNanVector
    rw [hs]
    simp only [countNumbers_spec data w xs h]; rfl
  · intro ws hle
    have hsz := ws.size
    have hl : storage.length = storage.rows * storage.cols := rfl
    obtain ⟨d, hd⟩ := Option.isSome_iff_exists.1 ws.alloc
    obtain ⟨s, e, sh, sc, sv, su⟩ := loop_inv (a := 0) (b := data.length) (by omega)
      (fun (s : Mat (Val K) × Int) i => do
        let v ← read data.mem i
        keepNumber Option.isNone v s)
      (fun t s => SameShape storage s.1 ∧ s.2 = ((numbers (xs.take t.toNat)).length : Int) ∧
        (∀ (k : Nat) x, (numbers (xs.take t.toNat))[k]? = some x → read s.1.mem k = .ok (some x)) ∧
        (∀ k : Int, s.2 ≤ k → read s.1.mem k = read storage.mem k)) (s := (storage, 0))
      ⟨SameShape.refl _, by simp [numbers], by simp [numbers], fun k _ => rfl⟩ (by
        intro t h0 h1 s ⟨sh, sc, sv, su⟩
        have ht : t.toNat < xs.length := by omega
        have hr := isCells_read h t.toNat xs[t.toNat] (by rw [List.getElem?_eq_getElem ht])
        rw [zero_add, Int.toNat_of_nonneg h0] at hr
        have hsplit : numbers xs = numbers (xs.take (t.toNat + 1)) ++ numbers (xs.drop (t.toNat + 1)) := by
          unfold numbers; rw [← List.filterMap_append, List.take_append_drop]
        have hlen : (numbers (xs.take (t.toNat + 1))).length ≤ (numbers xs).length := by
          rw [hsplit, List.length_append]; omega
        rw [show (t + 1).toNat = t.toNat + 1 by omega]
        have hst : numbers (xs.take (t.toNat + 1)) = numbers (xs.take t.toNat) ++ numbers [xs[t.toNat]] := by
          rw [List.take_succ_eq_append_getElem ht]; unfold numbers; rw [List.filterMap_append]
        simp only [hr, Outcome.ok_bind]
        cases hx : xs[t.toNat] with
        | none =>
          have : numbers [xs[t.toNat]] = [] := by rw [hx]; rfl
          rw [hst, this, List.append_nil]
          exact ⟨s, by unfold keepNumber; simp, sh, sc, sv, su⟩
        | some x =>
          have hn : numbers [xs[t.toNat]] = [x] := by rw [hx]; rfl
          rw [hst, hn, List.length_append, List.length_singleton] at hlen
          have h2 : s.2 < s.1.mem.length := by rw [sh.len]; omega
          have h3 : 0 ≤ s.2 := by omega
          refine ⟨({ s.1 with data := some (s.1.mem.set s.2.toNat (some x)) }, s.2 + 1), ?_, ?_, ?_, ?_, ?_⟩
          · unfold keepNumber
            simp only [Option.isNone_some, Bool.false_eq_true, if_false, write_ok_of _ h3 h2, Outcome.ok_bind]; rfl
          · refine sh.trans ⟨rfl, rfl, ?_, by simp [Mat.mem], ?_⟩
            · rw [sh.alloc, hd]; rfl
            · intro p hp
              rw [sh.rows, sh.cols] at hp
              show (s.1.mem.set _ _)[p]? = _
              rw [List.getElem?_set_ne (by omega)]
          · rw [hst, hn, List.length_append]; push_cast; rw [sc]; rfl
          · intro k y hk
            show Mx.read (s.1.mem.set _ _) k = _
            rw [read_set _ h3 h2]
            rw [hst, hn] at hk
            split_ifs with hks
            · have : k = (numbers (xs.take t.toNat)).length := by omega
              rw [this, List.getElem?_concat_length] at hk
              rw [hk]
            · have hk' : k < (numbers (xs.take t.toNat)).length := by
                have := (List.getElem?_eq_some_iff.1 hk).1
                rw [List.length_append, List.length_singleton] at this
                omega
              rw [List.getElem?_append_left hk'] at hk
              exact sv k y hk
          · intro k hk
            show Mx.read (s.1.mem.set _ _) k = _
            have hk2 : s.2 + 1 ≤ k := hk
            rw [read_set _ h3 h2, if_neg (by omega)]
            exact su k (by omega))
    rw [show data.length.toNat = xs.length by omega, List.take_length] at sc sv
    have wr := sh.wf ws
    have hlr : s.1.length = storage.length := by unfold Mat.length; rw [sh.rows, sh.cols]
    refine ⟨s.1, ?_, sh, fun k x hk => ?_, fun k hk0 hk1 => ?_⟩
    · unfold removeNanVector
      rw [hd]
      simp only
      rw [e, Outcome.ok_bind]
      show Outcome.ok (s.1, s.1.length) = _
      rw [hlr]
    · have := (List.getElem?_eq_some_iff.1 hk).1
      rw [getLin_eq wr (by omega) (by omega), sv k x hk]
    · rw [getLin_eq wr (by omega) (by omega), su k (by omega), getLin_eq ws (by omega) hk1]

example : removeNanVector Option.isNone (⟨3, 1, some [some 1, none, some 3]⟩ : Mat (Option Nat)) ⟨2, 1, some [none, none]⟩ =
    .ok (⟨2, 1, some [some 1, some 3]⟩, 2) := by decide +kernel

end
end Mx
end LDT
