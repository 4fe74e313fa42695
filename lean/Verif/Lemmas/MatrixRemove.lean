import Verif.Props.Dataset
namespace LDT
namespace Mx

variable {α : Type}

theorem upTo_succ (n : Nat) : upTo 0 ((n + 1 : Nat) : Int) = upTo 0 (n : Int) ++ [(n : Int)] := by
  apply List.ext_getElem?
  intro k
  rw [getElem?_upTo, List.getElem?_append, length_upTo, getElem?_upTo]
  rcases lt_trichotomy k n with h | h | h
  · rw [if_pos (by push_cast; omega), if_pos (by omega), if_pos (by omega)]
  · subst h; rw [if_pos (by push_cast; omega), if_neg (by omega)]; simp
  · rw [if_neg (by push_cast; omega), if_neg (by omega), List.getElem?_eq_none (by simp; omega)]

/-! ### Removing values from a vector -/

theorem removeNanLoop_spec (bad : α → Bool) : ∀ (n i j : Nat) (l : List α), j ≤ i → i + n ≤ l.length →
    ∃ l', removeNanLoop bad n i j l = .ok (l', ((j + (((l.drop i).take n).filter (fun v => !bad v)).length : Nat) : Int)) ∧
      l'.length = l.length ∧
      l'.take (j + (((l.drop i).take n).filter (fun v => !bad v)).length)
        = l.take j ++ ((l.drop i).take n).filter (fun v => !bad v) := by
  intro n
  induction n with
  | zero => intro i j l _ _; exact ⟨l, by simp [removeNanLoop], rfl, by simp⟩
  | succ n ih =>
    intro i j l hij hn
    have hi : i < l.length := by omega
    have hd : (l.drop i).take (n + 1) = l[i] :: (l.drop (i + 1)).take n := by
      rw [List.drop_eq_getElem_cons hi, List.take_succ_cons]
    have hr : read l (i : Int) = .ok l[i] := by
      rw [read_eq_ok]; exact ⟨by omega, by simp [List.getElem?_eq_getElem hi]⟩
    unfold removeNanLoop
    rw [hr, Outcome.ok_bind, hd]
    by_cases hb : bad l[i] = true
    · rw [if_pos hb, List.filter_cons_of_neg (by simp [hb])]
      have := ih (i + 1) j l (by omega) (by omega)
      push_cast at this ⊢
      exact this
    · rw [if_neg hb, List.filter_cons_of_pos (by simp [hb])]
      have hw : write l (j : Int) l[i] = .ok (l.set j l[i]) := by
        rw [write_ok_of _ (by omega) (by omega)]; simp
      rw [hw, Outcome.ok_bind]
      obtain ⟨l', e, el, et⟩ := ih (i + 1) (j + 1) (l.set j l[i]) (by omega) (by simp; omega)
      have hdrop : (l.set j l[i]).drop (i + 1) = l.drop (i + 1) := by
        rw [List.drop_set, if_pos (by omega)]
      rw [hdrop] at e et
      have htake : (l.set j l[i]).take (j + 1) = l.take j ++ [l[i]] := by
        rw [List.take_succ_eq_append_getElem (by simp; omega), List.take_set_of_le (by omega)]
        simp
      rw [htake] at et
      have harith : j + 1 + (List.filter (fun v => !bad v) (List.take n (List.drop (i + 1) l))).length
          = j + (l[i] :: List.filter (fun v => !bad v) (List.take n (List.drop (i + 1) l))).length := by
        simp only [List.length_cons]; omega
      rw [harith] at e et
      refine ⟨l', ?_, by simpa using el, ?_⟩
      · push_cast at e ⊢; exact e
      · rw [et]; simp

/-! ### Moving columns -/

theorem copyColumn_loop (rows r w : Int) (hrows : 0 ≤ rows) (hw : 0 ≤ w) (hwr : w ≤ r) (l : List α)
    (hlen : (r + 1) * rows ≤ l.length) : ∀ n : Nat, (n : Int) ≤ rows →
    ∃ l', (upTo 0 (n : Int)).foldlM (fun l i => do
        let d ← read l (r * rows + i)
        write l (w * rows + i) d) l = .ok l' ∧ l'.length = l.length ∧
      (∀ i : Int, 0 ≤ i → i < n → read l' (w * rows + i) = read l (r * rows + i)) ∧
      (∀ k, (k < w * rows ∨ w * rows + n ≤ k) → read l' k = read l k) := by
  have hr0 : 0 ≤ r * rows := mul_nonneg (by omega) hrows
  have hw0 : 0 ≤ w * rows := mul_nonneg hw hrows
  have hle : w * rows ≤ r * rows := mul_le_mul_of_nonneg_right hwr hrows
  have hexp : (r + 1) * rows = r * rows + rows := by ring
  have hcase : r * rows = w * rows ∨ w * rows + rows ≤ r * rows := by
    rcases eq_or_lt_of_le hwr with h | h
    · left; rw [h]
    · right
      have : (w + 1) * rows ≤ r * rows := mul_le_mul_of_nonneg_right (by omega) hrows
      have : (w + 1) * rows = w * rows + rows := by ring
      omega
  generalize r * rows = A at *
  generalize w * rows = B at *
  intro n
  induction n with
  | zero => intro _; exact ⟨l, rfl, rfl, by intro i h1 h2; omega, fun _ _ => rfl⟩
  | succ n ih =>
    intro hn
    push_cast at hn
    obtain ⟨l1, e, el, ec, eo⟩ := ih (by omega)
    obtain ⟨d, hd⟩ := read_ok_of (l := l) (k := A + n) (by omega) (by omega)
    have hd1 : read l1 (A + n) = .ok d := by rw [eo _ (by omega), hd]
    have hb0 : 0 ≤ B + (n : Int) := by omega
    have hb1 : B + (n : Int) < l1.length := by rw [el]; omega
    refine ⟨l1.set (B + n).toNat d, ?_, by simp [el], ?_, ?_⟩
    · rw [upTo_succ, List.foldlM_append, e, Outcome.ok_bind, List.foldlM_cons, hd1, Outcome.ok_bind,
        write_ok_of d hb0 hb1]; rfl
    · intro i h0 h1
      push_cast at h1
      rw [read_set d hb0 hb1]
      by_cases hi : i = n
      · subst hi; rw [if_pos rfl, hd]
      · rw [if_neg (by omega)]; exact ec i h0 (by omega)
    · intro k hk
      push_cast at hk
      rw [read_set d hb0 hb1, if_neg (by omega)]; exact eo k (by omega)

theorem copyColumn_spec (rows r w : Int) (hrows : 0 ≤ rows) (hw : 0 ≤ w) (hwr : w ≤ r) (l : List α)
    (hlen : (r + 1) * rows ≤ l.length) :
    ∃ l', copyColumn rows r w l = .ok l' ∧ l'.length = l.length ∧
      (∀ i, 0 ≤ i → i < rows → read l' (w * rows + i) = read l (r * rows + i)) ∧
      (∀ k, (k < w * rows ∨ (w + 1) * rows ≤ k) → read l' k = read l k) := by
  obtain ⟨l', e, el, ec, eo⟩ := copyColumn_loop rows r w hrows hw hwr l hlen rows.toNat (by omega)
  rw [show ((rows.toNat : Nat) : Int) = rows by omega] at e ec eo
  refine ⟨l', e, el, ec, ?_⟩
  intro k hk
  have : (w + 1) * rows = w * rows + rows := by ring
  exact eo k (by omega)

/-- One column of the scan of `RemoveColumnsAnyNan_in`. -/
theorem copyUntilBad_spec (bad : α → Bool) (rows r w : Int) (hw : 0 ≤ w) (hwr : w ≤ r) :
    ∀ (n : Nat) (j : Int) (l : List α), 0 ≤ j → j + n = rows → (r + 1) * rows ≤ l.length →
    ∃ l' b, copyUntilBad bad rows r w n j l = .ok (l', b) ∧ l'.length = l.length ∧
      (∀ k, (k < w * rows + j ∨ (w + 1) * rows ≤ k) → read l' k = read l k) ∧
      (b = false → ∀ i, j ≤ i → i < rows → read l' (w * rows + i) = read l (r * rows + i)) ∧
      (b = false ↔ ∀ i, j ≤ i → i < rows → ∃ v, read l (r * rows + i) = .ok v ∧ bad v = false) := by
  intro n
  induction n with
  | zero =>
    intro j l h0 hj _
    exact ⟨l, false, rfl, rfl, fun _ _ => rfl, fun _ i h1 h2 => by push_cast at hj; omega,
      ⟨fun _ i h1 h2 => by push_cast at hj; omega, fun _ => rfl⟩⟩
  | succ n ih =>
    intro j l h0 hj hlen
    push_cast at hj
    have hrows : 0 ≤ rows := by omega
    have hr0 : 0 ≤ r * rows := mul_nonneg (by omega) hrows
    have hw0 : 0 ≤ w * rows := mul_nonneg hw hrows
    have hle : w * rows ≤ r * rows := mul_le_mul_of_nonneg_right hwr hrows
    have hexp : (r + 1) * rows = r * rows + rows := by ring
    have hexpw : (w + 1) * rows = w * rows + rows := by ring
    have hcase : r * rows = w * rows ∨ w * rows + rows ≤ r * rows := by
      rcases eq_or_lt_of_le hwr with h | h
      · left; rw [h]
      · right
        have : (w + 1) * rows ≤ r * rows := mul_le_mul_of_nonneg_right (by omega) hrows
        omega
    obtain ⟨v, hv⟩ := read_ok_of (l := l) (k := r * rows + j) (by omega) (by omega)
    unfold copyUntilBad
    rw [hv, Outcome.ok_bind]
    by_cases hb : bad v = true
    · rw [if_pos hb]
      refine ⟨l, true, rfl, rfl, fun _ _ => rfl, by simp, ?_⟩
      constructor
      · intro h; simp at h
      · intro h
        obtain ⟨v', hv', hb'⟩ := h j (le_refl _) (by omega)
        rw [hv] at hv'
        have : v = v' := by simpa using hv'
        subst this; rw [hb] at hb'; simp at hb'
    · rw [if_neg hb]
      have hb0 : 0 ≤ w * rows + j := by omega
      have hb1 : w * rows + j < l.length := by omega
      rw [write_ok_of v hb0 hb1, Outcome.ok_bind]
      obtain ⟨l', b, e, el, eo, ec, eb⟩ := ih (j + 1) (l.set (w * rows + j).toNat v) (by omega) (by omega)
        (by simpa using hlen)
      have hsame : ∀ i, j + 1 ≤ i → i < rows →
          read (l.set (w * rows + j).toNat v) (r * rows + i) = read l (r * rows + i) := by
        intro i h1 h2
        rw [read_set v hb0 hb1, if_neg (by omega)]
      refine ⟨l', b, e, by simpa using el, ?_, ?_, ?_⟩
      · intro k hk
        rw [eo k (by omega), read_set v hb0 hb1, if_neg (by omega)]
      · intro hbf i h1 h2
        by_cases hij : i = j
        · subst hij
          rw [eo _ (by omega), read_set v hb0 hb1, if_pos rfl, hv]
        · rw [ec hbf i (by omega) h2, hsame i (by omega) h2]
      · rw [eb]
        constructor
        · intro h i h1 h2
          by_cases hij : i = j
          · subst hij; exact ⟨v, hv, by simpa using hb⟩
          · rw [← hsame i (by omega) h2]; exact h i (by omega) h2
        · intro h i h1 h2
          rw [hsame i (by omega) h2]; exact h i (by omega) h2

/-- State of a column-compacting scan that has looked at the columns before `rr`: `kept` are moved to the
front, the columns from `rr` on are as they were. -/
structure Compact (rows : Int) (l0 l : List α) (rr ww : Int) (kept : List Int) : Prop where
  len : l.length = l0.length
  cnt : (kept.length : Int) = ww
  le : ww ≤ rr
  front : ∀ (b : Nat) (c : Int), kept[b]? = some c → ∀ i, 0 ≤ i → i < rows → read l (b * rows + i) = read l0 (c * rows + i)
  back : ∀ k, rr * rows ≤ k → read l k = read l0 k

theorem compact_keep {rows : Int} {l0 l l' : List α} {rr ww : Int} {kept : List Int} (hrows : 0 ≤ rows)
    (h : Compact rows l0 l rr ww kept) (hlen : l'.length = l.length)
    (hc : ∀ i, 0 ≤ i → i < rows → read l' (ww * rows + i) = read l (rr * rows + i))
    (ho : ∀ k, (k < ww * rows ∨ (ww + 1) * rows ≤ k) → read l' k = read l k) :
    Compact rows l0 l' (rr + 1) (ww + 1) (kept ++ [rr]) := by
  have hle := h.le
  have hcnt := h.cnt
  refine ⟨hlen.trans h.len, by simp; omega, by omega, ?_, ?_⟩
  · intro b c hb i h0 h1
    rw [List.getElem?_append] at hb
    split_ifs at hb with hlt
    · rw [ho, h.front b c hb i h0 h1]
      left
      have : ((b : Int) + 1) * rows ≤ ww * rows := mul_le_mul_of_nonneg_right (by omega) hrows
      have : ((b : Int) + 1) * rows = b * rows + rows := by ring
      omega
    · have hbl : b = kept.length := by
        have := lt_length_of_some hb; simp at this; omega
      subst hbl
      simp at hb; subst hb
      rw [hcnt, hc i h0 h1, h.back _ (by omega)]
  · intro k hk
    have h1 : (rr + 1) * rows = rr * rows + rows := by ring
    have h2 : (ww + 1) * rows ≤ (rr + 1) * rows := mul_le_mul_of_nonneg_right (by omega) hrows
    rw [ho k (by omega), h.back k (by omega)]

theorem compact_skip {rows : Int} {l0 l l' : List α} {rr ww : Int} {kept : List Int} (hrows : 0 ≤ rows)
    (h : Compact rows l0 l rr ww kept) (hlen : l'.length = l.length)
    (ho : ∀ k, (k < ww * rows ∨ (ww + 1) * rows ≤ k) → read l' k = read l k) :
    Compact rows l0 l' (rr + 1) ww kept := by
  have hle := h.le
  have hcnt := h.cnt
  refine ⟨hlen.trans h.len, h.cnt, by omega, ?_, ?_⟩
  · intro b c hb i h0 h1
    have := lt_length_of_some hb
    rw [ho, h.front b c hb i h0 h1]
    left
    have : ((b : Int) + 1) * rows ≤ ww * rows := mul_le_mul_of_nonneg_right (by omega) hrows
    have : ((b : Int) + 1) * rows = b * rows + rows := by ring
    omega
  · intro k hk
    have h1 : (rr + 1) * rows = rr * rows + rows := by ring
    have h2 : (ww + 1) * rows ≤ (rr + 1) * rows := mul_le_mul_of_nonneg_right (by omega) hrows
    rw [ho k (by omega), h.back k (by omega)]

theorem upTo_cons (a : Int) (n : Nat) : upTo a (a + (n + 1 : Nat)) = a :: upTo (a + 1) (a + 1 + n) := by
  apply List.ext_getElem?
  intro k
  rw [getElem?_upTo]
  cases k with
  | zero => rw [if_pos (by push_cast; omega)]; simp
  | succ k =>
    rw [List.getElem?_cons_succ, getElem?_upTo]
    by_cases h : (k : Int) < n
    · rw [if_pos (by push_cast; omega), if_pos (by omega)]; congr 1; push_cast; ring
    · rw [if_neg (by push_cast; omega), if_neg (by omega)]

theorem removeColsLoop_spec (rows : Int) (hrows : 0 ≤ rows) (cols : List Int) (l0 : List α) :
    ∀ (n : Nat) (rr ww : Int) (kept : List Int) (l : List α), Compact rows l0 l rr ww kept →
      (rr + n) * rows ≤ l0.length →
      ∃ l' , removeColsLoop rows cols (upTo rr (rr + n)) l ww
          = .ok (l', ((kept ++ (upTo rr (rr + n)).filter (fun j => decide (j ∉ cols))).length : Int)) ∧
        Compact rows l0 l' (rr + n) (kept ++ (upTo rr (rr + n)).filter (fun j => decide (j ∉ cols))).length
          (kept ++ (upTo rr (rr + n)).filter (fun j => decide (j ∉ cols))) := by
  intro n
  induction n with
  | zero =>
    intro rr ww kept l h _
    have hu : upTo rr (rr + ((0 : Nat) : Int)) = [] := by simp [upTo]
    rw [hu]
    refine ⟨l, ?_, ?_⟩
    · simp [removeColsLoop, h.cnt]
    · simpa [h.cnt] using h
  | succ n ih =>
    intro rr ww kept l h hlen
    rw [upTo_cons, show rr + ((n + 1 : Nat) : Int) = rr + 1 + n by push_cast; ring] at *
    unfold removeColsLoop
    by_cases hj : rr ∈ cols
    · rw [if_pos hj, List.filter_cons_of_neg (by simpa using hj)]
      exact ih (rr + 1) ww kept l (compact_skip hrows h rfl (fun _ _ => rfl)) hlen
    · rw [if_neg hj, List.filter_cons_of_pos (by simpa using hj)]
      have hww : 0 ≤ ww := by have := h.cnt; omega
      have hbnd : (rr + 1) * rows ≤ l.length := by
        rw [h.len]
        refine le_trans (mul_le_mul_of_nonneg_right ?_ hrows) hlen
        omega
      obtain ⟨l1, e, el, ec, eo⟩ := copyColumn_spec rows rr ww hrows hww h.le l hbnd
      rw [e, Outcome.ok_bind]
      have := ih (rr + 1) (ww + 1) (kept ++ [rr]) l1 (compact_keep hrows h el ec eo) hlen
      rw [List.append_assoc, List.singleton_append] at this
      exact this

theorem removeColsNanLoop_spec (bad : α → Bool) (rows : Int) (hrows : 0 ≤ rows) (l0 : List α) :
    ∀ (n : Nat) (rr ww : Int) (kept : List Int) (l : List α), Compact rows l0 l rr ww kept →
      (rr + n) * rows ≤ l0.length →
      ∃ l' kept', removeColsNanLoop bad rows n rr ww l = .ok (l', (kept'.length : Int)) ∧
        Compact rows l0 l' (rr + n) kept'.length kept' ∧
        ∃ more, kept' = kept ++ more ∧ more.Pairwise (· < ·) ∧
          ∀ j, j ∈ more ↔ (rr ≤ j ∧ j < rr + n ∧
            ∀ i, 0 ≤ i → i < rows → ∃ v, read l0 (j * rows + i) = .ok v ∧ bad v = false) := by
  intro n
  induction n with
  | zero =>
    intro rr ww kept l h _
    refine ⟨l, kept, by simp [removeColsNanLoop, h.cnt], by simpa [h.cnt] using h, [], by simp, by simp, ?_⟩
    intro j; simp; omega
  | succ n ih =>
    intro rr ww kept l h hlen
    rw [show rr + ((n + 1 : Nat) : Int) = rr + 1 + n by push_cast; ring] at *
    have hww : 0 ≤ ww := by have := h.cnt; omega
    have hbnd : (rr + 1) * rows ≤ l.length := by
      rw [h.len]
      refine le_trans (mul_le_mul_of_nonneg_right ?_ hrows) hlen
      omega
    obtain ⟨l1, b, e, el, eo, ec, eb⟩ := copyUntilBad_spec bad rows rr ww hww h.le rows.toNat 0 l (le_refl _)
      (by omega) hbnd
    have eo' : ∀ k, (k < ww * rows ∨ (ww + 1) * rows ≤ k) → read l1 k = read l k :=
      fun k hk => eo k (by omega)
    have hgood : b = false ↔ ∀ i, 0 ≤ i → i < rows → ∃ v, read l0 (rr * rows + i) = .ok v ∧ bad v = false := by
      rw [eb]
      constructor
      · intro hh i h0 h1; rw [← h.back _ (by omega)]; exact hh i h0 h1
      · intro hh i h0 h1; rw [h.back _ (by omega)]; exact hh i h0 h1
    unfold removeColsNanLoop
    rw [e, Outcome.ok_bind]
    cases b with
    | true =>
      obtain ⟨l', kept', e', c', more, hm, hs, hmem⟩ := ih (rr + 1) ww kept l1 (compact_skip hrows h el eo') hlen
      refine ⟨l', kept', e', c', more, hm, hs, ?_⟩
      intro j; rw [hmem]
      constructor
      · rintro ⟨a, b, c⟩; exact ⟨by omega, b, c⟩
      · rintro ⟨a, b, c⟩
        refine ⟨?_, b, c⟩
        by_contra hlt
        have : j = rr := by omega
        subst this
        have := hgood.2 c; simp at this
    | false =>
      obtain ⟨l', kept', e', c', more, hm, hs, hmem⟩ := ih (rr + 1) (ww + 1) (kept ++ [rr]) l1
        (compact_keep hrows h el (fun i h0 h1 => ec rfl i h0 h1) eo') hlen
      refine ⟨l', kept', e', c', rr :: more, by rw [hm]; simp, ?_, ?_⟩
      · refine List.Pairwise.cons (fun j hj => ?_) hs
        have := (hmem j).1 hj; omega
      · intro j
        rw [List.mem_cons, hmem]
        constructor
        · rintro (rfl | ⟨a, b, c⟩)
          · exact ⟨by omega, by omega, hgood.1 rfl⟩
          · exact ⟨by omega, b, c⟩
        · rintro ⟨a, b, c⟩
          by_cases hj : j = rr
          · left; exact hj
          · right; exact ⟨by omega, b, c⟩

end Mx
end LDT
