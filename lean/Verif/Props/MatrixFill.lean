import Verif.Lemmas.MatrixElem
import Mathlib.Algebra.BigOperators.Group.Finset.Basic
import Mathlib.Algebra.BigOperators.Ring.Finset
import Mathlib.Algebra.Order.BigOperators.Group.Finset
import Mathlib.Tactic.Ring
import Mathlib.Tactic.Linarith
/-!
# C63: filling matrices: constants, sequences, diagonals and triangles
-/
namespace LDT
namespace Mx
variable {α : Type}

theorem setValue_spec {m : Mat α} (w : m.Wf) (v : α) :
    ∃ res, m.setValue v = .ok res ∧ SameShape m res ∧ ∀ i j, m.InR i j → res.get i j = .ok v := by
  obtain ⟨res, e, s, c⟩ := cellLoop_spec m w m.length rfl (fun _ => .ok v) (fun _ _ _ => ⟨_, rfl⟩)
  refine ⟨res, e, s, fun i j h => ?_⟩
  rw [get_iff (s.wf w)]
  refine ⟨s.inR.2 h, ?_⟩
  rw [s.rows]
  exact c _ (InR.lin h).1 (InR.lin h).2

theorem setDiag_loop {m : Mat α} (w : m.Wf) (hsq : m.rows = m.cols) (v : α) :
    ∃ res, (upTo 0 m.rows).foldlM (fun (d : Mat α) i => d.set0 i i v) m = .ok res ∧ SameShape m res ∧
      ∀ i j, m.InR i j → res.get i j = if i = j then .ok v else m.get i j := by
  obtain ⟨res, e, s, c⟩ := loop_inv (a := 0) (b := m.rows) w.rows_nonneg (fun (d : Mat α) i => d.set0 i i v)
    (fun k (d : Mat α) => SameShape m d ∧ ∀ i j, m.InR i j → d.get i j = if i = j ∧ i < k then .ok v else m.get i j)
    (s := m) ⟨SameShape.refl _, fun i j h => by rw [if_neg]; have := h.1; omega⟩
    (fun k h0 h1 d ⟨s, c⟩ => by
      have hk : m.InR k k := ⟨h0, h1, h0, by omega⟩
      obtain ⟨d', e', s', c'⟩ := set0_spec (s.wf w) (s.inR.2 hk) v
      refine ⟨d', e', s.trans s', fun i j h => ?_⟩
      rw [get_eq_get0 (s'.wf (s.wf w)) (s'.inR.2 (s.inR.2 h)), c' i j (s.inR.2 h),
        ← get_eq_get0 (s.wf w) (s.inR.2 h), c i j h]
      split_ifs <;> first | rfl | (exfalso; omega))
  refine ⟨res, e, s, fun i j h => ?_⟩
  rw [c i j h]
  have := h.2.1
  congr 1; apply propext; omega

/-- Setting every cell, and setting an arithmetic sequence in memory order. -/
theorem C63_value (m : Mat α) (w : m.Wf) (v : α) :
    ∃ res, m.setValue v = .ok res ∧ SameShape m res ∧ ∀ i j, m.InR i j → res.get i j = .ok v := setValue_spec w v

theorem C63_sequence {K : Type} [Semiring K] (m : Mat K) (w : m.Wf) (start step : K) :
    ∃ res, m.setSequence start step = .ok res ∧ SameShape m res ∧
      ∀ i j, m.InR i j → res.get i j = .ok (start + ((i + m.rows * j).toNat : K) * step) := by
  unfold Mat.setSequence
  have hsz := w.size
  obtain ⟨res, e, s, -, c⟩ := loop_inv (a := 0) (b := m.length) w.len_nonneg (fun (d : Mat K × K) i => do
      let l ← write d.1.mem i d.2
      pure ({ d.1 with data := some l }, d.2 + step))
    (fun i d => SameShape m d.1 ∧ d.2 = start + (i.toNat : K) * step ∧
      ∀ k, 0 ≤ k → k < i → read d.1.mem k = .ok (start + (k.toNat : K) * step)) (s := (m, start))
    ⟨SameShape.refl _, by simp, fun k h1 h2 => by omega⟩
    (fun i h1 h2 d ⟨s, hd, c⟩ => by
      unfold Mat.length at h2
      have hlen : i < d.1.mem.length := by rw [s.len]; omega
      refine ⟨({ d.1 with data := some (d.1.mem.set i.toNat d.2) }, d.2 + step), ?_, ⟨s.rows, s.cols, ?_, ?_, ?_⟩, ?_, ?_⟩
      · simp only [write_ok_of d.2 h1 hlen, Outcome.ok_bind]; rfl
      · rw [w.data_eq]; rfl
      · show (d.1.mem.set _ _).length = _
        rw [List.length_set, s.len]
      · intro k hk
        show (d.1.mem.set _ _)[k]? = _
        rw [List.getElem?_set_ne (by omega)]; exact s.rest k hk
      · show d.2 + step = _
        have : (i + 1).toNat = i.toNat + 1 := by omega
        rw [hd, this]; push_cast; rw [add_mul, one_mul, add_assoc]
      · intro k h3 h4
        show read (d.1.mem.set _ _) k = _
        rw [read_set d.2 h1 hlen]
        split_ifs with hki
        · rw [hki, hd]
        · exact c k h3 (by omega))
  rw [e, Outcome.ok_bind]
  refine ⟨res.1, rfl, s, fun i j h => ?_⟩
  rw [get_iff (s.wf w)]
  refine ⟨s.inR.2 h, ?_⟩
  rw [s.rows]
  exact c _ (InR.lin h).1 (InR.lin h).2

/-- `SetValueDiag(diag)`: the diagonal of a square matrix and nothing else; other shapes are refused. -/
theorem C63_diag (m : Mat α) (w : m.Wf) (v : α) :
    (m.rows = m.cols → ∃ res, m.setValueDiag v = .ok res ∧ SameShape m res ∧
      ∀ i j, m.InR i j → res.get i j = if i = j then .ok v else m.get i j) ∧
    (m.rows ≠ m.cols → m.setValueDiag v = .throws) := by
  unfold Mat.setValueDiag
  exact ⟨fun h => by rw [if_neg (by omega)]; exact setDiag_loop w h v, fun h => if_pos h⟩

/-- `SetValueDiag(diag, off_diag)` and `Diagonal`: all cells of a square matrix. -/
theorem C63_diag_off (m : Mat α) (w : m.Wf) (v off : α) :
    (m.rows = m.cols → ∃ res, m.setValueDiag2 v off = .ok res ∧ m.diagonal v off = .ok res ∧ SameShape m res ∧
      ∀ i j, m.InR i j → res.get i j = .ok (if i = j then v else off)) ∧
    (m.rows ≠ m.cols → m.setValueDiag2 v off = .throws ∧ m.diagonal v off = .throws) := by
  unfold Mat.setValueDiag2 Mat.diagonal
  refine ⟨fun h => ?_, fun h => ⟨if_pos h, if_pos h⟩⟩
  obtain ⟨r1, e1, s1, c1⟩ := setValue_spec w off
  have hsq : r1.rows = r1.cols := by rw [s1.rows, s1.cols, h]
  obtain ⟨r2, e2, s2, c2⟩ := setDiag_loop (s1.wf w) hsq v
  refine ⟨r2, ?_, ?_, s1.trans s2, fun i j hij => ?_⟩
  · rw [if_neg (by omega), e1, Outcome.ok_bind]
    unfold Mat.setValueDiag
    rw [if_neg (by omega), e2]
  · rw [if_neg (by omega), e1, Outcome.ok_bind, ← s1.rows, e2]
  · rw [c2 i j (s1.inR.2 hij), c1 i j hij]
    split_ifs <;> rfl

/-- `SetValueOffDiag`: everything but the diagonal. -/
theorem C63_off_diag (m : Mat α) (w : m.Wf) (off : α) :
    (m.rows = m.cols → ∃ res, m.setValueOffDiag off = .ok res ∧ SameShape m res ∧
      ∀ i j, m.InR i j → res.get i j = if i = j then m.get i j else .ok off) ∧
    (m.rows ≠ m.cols → m.setValueOffDiag off = .throws) := by
  unfold Mat.setValueOffDiag
  refine ⟨fun h => ?_, fun h => if_pos h⟩
  rw [if_neg (by omega)]
  obtain ⟨res, e, s, c⟩ := loop_inv (a := 0) (b := m.rows) w.rows_nonneg (fun d i =>
      (upTo 0 m.rows).foldlM (fun (d : Mat α) j => if i ≠ j then d.set0 i j off else .ok d) d)
    (fun k (d : Mat α) => SameShape m d ∧ ∀ i j, m.InR i j → d.get i j = if i ≠ j ∧ i < k then .ok off else m.get i j)
    (s := m) ⟨SameShape.refl _, fun i j hij => by rw [if_neg]; have := hij.1; omega⟩
    (fun k h0 h1 d ⟨s, c⟩ => by
      obtain ⟨d', e', s', c'⟩ := loop_inv (a := 0) (b := m.rows) w.rows_nonneg
        (fun (d : Mat α) j => if k ≠ j then d.set0 k j off else .ok d)
        (fun l (d' : Mat α) => SameShape m d' ∧ ∀ i j, m.InR i j →
          d'.get i j = if i ≠ j ∧ (i < k ∨ i = k ∧ j < l) then .ok off else m.get i j)
        (s := d) ⟨s, fun i j hij => by
          rw [c i j hij]; congr 1; apply propext
          have := hij.2.2.1; omega⟩
        (fun l l0 l1 d ⟨s, c⟩ => by
          by_cases hkl : k = l
          · refine ⟨d, if_neg (by simpa using hkl), s, fun i j hij => ?_⟩
            rw [c i j hij]; congr 1; apply propext; omega
          · have hk : m.InR k l := ⟨h0, h1, l0, by omega⟩
            obtain ⟨d', e', s', c'⟩ := set0_spec (s.wf w) (s.inR.2 hk) off
            refine ⟨d', by rw [if_pos hkl]; exact e', s.trans s', fun i j h => ?_⟩
            rw [get_eq_get0 (s'.wf (s.wf w)) (s'.inR.2 (s.inR.2 h)), c' i j (s.inR.2 h),
              ← get_eq_get0 (s.wf w) (s.inR.2 h), c i j h]
            split_ifs <;> first | rfl | (exfalso; omega))
      refine ⟨d', e', s', fun i j hij => ?_⟩
      rw [c' i j hij]; congr 1; apply propext
      have := hij.2.2.2; omega)
  refine ⟨res, e, s, fun i j hij => ?_⟩
  rw [c i j hij]
  have := hij.2.1
  split_ifs <;> first | rfl | (exfalso; omega)

/-- `GetDiag`: the diagonal in order, at the beginning of the storage. -/
theorem C63_get_diag (m storage : Mat α) (w : m.Wf) (ws : storage.Wf) :
    (m.rows = m.cols → m.rows ≤ storage.length → ∃ res, m.getDiag storage = .ok res ∧ SameShape storage res ∧
      (∀ i, 0 ≤ i → i < m.rows → res.getLin i = m.get i i) ∧
      ∀ k, m.rows ≤ k → res.getLin k = storage.getLin k) ∧
    (m.rows ≠ m.cols ∨ storage.length < m.rows → m.getDiag storage = .throws) := by
  unfold Mat.getDiag
  refine ⟨fun hsq hl => ?_, fun h => by split_ifs <;> first | rfl | (exfalso; omega)⟩
  rw [if_neg (by omega), if_neg (by omega)]
  have hsz := ws.size
  obtain ⟨res, e, s, -, c, c'⟩ := loop_inv (a := 0) (b := m.rows) w.rows_nonneg (fun (d : Mat α × Int) i => do
      let v ← read m.mem d.2
      let l ← write d.1.mem i v
      pure ({ d.1 with data := some l }, d.2 + (m.rows + 1)))
    (fun i d => SameShape storage d.1 ∧ d.2 = i + m.rows * i ∧ (∀ k, 0 ≤ k → k < i → read d.1.mem k = m.get k k) ∧
      ∀ k, i ≤ k → read d.1.mem k = read storage.mem k)
    (s := (storage, 0)) ⟨SameShape.refl _, by simp, fun k h1 h2 => by omega, fun _ _ => rfl⟩
    (fun i h1 h2 d ⟨s, hd, c, c'⟩ => by
      have hi : m.InR i i := ⟨h1, h2, h1, by omega⟩
      have hlen : i < d.1.mem.length := by rw [s.len]; unfold Mat.length at hl; omega
      obtain ⟨v, hv⟩ := get0_ok w hi
      have hv' : read m.mem d.2 = .ok v := by rw [hd]; exact hv
      refine ⟨({ d.1 with data := some (d.1.mem.set i.toNat v) }, d.2 + (m.rows + 1)), ?_, ⟨s.rows, s.cols, ?_, ?_, ?_⟩,
        ?_, ?_, ?_⟩
      · simp only [hv', write_ok_of v h1 hlen, Outcome.ok_bind]; rfl
      · rw [ws.data_eq]; rfl
      · show (d.1.mem.set _ _).length = _
        rw [List.length_set, s.len]
      · intro k hk
        show (d.1.mem.set _ _)[k]? = _
        unfold Mat.length at hl
        rw [List.getElem?_set_ne (by omega)]; exact s.rest k hk
      · show d.2 + (m.rows + 1) = _
        rw [hd]; ring
      · intro k h3 h4
        show read (d.1.mem.set _ _) k = _
        rw [read_set v h1 hlen]
        split_ifs with hki
        · rw [hki, get_eq_get0 w hi]; exact hv.symm
        · exact c k h3 (by omega)
      · intro k h3
        show read (d.1.mem.set _ _) k = _
        rw [read_set v h1 hlen, if_neg (by omega)]
        exact c' k (by omega))
  rw [e, Outcome.ok_bind]
  refine ⟨res.1, rfl, s, fun i h0 h1 => ?_, fun k hk => ?_⟩
  · unfold Mat.getLin
    rw [if_neg (by rw [(s.wf ws).data_eq]; simp), if_neg]
    · exact c i h0 h1
    · have : res.1.length = storage.length := by unfold Mat.length; rw [s.rows, s.cols]
      omega
  · have : res.1.length = storage.length := by unfold Mat.length; rw [s.rows, s.cols]
    unfold Mat.getLin
    simp only [(s.wf ws).data_eq, ws.data_eq, this, c' k hk]
    rfl

/-! ## Triangular matrices -/

/-- The number of elements before cell `(i, j)` when the rows of a triangle are read one after the other: row `r` of
an `n × n` triangle has `n - e - r` elements, beginning at column `r + e` (`e = 0` with the diagonal, `1` without). -/
def triIndex (n e i j : Int) : Int := (∑ r ∈ Finset.range i.toNat, (n - e - r)) + (j - i - e)

theorem triIndex_col (n e i j : Int) : triIndex n e i (j + 1) = triIndex n e i j + 1 := by unfold triIndex; ring

theorem triIndex_row (n e i : Int) (hi : 0 ≤ i) : triIndex n e (i + 1) (i + 1 + e) = triIndex n e i (n - 1) + 1 := by
  unfold triIndex
  have : (i + 1).toNat = i.toNat + 1 := by omega
  rw [this, Finset.sum_range_succ]
  have : ((i.toNat : Nat) : Int) = i := by omega
  rw [this]; ring

theorem triIndex_sum (n e : Int) (q : Nat) : 2 * (∑ r ∈ Finset.range q, (n - e - (r : Int))) = q * (2 * (n - e) - q + 1) := by
  induction q with
  | zero => simp
  | succ q ih => rw [Finset.sum_range_succ, mul_add, ih]; push_cast; ring

theorem triIndex_nonneg {n e i j : Int} (hi : 0 ≤ i) (hj : i + e ≤ j) (hn : i ≤ n - e) : 0 ≤ triIndex n e i j := by
  unfold triIndex
  have : 0 ≤ ∑ r ∈ Finset.range i.toNat, (n - e - (r : Int)) :=
    Finset.sum_nonneg (fun r hr => by rw [Finset.mem_range] at hr; omega)
  omega

/-- The state of the walk before element `k`: the next cell is `(q, r)` in the triangle, at position `q * n + r`. -/
structure TriPos (n e k P q r : Int) : Prop where
  q0 : 0 ≤ q
  qr : q + e ≤ r
  rn : r < n ∨ q + e = n ∧ r = n
  pos : P = q * n + r
  idx : k = triIndex n e q r

/-- Cells before `(q, r)` in row order. -/
def Before (e q r a b : Int) : Prop := a + e ≤ b ∧ (a < q ∨ a = q ∧ b < r)

instance (e q r a b : Int) : Decidable (Before e q r a b) := by unfold Before; infer_instance

/-- One step of either walk, by its position `P` in row-major order. -/
def triStepGen (e : Int) (up sym : Bool) (m : Int) (s : Mat α × Int) (d : α) : Outcome (Mat α × Int) := do
  let st ← triFirst up s.1 (s.2.tdiv m) (s.2.tmod m) d
  let st ← triMirror sym st (s.2.tdiv m) (s.2.tmod m) d
  pure (st, (if s.2.tmod m = m - 1 then s.2 + (s.2.tdiv m + 1 + e) else s.2) + 1)

/-- What cell `(a, b)` holds when the triangle is filled up to `(q, r)`. -/
def triCell (e : Int) (up sym : Bool) (n : Int) (storage elements : Mat α) (q r a b : Int) : Outcome α :=
  if up = true ∧ Before e q r a b then elements.getLin (triIndex n e a b)
  else if (up = false ∨ sym = true) ∧ Before e q r b a then elements.getLin (triIndex n e b a)
  else storage.get a b

theorem tri_step {storage elements : Mat α} (w : storage.Wf) (hsq : storage.rows = storage.cols) {n e : Int}
    (hn : n = storage.rows) (he : e = 0 ∨ e = 1) (up sym : Bool) {k P q r : Int} (hp : TriPos n e k P q r) (hr : r < n)
    {v : α} (hv : elements.getLin k = .ok v) {d : Mat α} (s : SameShape storage d)
    (c : ∀ a b, storage.InR a b → d.get a b = triCell e up sym n storage elements q r a b) :
    ∃ d' P' q' r', triStepGen e up sym n (d, P) v = .ok (d', P') ∧ SameShape storage d' ∧ TriPos n e (k + 1) P' q' r' ∧
      ∀ a b, storage.InR a b → d'.get a b = triCell e up sym n storage elements q' r' a b := by
  obtain ⟨q0, qr, rn, pos, idx⟩ := hp
  have n0 : 0 < n := by omega
  have hq : P.tdiv n = q := by
    rw [pos, Int.tdiv_eq_ediv_of_nonneg (by have := Int.mul_nonneg q0 (le_of_lt n0); rcases he with rfl | rfl <;> omega), add_comm, Int.add_mul_ediv_right _ _ (by omega),
      Int.ediv_eq_zero_of_lt (by omega) (by omega), zero_add]
  have hrm : P.tmod n = r := by
    have h := Int.mul_tdiv_add_tmod P n
    rw [hq] at h
    linarith [mul_comm n q]
  have hqr : storage.InR q r := ⟨q0, by omega, by omega, by omega⟩
  have hrq : storage.InR r q := ⟨by omega, by omega, q0, by omega⟩
  have wd := s.wf w
  -- the content after the writes
  have key : ∃ d1 d', triFirst up d q r v = .ok d1 ∧ triMirror sym d1 q r v = .ok d' ∧ SameShape storage d' ∧
      ∀ a b, storage.InR a b → d'.get a b =
        if (up = true ∧ a = q ∧ b = r) ∨ ((up = false ∨ sym = true) ∧ a = r ∧ b = q) then .ok v else d.get a b := by
    have one : ∀ (d : Mat α), SameShape storage d → ∀ i j, storage.InR i j → ∃ d', d.set0 i j v = .ok d' ∧
        SameShape storage d' ∧ ∀ a b, storage.InR a b → d'.get a b = if a = i ∧ b = j then .ok v else d.get a b := by
      intro d s i j hij
      obtain ⟨d', e', s', c'⟩ := set0_spec (s.wf w) (s.inR.2 hij) v
      refine ⟨d', e', s.trans s', fun a b h => ?_⟩
      rw [get_eq_get0 (s'.wf (s.wf w)) (s'.inR.2 (s.inR.2 h)), c' a b (s.inR.2 h), ← get_eq_get0 (s.wf w) (s.inR.2 h)]
    unfold triFirst triMirror
    cases up
    · obtain ⟨d1, e1, s1, c1⟩ := one d s r q hrq
      cases sym
      · exact ⟨d1, d1, e1, rfl, s1, fun a b h => by rw [c1 a b h]; simp⟩
      · obtain ⟨d2, e2, s2, c2⟩ := one d1 s1 r q hrq
        refine ⟨d1, d2, e1, e2, s2, fun a b h => ?_⟩
        rw [c2 a b h, c1 a b h]
        split_ifs <;> first | rfl | (exfalso; simp at *; omega)
    · obtain ⟨d1, e1, s1, c1⟩ := one d s q r hqr
      cases sym
      · exact ⟨d1, d1, e1, rfl, s1, fun a b h => by rw [c1 a b h]; simp⟩
      · obtain ⟨d2, e2, s2, c2⟩ := one d1 s1 r q hrq
        refine ⟨d1, d2, e1, e2, s2, fun a b h => ?_⟩
        rw [c2 a b h, c1 a b h]
        simp only [true_and, or_true]
        split_ifs <;> first | rfl | (exfalso; omega)
  obtain ⟨d1, d', e1, e', s', c'⟩ := key
  have heval : triStepGen e up sym n (d, P) v = .ok (d', (if r = n - 1 then P + (q + 1 + e) else P) + 1) := by
    unfold triStepGen
    simp only [hq, hrm, e1, e', Outcome.ok_bind, Outcome.pure_eq]
  -- the new content in the form of `triCell`
  have content : ∀ q' r', (∀ a b, a < n → b < n → (Before e q' r' a b ↔ (Before e q r a b ∨ (a = q ∧ b = r)))) →
      ∀ a b, storage.InR a b → d'.get a b = triCell e up sym n storage elements q' r' a b := by
    intro q' r' hb a b hab
    obtain ⟨a0, a1, b0, b1⟩ := hab
    have hb1 := hb a b (by omega) (by omega)
    have hb2 := hb b a (by omega) (by omega)
    rw [c' a b ⟨a0, a1, b0, b1⟩, c a b ⟨a0, a1, b0, b1⟩]
    unfold triCell
    simp only [hb1, hb2]
    by_cases hU : up = true ∧ a = q ∧ b = r
    · rw [if_pos (Or.inl hU), if_pos ⟨hU.1, Or.inr hU.2⟩, hU.2.1, hU.2.2, ← idx, hv]
    · by_cases hL : (up = false ∨ sym = true) ∧ a = r ∧ b = q
      · rw [if_pos (Or.inr hL)]
        have hnb : ¬ (up = true ∧ (Before e q r a b ∨ a = q ∧ b = r)) := by
          rintro ⟨hu, h | h⟩
          · unfold Before at h; omega
          · exact hU ⟨hu, h⟩
        rw [if_neg hnb, if_pos ⟨hL.1, Or.inr ⟨hL.2.2, hL.2.1⟩⟩, hL.2.1, hL.2.2, ← idx, hv]
      · rw [if_neg (not_or.2 ⟨hU, hL⟩)]
        have e1 : (up = true ∧ (Before e q r a b ∨ a = q ∧ b = r)) ↔ (up = true ∧ Before e q r a b) :=
          ⟨fun ⟨h1, h2⟩ => ⟨h1, h2.resolve_right (fun h => hU ⟨h1, h⟩)⟩, fun ⟨h1, h2⟩ => ⟨h1, Or.inl h2⟩⟩
        have e2 : ((up = false ∨ sym = true) ∧ (Before e q r b a ∨ b = q ∧ a = r)) ↔
            ((up = false ∨ sym = true) ∧ Before e q r b a) :=
          ⟨fun ⟨h1, h2⟩ => ⟨h1, h2.resolve_right (fun h => hL ⟨h1, h.2, h.1⟩)⟩, fun ⟨h1, h2⟩ => ⟨h1, Or.inl h2⟩⟩
        simp only [e1, e2]
  by_cases hlast : r = n - 1
  · refine ⟨d', (q + 1) * n + (q + 1 + e), q + 1, q + 1 + e, ?_, s', ⟨by omega, le_refl _, by omega, rfl, ?_⟩, ?_⟩
    · rw [heval, if_pos hlast, pos, hlast]; congr 2; ring
    · rw [triIndex_row n e q q0, idx, hlast]
    · apply content
      intro a b ha hb
      unfold Before
      rcases he with rfl | rfl <;> omega
  · refine ⟨d', P + 1, q, r + 1, by rw [heval, if_neg hlast], s', ⟨q0, by omega, by omega, by omega, ?_⟩, ?_⟩
    · rw [triIndex_col, idx]
    · apply content
      intro a b ha hb
      unfold Before
      rcases he with rfl | rfl <;> omega

theorem stepDiag_gen (up sym : Bool) (n : Int) (d d' : Mat α) (P P' : Int) (v : α)
    (h : triStepGen 0 up sym n (d, P) v = .ok (d', P')) : triStepDiag up sym n (d, P - 0) v = .ok (d', P' - 0) := by
  unfold triStepGen at h
  unfold triStepDiag
  simp only [sub_zero, add_zero] at h ⊢
  exact h

theorem bind_inv {β γ : Type} {x : Outcome β} {f : β → Outcome γ} {c : γ} (h : (x >>= f) = .ok c) :
    ∃ b, x = .ok b ∧ f b = .ok c := by
  cases x with
  | ok b => exact ⟨b, rfl, h⟩
  | throws => cases h
  | ub => cases h
  | diverges => cases h

theorem stepNo_gen (up sym : Bool) (n : Int) (d d' : Mat α) (P P' : Int) (v : α)
    (h : triStepGen 1 up sym n (d, P) v = .ok (d', P')) : triStepNo up sym n (d, P - 1) v = .ok (d', P' - 1) := by
  unfold triStepGen at h
  unfold triStepNo
  simp only [sub_add_cancel] at h ⊢
  obtain ⟨a, h1, h⟩ := bind_inv h
  obtain ⟨b, h2, h⟩ := bind_inv h
  rw [h1, Outcome.ok_bind, h2, Outcome.ok_bind]
  rw [Outcome.pure_eq, Outcome.ok.injEq, Prod.mk.injEq] at h ⊢
  refine ⟨h.1, ?_⟩
  rw [← h.2]
  split_ifs <;> ring

theorem getLin_ok {m : Mat α} (w : m.Wf) {k : Int} (h0 : 0 ≤ k) (h1 : k < m.length) :
    ∃ v, m.getLin k = .ok v ∧ read m.mem k = .ok v := by
  obtain ⟨v, hv⟩ := w.read_lin h0 h1
  refine ⟨v, ?_, hv⟩
  unfold Mat.getLin
  rw [if_neg (by rw [w.data_eq]; simp), if_neg (by omega)]
  exact hv

theorem triLoop_spec {storage elements : Mat α} (w : storage.Wf) (we : elements.Wf) (hsq : storage.rows = storage.cols)
    {n e : Int} (hn : n = storage.rows) (he : e = 0 ∨ e = 1) (up sym : Bool)
    (step : Mat α × Int → α → Outcome (Mat α × Int))
    (hstep : ∀ d P v d' P', triStepGen e up sym n (d, P) v = .ok (d', P') → step (d, P - e) v = .ok (d', P' - e))
    (hlen : 2 * elements.length = (n - e) * (n - e + 1)) :
    ∃ res, triLoop step elements storage = .ok res ∧ SameShape storage res ∧ ∀ a b, storage.InR a b → res.get a b =
      if up = true ∧ a + e ≤ b then elements.getLin (triIndex n e a b)
      else if (up = false ∨ sym = true) ∧ b + e ≤ a then elements.getLin (triIndex n e b a)
      else storage.get a b := by
  have hr0 := w.rows_nonneg
  have hl0 := we.len_nonneg
  unfold triLoop
  rcases Int.lt_or_le (n - e) 0 with hneg | hpos
  · have hz : elements.length = 0 := by
      have h0 : n = 0 := by omega
      have h1 : e = 1 := by omega
      rw [h0, h1] at hlen; omega
    refine ⟨storage, by rw [hz]; rfl, SameShape.refl _, fun a b h => ?_⟩
    have := h.1; have := h.2.1; omega
  -- the bound on the index inside the triangle
  have inside : ∀ q r, 0 ≤ q → q + e ≤ r → r < n → triIndex n e q r < elements.length := by
    intro q r q0 qr rn
    have hs := triIndex_sum n e q.toNat
    have hq : ((q.toNat : Nat) : Int) = q := by omega
    rw [hq] at hs
    unfold triIndex
    have ht : 0 ≤ n - e - q - 1 := by omega
    nlinarith
  have full : triIndex n e (n - e) n = elements.length := by
    have hs := triIndex_sum n e (n - e).toNat
    have hq : (((n - e).toNat : Nat) : Int) = n - e := by omega
    rw [hq] at hs
    unfold triIndex
    have : n - (n - e) - e = 0 := by ring
    rw [this]
    nlinarith
  obtain ⟨res, er, sr, P, q, r, hp, hi, c⟩ := loop_inv (a := 0) (b := elements.length) hl0
    (fun (s : Mat α × Int) k => do
      let d ← read elements.mem k
      step s d)
    (fun k (s : Mat α × Int) => SameShape storage s.1 ∧ ∃ P q r, TriPos n e k P q r ∧ s.2 = P - e ∧
      ∀ a b, storage.InR a b → s.1.get a b = triCell e up sym n storage elements q r a b)
    (s := (storage, 0))
    ⟨SameShape.refl _, e, 0, e, ⟨le_refl _, by omega, by omega, by ring, by unfold triIndex; simp⟩, by simp,
      fun a b h => by
        have h1 : ¬ Before e 0 e a b := by unfold Before; have := h.1; have := h.2.2.1; omega
        have h2 : ¬ Before e 0 e b a := by unfold Before; have := h.1; have := h.2.2.1; omega
        unfold triCell
        rw [if_neg (fun h => h1 h.2), if_neg (fun h => h2 h.2)]⟩
    (fun k h0 h1 s ⟨ss, P, q, r, hp, hi, c⟩ => by
      obtain ⟨v, hv, hrd⟩ := getLin_ok we h0 h1
      have hrn : r < n := by
        rcases hp.rn with h | ⟨h, h'⟩
        · exact h
        · exfalso
          have := hp.idx
          rw [h', show q = n - e by omega, full] at this
          omega
      obtain ⟨d', P', q', r', e', s', hp', c'⟩ := tri_step w hsq hn he up sym hp hrn hv ss c
      refine ⟨(d', P' - e), ?_, s', P', q', r', hp', rfl, c'⟩
      rw [hrd, Outcome.ok_bind, show s = (s.1, P - e) from by rw [← hi]]
      exact hstep _ _ _ _ _ e')
  refine ⟨res.1, by rw [er]; rfl, sr, fun a b hab => ?_⟩
  have hend : q + e = n ∧ r = n := by
    rcases hp.rn with h | h
    · exfalso
      have := inside q r hp.q0 hp.qr h
      have := hp.idx
      omega
    · exact h
  rw [c a b hab]
  unfold triCell
  obtain ⟨a0, a1, b0, b1⟩ := hab
  have e1 : Before e q r a b ↔ a + e ≤ b := by unfold Before; omega
  have e2 : Before e q r b a ↔ b + e ≤ a := by unfold Before; omega
  simp only [e1, e2]

/-- How many elements a triangle of an `n × n` matrix has. -/
def triCount (n : Int) (diag : Bool) : Int := if diag then n * (n + 1) / 2 else n * (n - 1) / 2

/-- `MakeTriangular`: with `up = 1` the upper triangle is filled row by row, with `up = 0` also the mirrored cells
are set, otherwise the lower triangle is filled column by column; nothing else changes.  A non-square storage, a wrong
number of elements and the unsupported order are refused. -/
theorem C63_triangular (storage elements : Mat α) (w : storage.Wf) (we : elements.Wf) (up : Int) (diag byrow : Bool) :
    (storage.rows = storage.cols → elements.length = triCount storage.rows diag → (byrow = true ↔ up = 0 ∨ up = 1) →
      ∃ res, storage.makeTriangular elements up diag byrow = .ok res ∧ SameShape storage res ∧
        ∀ i j, storage.InR i j →
          let e : Int := if diag then 0 else 1
          res.get i j =
            if (up = 0 ∨ up = 1) ∧ i + e ≤ j then elements.getLin (triIndex storage.rows e i j)
            else if up ≠ 1 ∧ j + e ≤ i then elements.getLin (triIndex storage.rows e j i)
            else storage.get i j) ∧
    (storage.rows ≠ storage.cols ∨ elements.length ≠ triCount storage.rows diag ∨ ¬ (byrow = true ↔ up = 0 ∨ up = 1) →
      storage.makeTriangular elements up diag byrow = .throws) := by
  have hr0 := w.rows_nonneg
  have n1 : 0 ≤ storage.rows * (storage.rows + 1) := Int.mul_nonneg hr0 (by omega)
  have n2 : 0 ≤ storage.rows * (storage.rows - 1) := by
    rcases Int.lt_or_le 0 storage.rows with h | h
    · exact Int.mul_nonneg hr0 (by omega)
    · rw [show storage.rows = 0 by omega]; simp
  have d1 : (storage.rows * (storage.rows + 1)).tdiv 2 = storage.rows * (storage.rows + 1) / 2 :=
    Int.tdiv_eq_ediv_of_nonneg n1
  have d2 : (storage.rows * (storage.rows - 1)).tdiv 2 = storage.rows * (storage.rows - 1) / 2 :=
    Int.tdiv_eq_ediv_of_nonneg n2
  have ev1 : storage.rows * (storage.rows + 1) % 2 = 0 := by
    rcases Int.emod_two_eq_zero_or_one storage.rows with h | h <;> simp [Int.mul_emod, Int.add_emod, h]
  have ev2 : storage.rows * (storage.rows - 1) % 2 = 0 := by
    rcases Int.emod_two_eq_zero_or_one storage.rows with h | h <;> simp [Int.mul_emod, Int.sub_emod, h]
  unfold Mat.makeTriangular triCount
  rw [d1, d2]
  constructor
  · intro hsq hlen hby
    have hlen' : 2 * elements.length = (storage.rows - (if diag then 0 else 1)) * (storage.rows - (if diag then 0 else 1) + 1) := by
      cases diag
      · simp only [Bool.false_eq_true, if_false] at hlen ⊢
        rw [show (storage.rows - 1) * (storage.rows - 1 + 1) = storage.rows * (storage.rows - 1) by ring]; omega
      · simp only [if_true, sub_zero] at hlen ⊢; omega
    rw [if_neg (by omega), if_neg (by rintro ⟨h1, h2⟩; rw [h1] at hlen; exact h2 hlen),
      if_neg (by rintro ⟨h1, h2⟩; rw [h1] at hlen; exact h2 hlen)]
    unfold Mat.makeTriangular0
    by_cases hup : up = 0 ∨ up = 1
    · rw [if_pos hup, if_pos (hby.2 hup)]
      cases diag
      · obtain ⟨res, er, s, c⟩ := triLoop_spec w we hsq rfl (Or.inr rfl) true (up = 0) _
          (fun d P v d' P' => stepNo_gen true (up = 0) _ d d' P P' v) hlen'
        refine ⟨res, er, s, fun i j h => ?_⟩
        simp only [hup, true_and]
        rw [c i j h]
        simp only [true_and, Bool.true_eq_false, false_or, decide_eq_true_eq, Bool.false_eq_true, if_false]
        congr 2
        apply propext
        omega
      · obtain ⟨res, er, s, c⟩ := triLoop_spec w we hsq rfl (Or.inl rfl) true (up = 0) _
          (fun d P v d' P' => stepDiag_gen true (up = 0) _ d d' P P' v) hlen'
        refine ⟨res, er, s, fun i j h => ?_⟩
        simp only [hup, true_and]
        rw [c i j h]
        simp only [true_and, Bool.true_eq_false, false_or, decide_eq_true_eq, if_true]
        congr 2
        apply propext
        omega
    · rw [if_neg hup, if_pos (by rw [← Bool.not_eq_true]; exact fun h => hup (hby.1 h))]
      cases diag
      · obtain ⟨res, er, s, c⟩ := triLoop_spec w we hsq rfl (Or.inr rfl) false false _
          (fun d P v d' P' => stepNo_gen false false _ d d' P P' v) hlen'
        refine ⟨res, er, s, fun i j h => ?_⟩
        simp only [hup, false_and, if_false]
        rw [c i j h]
        simp only [Bool.false_eq_true, false_and, if_false, true_or, true_and]
        congr 1
        apply propext
        omega
      · obtain ⟨res, er, s, c⟩ := triLoop_spec w we hsq rfl (Or.inl rfl) false false _
          (fun d P v d' P' => stepDiag_gen false false _ d d' P P' v) hlen'
        refine ⟨res, er, s, fun i j h => ?_⟩
        simp only [hup, false_and, if_false]
        rw [c i j h]
        simp only [Bool.false_eq_true, false_and, if_false, true_or, true_and, if_true]
        congr 1
        apply propext
        omega
  · intro h
    by_cases hsq : storage.rows = storage.cols
    · by_cases hlen : elements.length = if diag = true then storage.rows * (storage.rows + 1) / 2
          else storage.rows * (storage.rows - 1) / 2
      · have hby : ¬ (byrow = true ↔ up = 0 ∨ up = 1) := by
          rcases h with h | h | h
          · exact absurd hsq h
          · exact absurd hlen h
          · exact h
        rw [if_neg (by omega), if_neg (by rintro ⟨h1, h2⟩; rw [h1] at hlen; exact h2 hlen),
          if_neg (by rintro ⟨h1, h2⟩; rw [h1] at hlen; exact h2 hlen)]
        unfold Mat.makeTriangular0
        by_cases hup : up = 0 ∨ up = 1
        · rw [if_pos hup, if_neg (fun hb => hby ⟨fun _ => hup, fun _ => hb⟩)]
        · rw [if_neg hup, if_neg (fun (hb : byrow = false) => hby ⟨fun hb' => by rw [hb] at hb'; exact absurd hb' (by simp),
            fun hu => absurd hu hup⟩)]
      · rw [if_neg (by omega)]
        cases diag
        · simp only [Bool.false_eq_true, if_false] at hlen
          rw [if_neg (by simp), if_pos ⟨rfl, hlen⟩]
        · simp only [if_true] at hlen
          rw [if_pos ⟨rfl, hlen⟩]
    · rw [if_pos hsq]

/-! Concrete instances. -/
example : ∃ r, (⟨3, 3, some (List.replicate 9 0)⟩ : Mat Nat).makeTriangular ⟨6, 1, some [1, 2, 3, 4, 5, 6]⟩ 0 true true = .ok r ∧
    r.data = some [1, 2, 3, 2, 4, 5, 3, 5, 6] := ⟨_, rfl, by decide +kernel⟩
example : ∃ r, (⟨3, 3, some (List.replicate 9 0)⟩ : Mat Nat).makeTriangular ⟨3, 1, some [1, 2, 3]⟩ 2 false false = .ok r ∧
    r.data = some [0, 1, 2, 0, 0, 3, 0, 0, 0] := ⟨_, rfl, by decide +kernel⟩
example : (triIndex 3 0 0 2, triIndex 3 0 1 1, triIndex 3 0 2 2, triIndex 3 1 1 2) = (2, 3, 5, 2) := by decide +kernel
example : ∃ r, (⟨2, 2, some [1, 2, 3, 4]⟩ : Mat Nat).setValueOffDiag 9 = .ok r ∧ r.data = some [1, 9, 9, 4] :=
  ⟨_, rfl, by decide +kernel⟩
example : ∃ r, (⟨2, 2, some [1, 2, 3, 4]⟩ : Mat Nat).getDiag ⟨3, 1, some [0, 0, 7]⟩ = .ok r ∧ r.data = some [1, 4, 7] :=
  ⟨_, rfl, by decide +kernel⟩

end Mx
end LDT
