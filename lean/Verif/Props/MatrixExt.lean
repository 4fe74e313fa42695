import Verif.Model.MatrixExt
import Verif.Props.MatrixStd
/-!
# C67: extreme cells and their positions
-/
namespace LDT
namespace Mx
open Stat
open Arr (Val)

variable {K : Type} [LinearOrder K]

/-- `(v, k)` is an extreme of the list under `worse` (`worse y v`: `y` is beaten by `v`): `v` stands at position `k`,
nothing beats it, and everything before it is beaten. -/
structure IsExt (worse : K → K → Prop) (xs : List (Val K)) (v : K) (k : Nat) : Prop where
  at_pos : xs[k]? = some (some v)
  best : ∀ x, some x ∈ xs → x = v ∨ worse x v
  first : ∀ (i : Nat) x, i < k → xs[i]? = some (some x) → worse x v

/-- Same, or no number at all. -/
def ExtOf (worse : K → K → Prop) (xs : List (Val K)) (r : Option (K × Int)) : Prop :=
  match r with
  | none => ∀ x, some x ∉ xs
  | some (v, k) => ∃ q : Nat, k = q ∧ IsExt worse xs v q

theorem ext_fold (better : K → K → Bool) (worse : K → K → Prop) (hb : ∀ x y, better x y = true ↔ worse y x)
    (trans : ∀ x y z, worse x y → worse y z → worse x z) (total : ∀ x y, worse x y ∨ x = y ∨ worse y x)
    (xs : List (Val K)) : ExtOf worse xs (foldPos (extStep better) none xs 0) := by
  induction xs using List.reverseRecOn with
  | nil => intro x h; simp at h
  | append_singleton xs x ih =>
    rw [foldPos_snoc]
    cases x with
    | none =>
      show ExtOf worse _ (foldPos (extStep better) none xs 0)
      cases h : foldPos (extStep better) none xs 0 with
      | none => rw [h] at ih; intro x hx; simp at hx; exact ih x hx
      | some r =>
        rw [h] at ih
        obtain ⟨q, hq, a, b, c⟩ := ih
        have hlt : q < xs.length := by rw [List.getElem?_eq_some_iff] at a; exact a.1
        exact ⟨q, hq, by rw [List.getElem?_append_left hlt]; exact a, fun y hy => b y (by simpa using hy),
          fun i y hi hy => c i y hi (by rw [List.getElem?_append_left (by omega)] at hy; exact hy)⟩
    | some x =>
      cases h : foldPos (extStep better) none xs 0 with
      | none =>
        rw [h] at ih
        refine ⟨xs.length, by simp, by simp, fun y hy => ?_, fun i y hi hy => ?_⟩
        · simp only [List.mem_append, List.mem_singleton, Option.some.injEq] at hy
          rcases hy with hy | hy
          · exact absurd hy (ih y)
          · exact Or.inl hy
        · rw [List.getElem?_append_left hi] at hy
          exact absurd (List.mem_of_getElem? hy) (ih y)
      | some r =>
        rw [h] at ih
        obtain ⟨q, hq, a, b, c⟩ := ih
        have hlt : q < xs.length := by rw [List.getElem?_eq_some_iff] at a; exact a.1
        show ExtOf worse _ (if better x r.1 then some (x, 0 + (xs.length : Int)) else some r)
        by_cases hbx : better x r.1 = true
        · rw [if_pos hbx]
          have hw := (hb x r.1).1 hbx
          have hall : ∀ y, some y ∈ xs → worse y x := by
            intro y hy
            rcases b y hy with h | h
            · rw [h]; exact hw
            · exact trans _ _ _ h hw
          refine ⟨xs.length, by simp, by simp, fun y hy => ?_, fun i y hi hy => ?_⟩
          · simp only [List.mem_append, List.mem_singleton, Option.some.injEq] at hy
            rcases hy with hy | hy
            · exact Or.inr (hall y hy)
            · exact Or.inl hy
          · rw [List.getElem?_append_left hi] at hy
            exact hall y (List.mem_of_getElem? hy)
        · rw [if_neg hbx]
          have hw : ¬ worse r.1 x := fun hc => hbx ((hb _ _).2 hc)
          refine ⟨q, hq, by rw [List.getElem?_append_left hlt]; exact a, fun y hy => ?_,
            fun i y hi hy => c i y hi (by rw [List.getElem?_append_left (by omega)] at hy; exact hy)⟩
          simp only [List.mem_append, List.mem_singleton, Option.some.injEq] at hy
          rcases hy with hy | rfl
          · exact b y hy
          · rcases total y r.1 with h | h | h
            · exact Or.inr h
            · exact Or.inl h
            · exact absurd h hw

theorem ext_max (xs : List (Val K)) : ExtOf (· < ·) xs (foldPos (extStep gtB) none xs 0) :=
  ext_fold gtB (· < ·) (fun x y => by simp [gtB]) (fun _ _ _ => lt_trans) (fun x y => lt_trichotomy x y) xs

theorem ext_min (xs : List (Val K)) : ExtOf (· > ·) xs (foldPos (extStep ltB) none xs 0) :=
  ext_fold ltB (· > ·) (fun x y => by simp [ltB]) (fun _ _ _ h1 h2 => lt_trans h2 h1)
    (fun x y => by rcases lt_trichotomy y x with h | h | h <;> [left; (right; left); (right; right)] <;> [exact h; exact h.symm; exact h]) xs

theorem extLoop_eq (better : K → K → Bool) (l : List (Val K)) (start stride : Int) (xs : List (Val K))
    (h : ∀ (k : Nat) x, xs[k]? = some x → read l (start + stride * k) = .ok x) :
    extLoop better l start stride xs.length = .ok (foldPos (extStep better) none xs 0) := by
  unfold extLoop
  induction xs using List.reverseRecOn with
  | nil => simp [upTo, foldPos]
  | append_singleton xs x ih =>
    rw [List.length_append, List.length_singleton, upTo_snoc, List.foldlM_append,
      ih (fun k y hy => h k y (by
        rw [List.getElem?_append_left]; · exact hy
        · rw [List.getElem?_eq_some_iff] at hy; exact hy.1)), Outcome.ok_bind]
    rw [List.foldlM_cons, h xs.length x (by simp), Outcome.ok_bind, foldPos_snoc]
    simp only [Outcome.pure_eq, Outcome.ok_bind, List.foldlM_nil, zero_add]

theorem extCells {m : Mat (Val K)} {xs : List (Val K)} (h : IsCells m xs) (better : K → K → Bool) :
    extLoop better m.mem 0 1 m.length = .ok (foldPos (extStep better) none xs 0) := by
  rw [← h.len]
  apply extLoop_eq
  intro k x hk
  have := isCells_read h k x hk
  rw [one_mul]; exact this

/-- `Maximum` and `Minimum`: the extreme numbers of the matrix, or an infinity when all cells are NaN. -/
theorem C67_extremes (m : Mat (Val K)) (xs : List (Val K)) (h : IsCells m xs) :
    (∃ r, m.maximum = .ok r ∧ (r = none ↔ ∀ x, some x ∉ xs) ∧ ∀ v, r = some v → some v ∈ xs ∧ ∀ x, some x ∈ xs → x ≤ v) ∧
    (∃ r, m.minimum = .ok r ∧ (r = none ↔ ∀ x, some x ∉ xs) ∧ ∀ v, r = some v → some v ∈ xs ∧ ∀ x, some x ∈ xs → v ≤ x) := by
  unfold Mat.maximum Mat.minimum
  rw [extCells h, extCells h]
  refine ⟨⟨_, rfl, ?_⟩, ⟨_, rfl, ?_⟩⟩
  · have := ext_max xs
    cases hr : foldPos (extStep gtB) none xs 0 with
    | none => rw [hr] at this; exact ⟨iff_of_true rfl this, fun v hv => by cases hv⟩
    | some r =>
      rw [hr] at this
      obtain ⟨q, -, a, b, -⟩ := this
      refine ⟨iff_of_false (by simp) (fun hc => hc _ (List.mem_of_getElem? a)), fun v hv => ?_⟩
      cases hv
      exact ⟨List.mem_of_getElem? a, fun x hx => (b x hx).elim le_of_eq le_of_lt⟩
  · have := ext_min xs
    cases hr : foldPos (extStep ltB) none xs 0 with
    | none => rw [hr] at this; exact ⟨iff_of_true rfl this, fun v hv => by cases hv⟩
    | some r =>
      rw [hr] at this
      obtain ⟨q, -, a, b, -⟩ := this
      refine ⟨iff_of_false (by simp) (fun hc => hc _ (List.mem_of_getElem? a)), fun v hv => ?_⟩
      cases hv
      exact ⟨List.mem_of_getElem? a, fun x hx => (b x hx).elim (fun h => le_of_eq h.symm) le_of_lt⟩

/-- The position of a cell in column-major order. -/
theorem translate {m : Mat (Val K)} {xs : List (Val K)} (w : m.Wf) (h : IsCells m xs) (q : Nat) (x : Val K) (hq : xs[q]? = some x) :
    ∃ i j, m.translateIndex q = .ok (i, j) ∧ m.get i j = .ok x ∧ i + m.rows * j = q := by
  have hlt : q < xs.length := by rw [List.getElem?_eq_some_iff] at hq; exact hq.1
  have hl := h.len
  unfold Mat.length at hl
  have hr : 0 < m.rows := by
    rcases lt_or_eq_of_le w.rows_nonneg with h | h
    · exact h
    · rw [← h, zero_mul] at hl; omega
  have hm : (q : Int).tmod m.rows = (q : Int) % m.rows := Int.tmod_eq_emod_of_nonneg (by omega)
  have hd : (q : Int).tdiv m.rows = (q : Int) / m.rows := Int.tdiv_eq_ediv_of_nonneg (by omega)
  have he := Int.emod_add_mul_ediv (q : Int) m.rows
  refine ⟨_, _, by unfold Mat.translateIndex; rw [if_neg hr.ne', hm, hd], ?_, he⟩
  have h1 := Int.emod_nonneg (q : Int) hr.ne'
  have h2 := Int.emod_lt_of_pos (q : Int) hr
  have h3 : 0 ≤ (q : Int) / m.rows := Int.ediv_nonneg (by omega) hr.le
  have h4 : (q : Int) / m.rows < m.cols := by
    apply Int.ediv_lt_of_lt_mul hr
    rw [mul_comm, ← hl]; exact_mod_cast hlt
  rw [get_iff w]
  refine ⟨⟨h1, h2, h3, h4⟩, ?_⟩
  rw [he]
  have := isCells_read h q x hq
  rwa [zero_add] at this

/-- `max(row, col)` and `min(row, col)`: value and first position (column after column) of the extreme; the position
`(0, 0)` when there is no number. -/
theorem C67_positions (m : Mat (Val K)) (w : m.Wf) (hr : 0 < m.rows) (xs : List (Val K)) (h : IsCells m xs) :
    (∃ v i j, m.maxAt = .ok (v, i, j) ∧ m.maximum = .ok v ∧ (v = none → i = 0 ∧ j = 0) ∧
      ∀ x, v = some x → m.get i j = .ok (some x) ∧
        ∀ a b y, m.get a b = .ok (some y) → y ≤ x ∧ (a + m.rows * b < i + m.rows * j → y < x)) ∧
    (∃ v i j, m.minAt = .ok (v, i, j) ∧ m.minimum = .ok v ∧ (v = none → i = 0 ∧ j = 0) ∧
      ∀ x, v = some x → m.get i j = .ok (some x) ∧
        ∀ a b y, m.get a b = .ok (some y) → x ≤ y ∧ (a + m.rows * b < i + m.rows * j → x < y)) := by
  have cellAt : ∀ a b y, m.get a b = .ok y → ∃ k : Nat, (k : Int) = a + m.rows * b ∧ xs[k]? = some y := by
    intro a b y hy
    obtain ⟨hin, hrd⟩ := get_inv hy
    have b1 := InR.lin (show m.InR a b from hin)
    have hl := h.len
    refine ⟨(a + m.rows * b).toNat, by omega, ?_⟩
    have hk : (a + m.rows * b).toNat < xs.length := by omega
    have := isCells_read h (a + m.rows * b).toNat _ (List.getElem?_eq_getElem hk)
    have e : (0 : Int) + ((a + m.rows * b).toNat : Int) = a + m.rows * b := by omega
    rw [e, hrd, Outcome.ok.injEq] at this
    rw [List.getElem?_eq_getElem hk, this]
  unfold Mat.maxAt Mat.minAt Mat.maximum Mat.minimum
  rw [extCells h, extCells h]
  constructor
  · have hE := ext_max xs
    cases hf : foldPos (extStep gtB) none xs 0 with
    | none =>
      refine ⟨none, 0, 0, ?_, rfl, fun _ => ⟨rfl, rfl⟩, fun x hx => by cases hx⟩
      show (m.translateIndex 0 >>= _) = _
      unfold Mat.translateIndex
      rw [if_neg hr.ne']; simp
    | some r =>
      rw [hf] at hE
      obtain ⟨q, hq, a, b, c⟩ := hE
      obtain ⟨i, j, e, hg, hp⟩ := translate w h q _ a
      refine ⟨some r.1, i, j, ?_, rfl, (fun hc => by cases hc), fun x hx => ?_⟩
      · show (m.translateIndex r.2 >>= _) = _
        rw [hq, e]; rfl
      · cases hx
        refine ⟨hg, fun a' b' y hy => ?_⟩
        obtain ⟨k, hk, hk'⟩ := cellAt a' b' _ hy
        exact ⟨(b y (List.mem_of_getElem? hk')).elim le_of_eq le_of_lt, fun hlt => c k y (by omega) hk'⟩
  · have hE := ext_min xs
    cases hf : foldPos (extStep ltB) none xs 0 with
    | none =>
      refine ⟨none, 0, 0, ?_, rfl, fun _ => ⟨rfl, rfl⟩, fun x hx => by cases hx⟩
      show (m.translateIndex 0 >>= _) = _
      unfold Mat.translateIndex
      rw [if_neg hr.ne']; simp
    | some r =>
      rw [hf] at hE
      obtain ⟨q, hq, a, b, c⟩ := hE
      obtain ⟨i, j, e, hg, hp⟩ := translate w h q _ a
      refine ⟨some r.1, i, j, ?_, rfl, (fun hc => by cases hc), fun x hx => ?_⟩
      · show (m.translateIndex r.2 >>= _) = _
        rw [hq, e]; rfl
      · cases hx
        refine ⟨hg, fun a' b' y hy => ?_⟩
        obtain ⟨k, hk, hk'⟩ := cellAt a' b' _ hy
        exact ⟨(b y (List.mem_of_getElem? hk')).elim (fun h => le_of_eq h.symm) le_of_lt, fun hlt => c k y (by omega) hk'⟩

/-- `MaximumInRow`, `MinimumInRow`, `MaximumInColumn`, `MinimumInColumn`: value and first position in the row or column. -/
theorem C67_rows_columns (m : Mat (Val K)) :
    (∀ i xs, IsRow m i xs → (∃ r, m.maximumInRow i = .ok r ∧ ExtOf (· < ·) xs r) ∧
      (∃ r, m.minimumInRow i = .ok r ∧ ExtOf (· > ·) xs r)) ∧
    (∀ j xs, IsColumn m j xs → (∃ r, m.maximumInColumn j = .ok r ∧ ExtOf (· < ·) xs r) ∧
      (∃ r, m.minimumInColumn j = .ok r ∧ ExtOf (· > ·) xs r)) := by
  constructor
  · intro i xs h
    have rd : ∀ (k : Nat) x, xs[k]? = some x → read m.mem (i + m.rows * k) = .ok x := by
      intro k x hk
      exact (get_inv (h.cell k x hk)).2
    unfold Mat.maximumInRow Mat.minimumInRow
    rw [← h.len, extLoop_eq _ _ _ _ _ rd, extLoop_eq _ _ _ _ _ rd]
    exact ⟨⟨_, rfl, ext_max xs⟩, ⟨_, rfl, ext_min xs⟩⟩
  · intro j xs h
    have rd : ∀ (k : Nat) x, xs[k]? = some x → read m.mem (m.rows * j + 1 * k) = .ok x := by
      intro k x hk
      rw [one_mul]; exact isColumn_read h k x hk
    unfold Mat.maximumInColumn Mat.minimumInColumn
    have e := extLoop_eq gtB _ _ _ _ rd
    have e' := extLoop_eq ltB _ _ _ _ rd
    rw [h.len] at e e'
    rw [e, e']
    exact ⟨⟨_, rfl, ext_max xs⟩, ⟨_, rfl, ext_min xs⟩⟩

/-- Without rows `max` and `min` divide by zero. -/
theorem C67_violated_no_rows (m : Mat (Val K)) (h : m.rows = 0) : m.maxAt = .ub ∧ m.minAt = .ub := by
  have hl : m.length = 0 := by simp [Mat.length, h]
  unfold Mat.maxAt Mat.minAt extLoop
  rw [hl]
  simp [upTo, Mat.translateIndex, h]

example : (⟨2, 2, some [some 1, none, some 7, some 7]⟩ : Mat (Val Int)).maxAt = .ok (some 7, 0, 1) := by decide +kernel
example : (⟨2, 2, some [some 1, none, some 7, some 7]⟩ : Mat (Val Int)).minimumInRow 1 = .ok (some (7, 1)) := by decide +kernel
example : IsCells (⟨2, 2, some [some 1, none, some 7, some 7]⟩ : Mat (Val Int)) [some 1, none, some 7, some 7] := isCells_mk 2 2 _ rfl

end Mx
end LDT
