import Verif.Lemmas.MatrixElem
import Mathlib.Data.Rat.Lemmas
import Mathlib.Algebra.Order.Ring.Rat
/-!
# C64: questions about the cells of a matrix: symmetry, equality, search for values

`none` is NaN. `Close eps x y`: both are numbers at a distance of at most `eps`.
-/
namespace LDT
namespace Mx
open Arr
variable {α : Type} {K : Type} [Field K] [LinearOrder K] [IsStrictOrderedRing K]

theorem get_some {m : Mat α} (w : m.Wf) {i j : Int} (h : m.InR i j) :
    ∃ x, m.get i j = .ok x ∧ m.get0 i j = .ok x := by
  obtain ⟨x, hx⟩ := get0_ok w h
  exact ⟨x, by rw [get_eq_get0 w h]; exact hx, hx⟩

/-- The cell of a matrix as a function (only used where the cell exists). -/
def cellD [Inhabited α] (m : Mat α) (i j : Int) : α := match m.get0 i j with | .ok x => x | _ => default

theorem get0_cellD [Inhabited α] {m : Mat α} (w : m.Wf) {i j : Int} (h : m.InR i j) : m.get0 i j = .ok (cellD m i j) := by
  obtain ⟨x, hx⟩ := get0_ok w h
  unfold cellD; rw [hx]

theorem get_cellD [Inhabited α] {m : Mat α} (w : m.Wf) {i j : Int} (h : m.InR i j) : m.get i j = .ok (cellD m i j) := by
  rw [get_eq_get0 w h, get0_cellD w h]

/-- Every linear index is a cell. -/
theorem lin_cell {m : Mat α} (w : m.Wf) {k : Int} (h0 : 0 ≤ k) (h1 : k < m.length) :
    ∃ i j, m.InR i j ∧ k = i + m.rows * j := by
  unfold Mat.length at h1
  have hr : 0 < m.rows := by
    rcases Int.lt_or_le 0 m.rows with h | h
    · exact h
    · rw [show m.rows = 0 from le_antisymm h w.rows_nonneg] at h1; omega
  refine ⟨k % m.rows, k / m.rows, ⟨Int.emod_nonneg _ (by omega), Int.emod_lt_of_pos _ hr, Int.ediv_nonneg h0 (by omega), ?_⟩, ?_⟩
  · exact Int.ediv_lt_of_lt_mul hr (by rw [mul_comm]; exact h1)
  · exact (Int.emod_add_mul_ediv k m.rows).symm

/-- A test of all cells in memory order is a test of all cells. -/
theorem allCells_iff {m : Mat α} (w : m.Wf) (p : α → Bool) :
    ∃ b, allLoop (fun i => do
        let d ← read m.mem i
        pure (p d)) (upTo 0 m.length) = .ok b ∧ (b = true ↔ ∀ i j x, m.get i j = .ok x → p x = true) := by
  by_cases hne : Nonempty α
  · have : Inhabited α := ⟨hne.some⟩
    refine ⟨_, allLoop_spec _ (fun k => match read m.mem k with | .ok x => p x | _ => true) _ (fun k hk => ?_), ?_⟩
    · rw [mem_upTo] at hk
      obtain ⟨x, hx⟩ := w.read_lin hk.1 hk.2
      simp [hx]
    · rw [List.all_eq_true]
      constructor
      · intro h i j x hx
        obtain ⟨hi, hr⟩ := get_inv hx
        have := h (i + m.rows * j) (mem_upTo.2 (InR.lin hi))
        rw [hr] at this; exact this
      · intro h k hk
        rw [mem_upTo] at hk
        obtain ⟨i, j, hij, rfl⟩ := lin_cell w hk.1 hk.2
        obtain ⟨x, hx⟩ := w.read_lin hk.1 hk.2
        rw [hx]
        exact h i j x ((get_iff w).2 ⟨hij, hx⟩)
  · have hz : m.length ≤ 0 := by
      by_contra hc
      obtain ⟨x, _⟩ := w.read_lin (le_refl 0) (by omega)
      exact hne ⟨x⟩
    have : upTo 0 m.length = [] := by unfold upTo; rw [show (m.length - 0).toNat = 0 by omega]; rfl
    rw [this]
    refine ⟨true, rfl, iff_of_true rfl (fun i j x => absurd ⟨x⟩ hne)⟩

/-- Two numbers at a distance of at most `eps`. -/
def Close (eps : K) (x y : Val K) : Prop := ∃ a b, x = some a ∧ y = some b ∧ |a - b| ≤ eps

/-- At least one is NaN, or they are at a distance of at most `eps`: not known to differ. -/
def NotFar (eps : K) (x y : Val K) : Prop := x = none ∨ y = none ∨ Close eps x y

theorem farApart_iff (eps : K) (x y : Val K) : farApart x y eps = false ↔ NotFar eps x y := by
  unfold farApart NotFar Close
  cases x <;> cases y <;> simp

/-- `IsSymmetric`: true exactly when no pair of mirrored cells differs by more than `epsilon` (cells with NaN count as
equal); a matrix that is not square is refused. -/
theorem C64_symmetric (m : Mat (Val K)) (w : m.Wf) (eps : K) :
    (m.rows = m.cols → ∃ b, m.isSymmetric eps = .ok b ∧
      (b = true ↔ ∀ i j x y, i ≠ j → m.get i j = .ok x → m.get j i = .ok y → NotFar eps x y)) ∧
    (m.rows ≠ m.cols → m.isSymmetric eps = .throws) := by
  unfold Mat.isSymmetric
  refine ⟨fun hsq => ?_, fun h => if_pos (fun hc => h hc.symm)⟩
  rw [if_neg (by omega)]
  let q : Int → Int → Bool := fun i j => decide (i ≥ j) || !farApart (cellD m i j) (cellD m j i) eps
  refine ⟨_, allLoop_spec _ (fun i => (upTo 0 m.rows).all (q i)) _ (fun i hi => allLoop_spec _ (q i) _ (fun j hj => ?_)), ?_⟩
  · rw [mem_upTo] at hi hj
    by_cases hij : i ≥ j
    · rw [if_pos hij]; simp [q, hij]
    · rw [if_neg hij, get0_cellD w ⟨hi.1, hi.2, hj.1, by omega⟩, get0_cellD w ⟨hj.1, hj.2, hi.1, by omega⟩]
      have hij' : ¬ j ≤ i := hij
      simp [q, hij']
  · simp only [List.all_eq_true, mem_upTo]
    have key : ∀ i j, 0 ≤ i → i < j → j < m.rows → (q i j = true ↔ NotFar eps (cellD m i j) (cellD m j i)) := by
      intro i j _ h _
      have : ¬ j ≤ i := by omega
      simp [q, this, ← farApart_iff]
    have symm : ∀ x y : Val K, NotFar eps x y → NotFar eps y x := by
      rintro x y (h | h | ⟨a, b, h1, h2, h3⟩)
      · exact Or.inr (Or.inl h)
      · exact Or.inl h
      · exact Or.inr (Or.inr ⟨b, a, h2, h1, by rw [abs_sub_comm]; exact h3⟩)
    constructor
    · intro h i j x y hne hx hy
      have hij := (get_inv hx).1
      have hji := (get_inv hy).1
      rw [get_cellD w hij, Outcome.ok.injEq] at hx
      rw [get_cellD w hji, Outcome.ok.injEq] at hy
      rw [← hx, ← hy]
      rcases lt_or_gt_of_ne hne with h1 | h1
      · exact (key i j hij.1 h1 hji.2.1).1 (h i ⟨hij.1, hij.2.1⟩ j ⟨hji.1, hji.2.1⟩)
      · exact symm _ _ ((key j i hji.1 h1 hij.2.1).1 (h j ⟨hji.1, hji.2.1⟩ i ⟨hij.1, hij.2.1⟩))
    · intro h i hi j hj
      by_cases hij : i ≥ j
      · simp [q, hij]
      · have hA : m.InR i j := ⟨hi.1, hi.2, hj.1, by omega⟩
        have hB : m.InR j i := ⟨hj.1, hj.2, hi.1, by omega⟩
        exact (key i j hi.1 (by omega) hj.2).2 (h i j _ _ (by omega) (get_cellD w hA) (get_cellD w hB))

/-- `IsDiagonal`: the diagonal is not far from one value and the other cells are not far from the other. -/
theorem C64_diagonal (m : Mat (Val K)) (w : m.Wf) (v off : Val K) (eps : K) :
    (m.rows = m.cols → ∃ b, m.isDiagonal v off eps = .ok b ∧
      (b = true ↔ ∀ i j x, m.get i j = .ok x → NotFar eps (if i = j then v else off) x)) ∧
    (m.rows ≠ m.cols → m.isDiagonal v off eps = .throws) := by
  unfold Mat.isDiagonal
  refine ⟨fun hsq => ?_, fun h => if_pos h⟩
  rw [if_neg (by omega)]
  have e1 := allLoop_spec (fun i => do
      let x ← m.get0 i i
      pure (!farApart v x eps)) (fun i => !farApart v (cellD m i i) eps) (upTo 0 m.rows) (fun i hi => by
        rw [mem_upTo] at hi
        rw [get0_cellD w ⟨hi.1, hi.2, hi.1, by omega⟩]; rfl)
  let q : Int → Int → Bool := fun i j => decide (i = j) || !farApart off (cellD m i j) eps
  have e2 := allLoop_spec (fun i => allLoop (fun j =>
      if i = j then .ok true
      else do
        let x ← m.get0 i j
        pure (!farApart off x eps)) (upTo 0 m.rows)) (fun i => (upTo 0 m.rows).all (q i)) (upTo 0 m.rows) (fun i hi =>
        allLoop_spec _ (q i) _ (fun j hj => by
          rw [mem_upTo] at hi hj
          by_cases hij : i = j
          · rw [if_pos hij]; simp [q, hij]
          · rw [if_neg hij, get0_cellD w ⟨hi.1, hi.2, hj.1, by omega⟩]; simp [q, hij]))
  rw [e1, Outcome.ok_bind, e2]
  refine ⟨(upTo 0 m.rows).all (fun i => !farApart v (cellD m i i) eps) && (upTo 0 m.rows).all (fun i => (upTo 0 m.rows).all (q i)),
    by cases (upTo 0 m.rows).all (fun i => !farApart v (cellD m i i) eps) <;> rfl, ?_⟩
  rw [Bool.and_eq_true]
  simp only [List.all_eq_true, mem_upTo]
  constructor
  · rintro ⟨h1, h2⟩ i j x hx
    have hij := (get_inv hx).1
    rw [get_cellD w hij, Outcome.ok.injEq] at hx
    rw [← hx]
    by_cases h : i = j
    · rw [if_pos h, ← farApart_iff]
      have := h1 i ⟨hij.1, hij.2.1⟩
      rw [← h]; simpa using this
    · rw [if_neg h, ← farApart_iff]
      have := h2 i ⟨hij.1, hij.2.1⟩ j ⟨hij.2.2.1, by have := hij.2.2.2; omega⟩
      simpa [q, h] using this
  · intro h
    constructor
    · intro i hi
      have := h i i _ (get_cellD w ⟨hi.1, hi.2, hi.1, by omega⟩)
      rw [if_pos rfl, ← farApart_iff] at this
      simp [this]
    · intro i hi j hj
      by_cases hij : i = j
      · simp [q, hij]
      · have := h i j _ (get_cellD w ⟨hi.1, hi.2, hj.1, by omega⟩)
        rw [if_neg hij, ← farApart_iff] at this
        simp [q, this]

/-- When two values count as equal for `Equals`. -/
def SameValue (eps : K) (nansAreEqual : Bool) (x y : Val K) : Prop :=
  (x = none ∧ y = none ∧ nansAreEqual = true) ∨ Close eps x y

theorem equalCell_iff (eps : K) (nn : Bool) (x y : Val K) : equalCell eps nn x y = true ↔ SameValue eps nn x y := by
  unfold equalCell SameValue Close farApart
  cases x <;> cases y <;> simp [abs_sub_comm]

/-- `Equals`: true exactly for matrices of the same shape whose cells are pairwise equal. -/
theorem C64_equals (a m : Mat (Val K)) (wa : a.Wf) (wm : m.Wf) (eps : K) (throwForSize nansAreEqual : Bool) :
    (m.rows = a.rows ∧ m.cols = a.cols → ∃ b, a.equals m eps throwForSize nansAreEqual = .ok b ∧
      (b = true ↔ ∀ i j x y, a.get i j = .ok x → m.get i j = .ok y → SameValue eps nansAreEqual x y)) ∧
    (¬ (m.rows = a.rows ∧ m.cols = a.cols) →
      a.equals m eps throwForSize nansAreEqual = if throwForSize then .throws else .ok false) := by
  unfold Mat.equals
  refine ⟨fun ⟨hr, hc⟩ => ?_, fun h => if_pos (by omega)⟩
  rw [if_neg (by omega)]
  have hlen : m.length = a.length := by unfold Mat.length; rw [hr, hc]
  refine ⟨_, allLoop_spec _ (fun k => match read a.mem k, read m.mem k with
    | .ok x, .ok y => equalCell eps nansAreEqual x y | _, _ => true) _ (fun k hk => ?_), ?_⟩
  · rw [mem_upTo] at hk
    obtain ⟨x, hx⟩ := wa.read_lin hk.1 hk.2
    obtain ⟨y, hy⟩ := wm.read_lin hk.1 (by omega)
    simp [hx, hy]
  · rw [List.all_eq_true]
    constructor
    · intro h i j x y hx hy
      obtain ⟨hi, h1⟩ := get_inv hx
      obtain ⟨_, h2⟩ := get_inv hy
      rw [hr] at h2
      have := h (i + a.rows * j) (mem_upTo.2 (InR.lin hi))
      rw [h1, h2] at this
      exact (equalCell_iff _ _ _ _).1 this
    · intro h k hk
      rw [mem_upTo] at hk
      obtain ⟨x, hx⟩ := wa.read_lin hk.1 hk.2
      obtain ⟨y, hy⟩ := wm.read_lin hk.1 (by omega)
      obtain ⟨i, j, hij, rfl⟩ := lin_cell wa hk.1 hk.2
      rw [hx, hy]
      refine (equalCell_iff _ _ _ _).2 (h i j x y ((get_iff wa).2 ⟨hij, hx⟩) ((get_iff wm).2 ⟨?_, by rw [hr]; exact hy⟩))
      exact ⟨hij.1, by rw [hr]; exact hij.2.1, hij.2.2.1, by rw [hc]; exact hij.2.2.2⟩

/-- When a cell counts as the given value for `EqualsValue`. -/
def HasValue (eps : K) (nansAreEqual ignoreNaN : Bool) (b x : Val K) : Prop :=
  (ignoreNaN = true ∧ (b = none ∨ x = none)) ∨ SameValue eps nansAreEqual b x

theorem valueCell_iff (eps : K) (nn ig : Bool) (b x : Val K) (hb : ¬ (b.isNone && ig) = true) :
    valueCell b eps ig nn x = true ↔ HasValue eps nn ig b x := by
  unfold valueCell HasValue SameValue Close farApart
  cases ig <;> cases x <;> cases b <;> simp_all

/-- `EqualsValue` and `EqualsValueColumn`: true exactly when every cell (of the column) counts as the value. -/
theorem C64_equals_value (m : Mat (Val K)) (w : m.Wf) (v : Val K) (eps : K) (nansAreEqual ignoreNaN : Bool) :
    (∃ b, m.equalsValue v eps nansAreEqual ignoreNaN = .ok b ∧
      (b = true ↔ ∀ i j x, m.get i j = .ok x → HasValue eps nansAreEqual ignoreNaN v x)) ∧
    (∀ j, 0 ≤ j → j < m.cols → ∃ b, m.equalsValueColumn j v eps nansAreEqual ignoreNaN = .ok b ∧
      (b = true ↔ ∀ i x, m.get i j = .ok x → HasValue eps nansAreEqual ignoreNaN v x)) := by
  unfold Mat.equalsValue Mat.equalsValueColumn equalsValueArray
  by_cases hb : (v.isNone && ignoreNaN) = true
  · have hall : ∀ x, HasValue eps nansAreEqual ignoreNaN v x := by
      rw [Bool.and_eq_true, Option.isNone_iff_eq_none] at hb
      exact fun x => Or.inl ⟨hb.2, Or.inl hb.1⟩
    rw [if_pos hb]
    exact ⟨⟨true, rfl, iff_of_true rfl (fun _ _ x _ => hall x)⟩,
      fun j _ _ => ⟨true, by rw [if_pos hb], iff_of_true rfl (fun _ x _ => hall x)⟩⟩
  · constructor
    · rw [if_neg hb]
      obtain ⟨b, e, h⟩ := allCells_iff w (valueCell v eps ignoreNaN nansAreEqual)
      refine ⟨b, by simpa using e, h.trans ?_⟩
      simp only [valueCell_iff eps nansAreEqual ignoreNaN v _ hb]
    · intro j h0 h1
      rw [if_neg hb]
      refine ⟨_, allLoop_spec _ (fun i => valueCell v eps ignoreNaN nansAreEqual (cellD m i j)) _ (fun i hi => ?_), ?_⟩
      · rw [mem_upTo] at hi
        have := get0_cellD w ⟨hi.1, hi.2, h0, h1⟩
        unfold Mat.get0 at this
        rw [show j * m.rows + i = i + m.rows * j by rw [mul_comm, add_comm], this]; rfl
      · simp only [List.all_eq_true, mem_upTo, valueCell_iff eps nansAreEqual ignoreNaN v _ hb]
        constructor
        · intro h i x hx
          have hij := (get_inv hx).1
          rw [get_cellD w hij, Outcome.ok.injEq] at hx
          rw [← hx]; exact h i ⟨hij.1, hij.2.1⟩
        · intro h i hi
          exact h i _ (get_cellD w ⟨hi.1, hi.2, h0, h1⟩)

/-- `Any` and `All` (asking for NaN finds NaN). -/
theorem C64_any_all [DecidableEq K] (m : Mat (Val K)) (w : m.Wf) (v : Val K) :
    (∃ b, m.any v = .ok b ∧ (b = true ↔ ∃ i j, m.get i j = .ok v)) ∧
    (∃ b, m.all v = .ok b ∧ (b = true ↔ ∀ i j x, m.get i j = .ok x → x = v)) := by
  unfold Mat.any Mat.all
  constructor
  · obtain ⟨b, e, h⟩ := allCells_iff w (fun d => !isValue v d)
    rw [e, Outcome.ok_bind]
    refine ⟨!b, rfl, ?_⟩
    rw [Bool.not_eq_true', ← Bool.not_eq_true, h]
    simp only [isValue, Bool.not_eq_true', decide_eq_false_iff_not]
    constructor
    · intro hc
      by_contra hn
      exact hc (fun i j x hx hv => hn ⟨i, j, by rw [hv]; exact hx⟩)
    · rintro ⟨i, j, hx⟩ hc
      exact hc i j v hx rfl
  · obtain ⟨b, e, h⟩ := allCells_iff w (fun d => isValue v d)
    refine ⟨b, e, h.trans ?_⟩
    simp only [isValue, decide_eq_true_eq]
    exact ⟨fun h i j x hx => (h i j x hx).symm, fun h i j x hx => (h i j x hx).symm⟩

/-- `IndicesOfVector`: exactly the linear indexes of the cells holding the value, in increasing order, after what was
in the list. -/
theorem C64_indices [DecidableEq K] (m : Mat (Val K)) (w : m.Wf) (v : Val K) (vec : List Int) :
    ∃ found, m.indicesOf v vec = .ok (vec ++ found) ∧ found.Pairwise (· < ·) ∧
      ∀ k, k ∈ found ↔ m.getLin k = .ok v := by
  unfold Mat.indicesOf
  obtain ⟨res, e, found, hr, hs, hf⟩ := loop_inv (a := 0) (b := m.length) w.len_nonneg (fun (acc : List Int) i => do
      let d ← read m.mem i
      pure (if isValue v d then acc ++ [i] else acc))
    (fun i acc => ∃ found, acc = vec ++ found ∧ found.Pairwise (· < ·) ∧
      ∀ k, k ∈ found ↔ 0 ≤ k ∧ k < i ∧ read m.mem k = .ok v) (s := vec)
    ⟨[], by simp, List.Pairwise.nil, fun k => by constructor <;> intro h <;> [cases h; omega]⟩
    (fun i h0 h1 acc ⟨found, hr, hs, hf⟩ => by
      obtain ⟨x, hx⟩ := w.read_lin h0 h1
      by_cases hv : v = x
      · refine ⟨acc ++ [i], by rw [hx]; simp [isValue, hv], found ++ [i], by rw [hr, List.append_assoc], ?_, ?_⟩
        · rw [List.pairwise_append]
          refine ⟨hs, List.pairwise_singleton _ _, fun a ha b hb => ?_⟩
          rw [List.mem_singleton] at hb
          have := (hf a).1 ha; omega
        · intro k
          rw [List.mem_append, hf k, List.mem_singleton]
          constructor
          · rintro (⟨h1, h2, h3⟩ | rfl)
            · exact ⟨h1, by omega, h3⟩
            · exact ⟨h0, by omega, by rw [hx, hv]⟩
          · rintro ⟨h1, h2, h3⟩
            by_cases hk : k = i
            · exact Or.inr hk
            · exact Or.inl ⟨h1, by omega, h3⟩
      · refine ⟨acc, by rw [hx]; simp [isValue, hv], found, hr, hs, fun k => ?_⟩
        rw [hf k]
        constructor
        · rintro ⟨h1, h2, h3⟩; exact ⟨h1, by omega, h3⟩
        · rintro ⟨h1, h2, h3⟩
          refine ⟨h1, ?_, h3⟩
          by_contra hc
          have hki : k = i := by omega
          rw [hki, hx] at h3; cases h3; exact hv rfl)
  refine ⟨found, by rw [e, hr], hs, fun k => ?_⟩
  rw [hf k]
  unfold Mat.getLin
  rw [if_neg (by rw [w.data_eq]; simp)]
  constructor
  · rintro ⟨h1, h2, h3⟩; rw [if_neg (by omega)]; exact h3
  · intro h
    split_ifs at h with hc
    exact ⟨by omega, by omega, h⟩

/-- `SortByVector`: cell `k` of the storage is the cell `indexes[k]`, for index lists inside the matrix. -/
theorem C64_sort_by_vector (m storage : Mat α) (w : m.Wf) (ws : storage.Wf) (idx : List Int) (hne : idx ≠ []) :
    (storage.length = m.length → (idx.length : Int) = m.length → (∀ x ∈ idx, 0 ≤ x ∧ x < m.length) →
      ∃ res, m.sortByVector storage idx = .ok res ∧ SameShape storage res ∧
        ∀ (k : Nat) x, idx[k]? = some x → res.getLin k = m.getLin x) ∧
    (storage.length ≠ m.length ∨ (idx.length : Int) ≠ m.length → m.sortByVector storage idx = .throws) := by
  unfold Mat.sortByVector
  refine ⟨fun hs hl hin => ?_, fun h => by split_ifs <;> first | rfl | (exfalso; omega)⟩
  rw [if_neg (by omega), if_neg (by omega)]
  obtain ⟨mx, hmx, hmem⟩ : ∃ mx, maxElem idx = some mx ∧ mx ∈ idx := by
    clear hl hin
    have gm : ∀ (l : List Int) (a : Int), l.foldl max a ∈ a :: l := by
      intro l
      induction l with
      | nil => intro a; simp
      | cons b t ih =>
        intro a
        have h := ih (max a b)
        rw [List.foldl_cons]
        rcases max_choice a b with h1 | h1 <;> rw [h1] at h ⊢ <;>
          simp only [List.mem_cons] at h ⊢ <;> rcases h with h | h <;> simp [h]
    cases idx with
    | nil => exact absurd rfl hne
    | cons a t => exact ⟨_, rfl, gm t a⟩
  rw [hmx]
  simp only
  rw [if_neg (by have := hin mx hmem; omega)]
  have gen : ∀ (l : List Int) (p : Nat) (d : Mat α), (∀ x ∈ l, 0 ≤ x ∧ x < m.length) → (p : Int) + l.length ≤ m.length →
      SameShape storage d → ∃ res, (countFrom p l).foldlM (fun (d : Mat α) ji => do
        let v ← read m.mem ji.2
        let l ← write d.mem ji.1 v
        pure { d with data := some l }) d = .ok res ∧ SameShape storage res ∧
        (∀ (k : Nat) x, l[k]? = some x → read res.mem ((p : Int) + k) = read m.mem x) ∧
        ∀ k : Int, k < p → read res.mem k = read d.mem k := by
    intro l
    induction l with
    | nil => intro p d _ _ s; exact ⟨d, rfl, s, by simp, fun _ _ => rfl⟩
    | cons a t ih =>
      intro p d hin hp s
      obtain ⟨v, hv⟩ := w.read_lin (hin a (by simp)).1 (hin a (by simp)).2
      have hsz := ws.size
      have hp' : (p : Int) < d.mem.length := by
        rw [s.len]; unfold Mat.length at hs hp; simp at hp; omega
      have s1 : SameShape storage { d with data := some (d.mem.set p v) } := by
        refine ⟨s.rows, s.cols, ?_, ?_, ?_⟩
        · rw [ws.data_eq]; rfl
        · show (d.mem.set p v).length = _
          rw [List.length_set, s.len]
        · intro k hk
          show (d.mem.set p v)[k]? = _
          unfold Mat.length at hs hp; simp at hp
          rw [List.getElem?_set_ne (by omega)]; exact s.rest k hk
      obtain ⟨res, e, sr, c, c'⟩ := ih (p + 1) _ (fun x hx => hin x (by simp [hx])) (by simp at hp; push_cast; omega) s1
      refine ⟨res, ?_, sr, ?_, ?_⟩
      · show ((do
            let v ← read m.mem a
            let l ← write d.mem p v
            pure { d with data := some l }) >>= fun d => _) = _
        rw [hv, Outcome.ok_bind, write_ok_of v (by omega) hp', Outcome.ok_bind, Outcome.pure_eq, Outcome.ok_bind]
        have : ((p : Int)).toNat = p := by omega
        rw [this]
        exact_mod_cast e
      · intro k x hk
        cases k with
        | zero =>
          simp only [List.getElem?_cons_zero, Option.some.injEq] at hk
          rw [c' _ (by push_cast; omega), ← hk, hv]
          show read (d.mem.set p v) _ = _
          have := read_set (l := d.mem) v (k := (p : Int)) (by omega) hp' (p : Int)
          simpa using this
        | succ k =>
          simp only [List.getElem?_cons_succ] at hk
          rw [← c k x hk]; congr 1; push_cast; ring
      · intro k hk
        rw [c' k (by push_cast; omega)]
        show read (d.mem.set p v) k = _
        have := read_set (l := d.mem) v (k := (p : Int)) (by omega) hp' k
        rw [if_neg (by omega)] at this
        simpa using this
  obtain ⟨res, e, s, c, -⟩ := gen idx 0 storage hin (by push_cast; omega) (SameShape.refl _)
  refine ⟨res, by exact_mod_cast e, s, fun k x hk => ?_⟩
  have hx := hin x (List.mem_of_getElem? hk)
  have hkl : k < idx.length := by
    rw [List.getElem?_eq_some_iff] at hk; exact hk.1
  have hrl : res.length = m.length := by rw [← hs]; unfold Mat.length; rw [s.rows, s.cols]
  unfold Mat.getLin
  rw [if_neg (by rw [(s.wf ws).data_eq]; simp), if_neg (by omega), if_neg (by rw [w.data_eq]; simp), if_neg (by omega)]
  have := c k x hk
  simpa using this

/-! Concrete instances. -/
example : (⟨2, 2, some [some 1, some 2, some 2, none]⟩ : Mat (Val ℚ)).isSymmetric 0 = .ok true := by decide +kernel
example : (⟨2, 2, some [some 1, some 2, some 3, none]⟩ : Mat (Val ℚ)).isSymmetric 0 = .ok false := by decide +kernel
example : (⟨2, 2, some [some 1, some 0, none, some 1]⟩ : Mat (Val ℚ)).indicesOf (some 1) [7] = .ok [7, 0, 3] := by
  decide +kernel
example : ∃ r, (⟨3, 1, some [10, 20, 30]⟩ : Mat Nat).sortByVector ⟨3, 1, some [0, 0, 0]⟩ [2, 0, 1] = .ok r ∧
    r.data = some [30, 10, 20] := ⟨_, rfl, by decide +kernel⟩

end Mx
end LDT
