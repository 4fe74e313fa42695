import Verif.Model.MatrixElem
import Verif.Props.MatrixMore
import Verif.Lemmas.MatrixAlg
/-! # Lemmas on element-wise loops -/
namespace LDT
namespace Mx
variable {α : Type}

/-- The checked accessor succeeds exactly inside the matrix. -/
theorem get_inv {m : Mat α} {i j : Int} {x : α} (h : m.get i j = .ok x) :
    m.InR i j ∧ read m.mem (i + m.rows * j) = .ok x := by
  unfold Mat.get at h
  split_ifs at h with h1 h2
  exact ⟨⟨by omega, by omega, by omega, by omega⟩, h⟩

theorem get_iff {m : Mat α} (w : m.Wf) {i j : Int} {x : α} :
    m.get i j = .ok x ↔ m.InR i j ∧ read m.mem (i + m.rows * j) = .ok x := by
  refine ⟨get_inv, fun ⟨h, e⟩ => ?_⟩
  rw [get_eq_get0 w h]; exact e

theorem sameSize_iff (a b : Mat α) : a.sameSize b = true ↔ b.rows = a.rows ∧ b.cols = a.cols := by
  simp [Mat.sameSize]

/-- Writing `g 0, g 1, …` into the cells in memory order. -/
theorem cellLoop_spec (storage : Mat α) (w : storage.Wf) (n : Int) (hl : storage.length = n)
    (g : Int → Outcome α) (hg : ∀ k, 0 ≤ k → k < n → ∃ v, g k = .ok v) :
    ∃ res, cellLoop n g storage = .ok res ∧ SameShape storage res ∧
      ∀ k, 0 ≤ k → k < n → read res.mem k = g k := by
  have hn : 0 ≤ n := by
    have := Int.mul_nonneg w.rows_nonneg w.cols_nonneg
    unfold Mat.length at hl; omega
  obtain ⟨res, e, s, c⟩ := fillLin_spec storage w n hn hl g hg
  refine ⟨res, e, s, fun k h1 h2 => ?_⟩
  have := c k h1 h2
  unfold Mat.getLin at this
  unfold Mat.length at hl this
  rw [if_neg (by rw [(s.wf w).data_eq]; simp), if_neg (by rw [s.rows, s.cols]; omega)] at this
  exact this

/-- The in-place version: cell `k` becomes `g k x` for its old value `x`. -/
theorem cellLoopIn_spec (m : Mat α) (w : m.Wf) (n : Int) (hl : m.length = n)
    (g : Int → α → Outcome α) (hg : ∀ k x, 0 ≤ k → k < n → ∃ v, g k x = .ok v) :
    ∃ res, cellLoopIn n g m = .ok res ∧ SameShape m res ∧
      ∀ k x, 0 ≤ k → k < n → read m.mem k = .ok x → read res.mem k = g k x := by
  have hn : 0 ≤ n := by
    have := Int.mul_nonneg w.rows_nonneg w.cols_nonneg
    unfold Mat.length at hl; omega
  have hsz := w.size
  unfold Mat.length at hl
  unfold cellLoopIn
  obtain ⟨res, e, s, c, -⟩ := loop_inv (a := 0) (b := n) hn (fun (d : Mat α) i => do
        let x ← read d.mem i
        let v ← g i x
        let l ← write d.mem i v
        pure { d with data := some l })
    (fun i (d : Mat α) => SameShape m d ∧ (∀ k x, 0 ≤ k → k < i → read m.mem k = .ok x → read d.mem k = g k x) ∧
      ∀ k, i ≤ k → read d.mem k = read m.mem k) (s := m)
    ⟨SameShape.refl _, fun k x h1 h2 => by omega, fun _ _ => rfl⟩
    (fun i h1 h2 d ⟨s, c, c'⟩ => by
      have hlen : i < d.mem.length := by rw [s.len]; omega
      obtain ⟨x, hx⟩ := read_ok_of h1 hlen
      obtain ⟨v, hv⟩ := hg i x h1 h2
      refine ⟨{ d with data := some (d.mem.set i.toNat v) }, ?_, ⟨s.rows, s.cols, ?_, ?_, ?_⟩, ?_, ?_⟩
      · simp only [hx, hv, Outcome.ok_bind, write_ok_of v h1 hlen]; rfl
      · rw [w.data_eq]; rfl
      · show (d.mem.set _ v).length = _
        rw [List.length_set, s.len]
      · intro k hk
        show (d.mem.set _ v)[k]? = _
        rw [List.getElem?_set_ne (by omega)]; exact s.rest k hk
      · intro k y h3 h4 hy
        show read (d.mem.set _ v) k = _
        rw [read_set v h1 hlen]
        split_ifs with hki
        · rw [hki] at hy ⊢
          rw [c' i (le_refl i), hy] at hx
          cases hx; exact hv.symm
        · exact c k y h3 (by omega) hy
      · intro k h3
        show read (d.mem.set _ v) k = _
        rw [read_set v h1 hlen, if_neg (by omega)]
        exact c' k (by omega))
  exact ⟨res, e, s, c⟩

theorem Mat.Wf.len_nonneg {m : Mat α} (w : m.Wf) : 0 ≤ m.length := Int.mul_nonneg w.rows_nonneg w.cols_nonneg

theorem Mat.Wf.read_lin {m : Mat α} (w : m.Wf) {k : Int} (h0 : 0 ≤ k) (h1 : k < m.length) :
    ∃ x, read m.mem k = .ok x := read_ok_of h0 (by have := w.size; unfold Mat.length at h1; omega)

theorem InR.lin {m : Mat α} {i j : Int} (h : m.InR i j) :
    0 ≤ i + m.rows * j ∧ i + m.rows * j < m.length := idx_bounds h.1 h.2.1 h.2.2.1 h.2.2.2

theorem with1_ok {m : Mat α} (w : m.Wf) (f : α → α) {k : Int} (h0 : 0 ≤ k) (h1 : k < m.length) :
    ∃ v, m.with1 f k = .ok v := by
  obtain ⟨x, hx⟩ := w.read_lin h0 h1
  exact ⟨f x, by unfold Mat.with1; rw [hx]; rfl⟩

theorem with1_eq {m : Mat α} (f : α → α) {k : Int} {x : α} (h : read m.mem k = .ok x) : m.with1 f k = .ok (f x) := by
  unfold Mat.with1; rw [h]; rfl

theorem with2_ok {m b : Mat α} (w : m.Wf) (wb : b.Wf) (f : α → α → α) {k : Int} (h0 : 0 ≤ k) (h1 : k < m.length)
    (h2 : k < b.length) : ∃ v, m.with2 b f k = .ok v := by
  obtain ⟨x, hx⟩ := w.read_lin h0 h1
  obtain ⟨y, hy⟩ := wb.read_lin h0 h2
  exact ⟨f x y, by unfold Mat.with2; rw [hx, Outcome.ok_bind, hy]; rfl⟩

theorem with2_eq {m b : Mat α} (f : α → α → α) {k : Int} {x y : α} (h : read m.mem k = .ok x)
    (h' : read b.mem k = .ok y) : m.with2 b f k = .ok (f x y) := by
  unfold Mat.with2; rw [h, Outcome.ok_bind, h']; rfl

theorem allLoop_spec (p : Int → Outcome Bool) (q : Int → Bool) (l : List Int) (h : ∀ i ∈ l, p i = .ok (q i)) :
    allLoop p l = .ok (l.all q) := by
  induction l with
  | nil => rfl
  | cons i l ih =>
    unfold allLoop
    rw [h i (by simp), Outcome.ok_bind, ih (fun i hi => h i (by simp [hi])), List.all_cons]
    cases q i <;> rfl

end Mx
end LDT
