import Verif.Model.Descriptive
import Verif.Lemmas.MatrixElem
import Verif.Lemmas.Stat
import Verif.Props.MatrixStat
import Verif.Props.MatrixFill
/-! # Matrices used as vectors -/
namespace LDT
namespace De
open Mx Stat
open Arr (Val)

theorem getLin_eq {α : Type} {m : Mat α} (w : m.Wf) {k : Int} (h0 : 0 ≤ k) (h1 : k < m.length) :
    m.getLin k = read m.mem k := by
  unfold Mat.getLin
  rw [if_neg (by rw [w.data_eq]; simp), if_neg (by omega)]

theorem SameShape.length {α : Type} {a b : Mat α} (h : SameShape a b) : b.length = a.length := by
  unfold Mat.length; rw [h.rows, h.cols]

theorem put_spec {α : Type} {m : Mat α} (w : m.Wf) {k : Int} (h0 : 0 ≤ k) (h1 : k < m.length) (v : α) :
    ∃ m', put m k v = .ok m' ∧ SameShape m m' ∧ ∀ i, read m'.mem i = if i = k then .ok v else read m.mem i := by
  have hsz := w.size
  have h1' : k < m.rows * m.cols := h1
  have hlen : k < m.mem.length := by omega
  refine ⟨{ m with data := some (m.mem.set k.toNat v) }, ?_, ⟨rfl, rfl, ?_, ?_, ?_⟩, ?_⟩
  · simp only [put, write_ok_of v h0 hlen, Outcome.ok_bind]; rfl
  · rw [w.data_eq]; rfl
  · simp [Mat.mem]
  · intro i hi
    show (m.mem.set _ v)[i]? = _
    rw [List.getElem?_set_ne]
    intro e; omega
  · intro i
    exact read_set v h0 hlen i

theorem put_ub {α : Type} (m : Mat α) {k : Int} (h0 : k < 0) (v : α) : put m k v = .ub := by
  unfold put write
  rw [if_neg (by omega)]; rfl

theorem cells_read {K : Type} [Field K] {m : Mat (Val K)} {xs : List K} (h : IsCells m (xs.map some)) {k : Int} (h0 : 0 ≤ k)
    (h1 : k < xs.length) : read m.mem k = .ok (some (xs.getD k.toNat 0)) := by
  have := isCells_read h k.toNat (some (xs.getD k.toNat 0)) (by
    rw [List.getElem?_map, List.getD_eq_getElem?_getD]
    rw [List.getElem?_eq_getElem (by omega)]; rfl)
  rw [zero_add, Int.toNat_of_nonneg h0] at this
  exact this

theorem cells_length {K : Type} {m : Mat (Val K)} {xs : List K} (h : IsCells m (xs.map some)) : m.length = xs.length := by
  rw [← h.len, List.length_map]

/-- A loop that adds products. -/
theorem dotLoop {K : Type} [Field K] [DecidableEq K] (n : Nat) (c y : Int → Outcome (Val K)) (cv yv : Nat → K)
    (hc : ∀ j : Nat, j < n → c j = .ok (some (cv j))) (hy : ∀ j : Nat, j < n → y j = .ok (some (yv j))) (r0 : K) :
    (upTo 0 (n : Int)).foldlM (fun (r : Val K) j => do
      let a ← c j
      let b ← y j
      pure (vadd r (vmul a b))) (some r0) = .ok (some (r0 + ∑ j ∈ Finset.range n, cv j * yv j)) := by
  obtain ⟨s', e, p⟩ := loop_inv (a := 0) (b := (n : Int)) (by omega) (fun (r : Val K) j => do
      let a ← c j
      let b ← y j
      pure (vadd r (vmul a b)))
    (fun i r => r = some (r0 + ∑ j ∈ Finset.range i.toNat, cv j * yv j)) (s := some r0) (by simp)
    (fun i h0 h1 r hr => by
      obtain ⟨j, rfl⟩ : ∃ j : Nat, i = j := ⟨i.toNat, by omega⟩
      subst hr
      refine ⟨_, by simp only [hc j (by omega), hy j (by omega), Outcome.ok_bind, vmul_some, vadd_some]; rfl, ?_⟩
      rw [show ((j : Int) + 1).toNat = j + 1 by omega, Finset.sum_range_succ, Int.toNat_natCast, add_assoc])
  rw [e, p, Int.toNat_natCast]

end De
end LDT
