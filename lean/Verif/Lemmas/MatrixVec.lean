import Verif.Model.MatrixVec
import Verif.Lemmas.Vector
import Verif.Props.MatrixProd
/-! # Loops that write rows, columns and parts of vectors -/
namespace LDT
namespace Mx
open De (getLin_eq)

section
variable {α : Type}

/-- A row gets the values `g`. -/
theorem rowLoop {this : Mat α} (w : this.Wf) {i a b : Int} (h0 : 0 ≤ i) (h1 : i < this.rows) (ha : 0 ≤ a) (hb : b ≤ this.cols)
    (g : Int → Outcome α) (hg : ∀ j, a ≤ j → j < b → ∃ v, g j = .ok v) :
    ∃ res, (upTo a b).foldlM (fun d j => do
        let v ← g j
        d.set0 i j v) this = .ok res ∧ SameShape this res ∧
      (∀ j, a ≤ j → j < b → res.get i j = g j) ∧
      (∀ i' j, this.InR i' j → i' ≠ i ∨ j < a ∨ b ≤ j → res.get i' j = this.get i' j) := by
  obtain ⟨res, e, s, v, u⟩ := fold_set (fun j : Int => (i, j)) g (upTo a b) this w
    (fun j hj => by have hm := mem_upTo.1 hj; exact ⟨h0, h1, by show 0 ≤ j; omega, by show j < this.cols; omega⟩)
    (fun j hj => hg j (mem_upTo.1 hj).1 (mem_upTo.1 hj).2)
    (fun p _ q _ hpq => by simp only [Prod.mk.injEq] at hpq; rw [hpq.2])
  refine ⟨res, e, s, fun j hj0 hj1 => ?_, fun i' j hin hne => ?_⟩
  · rw [get_eq_get0 (s.wf w) (s.inR.2 ⟨h0, h1, by omega, by omega⟩)]
    exact v j (mem_upTo.2 ⟨hj0, hj1⟩)
  · rw [get_eq_get0 (s.wf w) (s.inR.2 hin), u i' j hin, get_eq_get0 w hin]
    simp only [List.mem_map, Prod.mk.injEq, not_exists, not_and]
    intro x hx e1 e2
    have := mem_upTo.1 hx
    omega

/-- A column gets the values `g`. -/
theorem colLoop {this : Mat α} (w : this.Wf) {j : Int} (h0 : 0 ≤ j) (h1 : j < this.cols)
    (g : Int → Outcome α) (hg : ∀ i, 0 ≤ i → i < this.rows → ∃ v, g i = .ok v) :
    ∃ res, (upTo 0 this.rows).foldlM (fun d i => do
        let v ← g i
        d.set0 i j v) this = .ok res ∧ SameShape this res ∧
      (∀ i, 0 ≤ i → i < this.rows → res.get i j = g i) ∧
      (∀ i j', this.InR i j' → j' ≠ j → res.get i j' = this.get i j') := by
  obtain ⟨res, e, s, v, u⟩ := fold_set (fun i : Int => (i, j)) g (upTo 0 this.rows) this w
    (fun i hi => ⟨(mem_upTo.1 hi).1, (mem_upTo.1 hi).2, h0, h1⟩)
    (fun i hi => hg i (mem_upTo.1 hi).1 (mem_upTo.1 hi).2)
    (fun p _ q _ hpq => by simp only [Prod.mk.injEq] at hpq; rw [hpq.1])
  refine ⟨res, e, s, fun i hi0 hi1 => ?_, fun i j' hin hne => ?_⟩
  · rw [get_eq_get0 (s.wf w) (s.inR.2 ⟨hi0, hi1, h0, h1⟩)]
    exact v i (mem_upTo.2 ⟨hi0, hi1⟩)
  · rw [get_eq_get0 (s.wf w) (s.inR.2 hin), u i j' hin, get_eq_get0 w hin]
    simp only [List.mem_map, Prod.mk.injEq, not_exists, not_and]
    rintro x - - rfl; exact absurd rfl hne

/-- The running index of the diagonal is in front of row `t`, column `t`. -/
theorem diagLoop_eq (source : Mat α) (cell : Int → Int × Int) {n : Int} (hn : 0 ≤ n) (this res : Mat α)
    (h : (upTo 0 n).foldlM (fun (d : Mat α) t => do
      let v ← source.get0 t t
      d.set0 (cell t).1 (cell t).2 v) this = .ok res) : diagLoop source cell n this = .ok res := by
  have key : ∀ k : Nat, ∀ r, (upTo 0 (k : Int)).foldlM (fun (d : Mat α) t => do
      let v ← source.get0 t t
      d.set0 (cell t).1 (cell t).2 v) this = .ok r →
      (upTo 0 (k : Int)).foldlM (fun (s : Mat α × Int) t => do
        let v ← read source.mem s.2
        let d ← s.1.set0 (cell t).1 (cell t).2 v
        pure (d, s.2 + (source.rows + 1))) (this, 0) = .ok (r, k * (source.rows + 1)) := by
    intro k
    induction k with
    | zero => intro r hr; simp [upTo] at hr ⊢; exact hr
    | succ k ih =>
      intro r hr
      have hu : upTo 0 ((k + 1 : Nat) : Int) = upTo 0 (k : Int) ++ [(k : Int)] := by
        unfold upTo
        simp [List.range_succ]
      rw [hu, List.foldlM_append] at hr ⊢
      cases hm : (upTo 0 (k : Int)).foldlM (fun (d : Mat α) t => do
          let v ← source.get0 t t
          d.set0 (cell t).1 (cell t).2 v) this with
      | ok r1 =>
        rw [hm, Outcome.ok_bind] at hr
        rw [ih r1 hm, Outcome.ok_bind]
        simp only [List.foldlM_cons, List.foldlM_nil] at hr ⊢
        have hi : (k : Int) * (source.rows + 1) = k + source.rows * k := by ring
        rw [hi]
        unfold Mat.get0 at hr
        cases hv : Mx.read source.mem (k + source.rows * k) with
        | ok v =>
          rw [hv] at hr
          simp only [Outcome.ok_bind] at hr ⊢
          cases hd : r1.set0 (cell k).1 (cell k).2 v with
          | ok d =>
            rw [hd] at hr
            simp only [Outcome.ok_bind] at hr ⊢
            have : d = r := by simpa using hr
            subst this
            show Outcome.ok _ = _
            push_cast
            congr 2; ring
          | throws => rw [hd] at hr; simp at hr
          | ub => rw [hd] at hr; simp at hr
          | diverges => rw [hd] at hr; simp at hr
        | throws => rw [hv] at hr; simp at hr
        | ub => rw [hv] at hr; simp at hr
        | diverges => rw [hv] at hr; simp at hr
      | throws => rw [hm] at hr; simp at hr
      | ub => rw [hm] at hr; simp at hr
      | diverges => rw [hm] at hr; simp at hr
  have := key n.toNat res (by rw [Int.toNat_of_nonneg hn]; exact h)
  unfold diagLoop
  rw [Int.toNat_of_nonneg hn] at this
  rw [this]; rfl

/-- Cells `a` to `b` of the memory get the values `g`. -/
theorem partLoop {this : Mat α} (w : this.Wf) {a b : Int} (ha : 0 ≤ a) (hab : a ≤ b) (hb : b ≤ this.length)
    (g : Int → Outcome α) (hg : ∀ i, a ≤ i → i < b → ∃ v, g i = .ok v) :
    ∃ res, (upTo a b).foldlM (fun (d : Mat α) i => do
        let v ← g i
        let l ← write d.mem i v
        pure { d with data := some l }) this = .ok res ∧ SameShape this res ∧
      (∀ i, a ≤ i → i < b → read res.mem i = g i) ∧
      (∀ i, i < a ∨ b ≤ i → read res.mem i = read this.mem i) := by
  have hsz := w.size
  unfold Mat.length at hb
  obtain ⟨res, e, s, v, u⟩ := loop_inv hab (fun (d : Mat α) i => do
        let v ← g i
        let l ← write d.mem i v
        pure { d with data := some l })
    (fun t d => SameShape this d ∧ (∀ i, a ≤ i → i < t → read d.mem i = g i) ∧
      (∀ i, i < a ∨ t ≤ i → read d.mem i = read this.mem i)) (s := this)
    ⟨SameShape.refl _, fun i h1 h2 => by omega, fun i _ => rfl⟩ (by
      intro t h0 h1 d ⟨sd, vd, ud⟩
      obtain ⟨v, hv⟩ := hg t h0 h1
      have ht : 0 ≤ t := by omega
      have hlen : t < d.mem.length := by rw [sd.len]; omega
      refine ⟨{ d with data := some (d.mem.set t.toNat v) }, ?_, ?_, ?_, ?_⟩
      · simp only [hv, Outcome.ok_bind, write_ok_of v ht hlen]; rfl
      · refine sd.trans ⟨rfl, rfl, ?_, by simp [Mat.mem], ?_⟩
        · rw [sd.alloc, w.alloc]; rfl
        · intro p hp
          show (d.mem.set _ v)[p]? = _
          rw [sd.rows, sd.cols] at hp
          rw [List.getElem?_set_ne (by omega)]
      · intro i h2 h3
        show Mx.read (d.mem.set _ v) i = _
        rw [read_set v ht hlen]
        split_ifs with hi
        · rw [hi, hv]
        · exact vd i h2 (by omega)
      · intro i h2
        show Mx.read (d.mem.set _ v) i = _
        rw [read_set v ht hlen, if_neg (by omega)]
        exact ud i (by omega))
  exact ⟨res, e, s, v, u⟩

end

section
variable {α : Type} [CommRing α] [DecidableEq α]

/-- `?gemv` is `?gemm` with a single column. -/
theorem gemv_eq (t : Bool) {M N : Int} (hM : 0 < M) (hN : 0 < N) (alpha beta : α) (a x y : List α) :
    gemv t M N alpha a M x beta y =
      gemm t false (if t then N else M) 1 (if t then M else N) alpha a M x (if t then M else N) beta y (if t then N else M) := by
  have h1 : ldOk M M = true := by unfold ldOk; simp; omega
  have hu : upTo 0 (1 : Int) = [0] := by decide
  have h2 : ¬ (¬ (ldOk M (if t then (if t then M else N) else (if t then N else M)) ∧
      ldOk (if t then M else N) (if false = true then 1 else (if t then M else N)) ∧ ldOk (if t then N else M) (if t then N else M))) := by
    rw [not_not]
    unfold ldOk
    cases t <;> simp <;> omega
  have h3 : ¬ (¬ ldOk M M = true ∨ N < 0) := by rw [h1]; simp; omega
  have h4 : ¬ (M = 0 ∨ N = 0) := by omega
  unfold gemv gemm
  rw [if_neg h3, if_neg h4, if_neg h2, hu]
  unfold opGet
  simp only [List.foldlM_cons, List.foldlM_nil, mul_zero, add_zero, Bool.false_eq_true, if_false]
  exact (bind_pure _).symm

end
end Mx
end LDT
