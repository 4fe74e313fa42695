import Verif.Model.Ols
import Verif.Lemmas.MatrixAlg
import Verif.Lemmas.MatrixElem
import Verif.Props.MatrixProd
/-!
# The model's matrices as matrices of Mathlib
-/
namespace LDT
namespace Ls
open Mx
open Co (part)

section
variable {K : Type} [Field K] [DecidableEq K]

/-- A well formed matrix of the given size. -/
structure Sized (A : Mat K) (r c : Nat) : Prop where
  wf : A.Wf
  rows : A.rows = r
  cols : A.cols = c

/-- `A` holds the numbers of `M`. -/
structure IsM {r c : Nat} (A : Mat K) (M : Matrix (Fin r) (Fin c) K) : Prop extends Sized A r c where
  val : ∀ (i : Fin r) (j : Fin c), A.val (i : Nat) (j : Nat) = M i j

theorem Sized.inR {A : Mat K} {r c : Nat} (h : Sized A r c) (i : Fin r) (j : Fin c) : A.InR (i : Nat) (j : Nat) := by
  have := i.2; have := j.2
  exact ⟨by omega, by rw [h.rows]; omega, by omega, by rw [h.cols]; omega⟩

theorem Sized.same {A B : Mat K} {r c : Nat} (h : Sized A r c) (s : SameShape A B) : Sized B r c :=
  ⟨s.wf h.wf, by rw [s.rows, h.rows], by rw [s.cols, h.cols]⟩

theorem isM_of {r c : Nat} {A : Mat K} (h : Sized A r c) : IsM A (fun i j => A.val (i : Nat) (j : Nat) : Matrix (Fin r) (Fin c) K) :=
  ⟨h, fun _ _ => rfl⟩

theorem IsM.unique {r c : Nat} {A : Mat K} {M N : Matrix (Fin r) (Fin c) K} (h : IsM A M) (h' : IsM A N) : M = N := by
  funext i j; rw [← h.val, ← h'.val]

/-- A part of a long enough array. -/
theorem sized_part (l : List K) (q : Int) (r c : Nat) (h0 : 0 ≤ q) (h : q + (r : Int) * c ≤ l.length) :
    Sized (⟨(r : Int), (c : Int), some (part l q ((r : Int) * c))⟩ : Mat K) r c := by
  refine ⟨⟨by simp, by simp, rfl, ?_⟩, rfl, rfl⟩
  simp only [Mat.mem, Option.getD_some, part, List.length_take, List.length_drop]
  have : ((r : Int) * c).toNat = r * c := by
    rw [← Nat.cast_mul, Int.toNat_natCast]
  rw [this]
  have h2 : ((r * c : Nat) : Int) = (r : Int) * c := by push_cast; rfl
  rw [← h2] at h ⊢
  omega

theorem dot0_isM {r k c : Nat} {A B S : Mat K} {M : Matrix (Fin r) (Fin k) K} {N : Matrix (Fin k) (Fin c) K}
    (ha : IsM A M) (hb : IsM B N) (hs : Sized S r c) (pr : 0 < r) (pk : 0 < k) :
    ∃ res, dot0 A B S = .ok res ∧ IsM res (M * N) ∧ SameShape S res := by
  obtain ⟨l, e, s, h⟩ := gemm_spec false false A B S ha.wf hb.wf hs.wf k (by omega)
    ⟨by rw [ha.rows, hs.rows], ha.cols⟩ ⟨hb.rows, by rw [hb.cols, hs.cols]⟩ (by rw [ha.rows]; omega) (by rw [hb.rows]; omega)
    (by rw [hs.rows]; omega) 1 0
  refine ⟨_, ?_, ⟨hs.same s, ?_⟩, s⟩
  · unfold dot0
    apply withMem_ok
    rw [hs.rows, hs.cols, ha.rows, hb.rows] at e
    rw [ha.rows, hb.cols, ha.cols]; exact e
  · intro i j
    rw [h _ _ (hs.inR i j), Matrix.mul_apply]
    simp only [one_mul, zero_mul, add_zero, Int.toNat_natCast]
    rw [Finset.sum_range]
    refine Finset.sum_congr rfl fun l _ => ?_
    simp only [opVal, Bool.false_eq_true, if_false]
    rw [ha.val, hb.val]

theorem dotTr0_isM {r k c : Nat} {A B S : Mat K} {M : Matrix (Fin r) (Fin k) K} {N : Matrix (Fin c) (Fin k) K}
    (ha : IsM A M) (hb : IsM B N) (hs : Sized S r c) (pr : 0 < r) (pc : 0 < c) :
    ∃ res, dotTr0 A B S = .ok res ∧ IsM res (M * N.transpose) ∧ SameShape S res := by
  obtain ⟨l, e, s, h⟩ := gemm_spec false true A B S ha.wf hb.wf hs.wf k (by omega)
    ⟨by rw [ha.rows, hs.rows], ha.cols⟩ ⟨by rw [hb.rows, hs.cols], hb.cols⟩ (by rw [ha.rows]; omega) (by rw [hb.rows]; omega)
    (by rw [hs.rows]; omega) 1 0
  refine ⟨_, ?_, ⟨hs.same s, ?_⟩, s⟩
  · unfold dotTr0
    apply withMem_ok
    rw [hs.rows, hs.cols, ha.rows, hb.rows] at e
    rw [ha.rows, hb.rows, ha.cols]; exact e
  · intro i j
    rw [h _ _ (hs.inR i j), Matrix.mul_apply]
    simp only [one_mul, zero_mul, add_zero, Int.toNat_natCast]
    rw [Finset.sum_range]
    refine Finset.sum_congr rfl fun l _ => ?_
    simp only [opVal, Bool.false_eq_true, if_false, if_true, Matrix.transpose_apply]
    rw [ha.val, hb.val]

theorem trDot0_isM {r k c : Nat} {A B S : Mat K} {M : Matrix (Fin k) (Fin r) K} {N : Matrix (Fin k) (Fin c) K}
    (ha : IsM A M) (hb : IsM B N) (hs : Sized S r c) (pr : 0 < r) (pk : 0 < k) :
    ∃ res, trDot0 A B S = .ok res ∧ IsM res (M.transpose * N) ∧ SameShape S res := by
  obtain ⟨l, e, s, h⟩ := gemm_spec true false A B S ha.wf hb.wf hs.wf k (by omega)
    ⟨ha.rows, by rw [ha.cols, hs.rows]⟩ ⟨hb.rows, by rw [hb.cols, hs.cols]⟩ (by rw [ha.rows]; omega) (by rw [hb.rows]; omega)
    (by rw [hs.rows]; omega) 1 0
  refine ⟨_, ?_, ⟨hs.same s, ?_⟩, s⟩
  · unfold trDot0
    apply withMem_ok
    rw [hs.rows, hs.cols, ha.rows, hb.rows] at e
    rw [ha.rows, hb.cols, ha.cols]; exact e
  · intro i j
    rw [h _ _ (hs.inR i j), Matrix.mul_apply]
    simp only [one_mul, zero_mul, add_zero, Int.toNat_natCast]
    rw [Finset.sum_range]
    refine Finset.sum_congr rfl fun l _ => ?_
    simp only [opVal, Bool.false_eq_true, if_false, if_true, Matrix.transpose_apply]
    rw [ha.val, hb.val]

theorem dot_eq {A B S : Mat K} (h1 : A.cols = B.rows) (h2 : A.rows = S.rows) (h3 : B.cols = S.cols) :
    A.dot B S 1 0 = dot0 A B S := by
  unfold Mat.dot dot0
  rw [if_neg (by omega), if_neg (by omega)]

theorem trDot_eq {A B S : Mat K} (h1 : A.rows = B.rows) (h2 : A.cols = S.rows) (h3 : B.cols = S.cols) :
    A.trDot B S 1 0 = trDot0 A B S := by
  unfold Mat.trDot trDot0
  rw [if_neg (by omega), if_neg (by omega)]

theorem squareCells_get {n : Nat} (m : Matrix (Fin n) (Fin n) K) (i j : Fin n) :
    (squareCells m)[(i : Nat) + n * j]? = some (m i j) := by
  unfold squareCells
  have hi := i.2; have hj := j.2
  have hlt : (i : Nat) + n * j < n * n := by
    calc (i : Nat) + n * j < n + n * j := by omega
      _ = n * (j + 1) := by ring
      _ ≤ n * n := Nat.mul_le_mul_left _ (by omega)
  rw [List.getElem?_ofFn, dif_pos hlt]
  congr 2
  · apply Fin.ext
    simp only [Fin.modNat]
    rw [Nat.add_mul_mod_self_left, Nat.mod_eq_of_lt hi]
  · apply Fin.ext
    simp only [Fin.divNat]
    rw [Nat.add_mul_div_left _ _ (by omega), Nat.div_eq_of_lt hi, Nat.zero_add]

theorem square_isM {n : Nat} {A : Mat K} {M : Matrix (Fin n) (Fin n) K} (ha : IsM A M) :
    ∃ e : A.rows.toNat = n, ∀ i j, square A i j = M (i.cast e) (j.cast e) := by
  have e : A.rows.toNat = n := by rw [ha.rows]; simp
  refine ⟨e, fun i j => ?_⟩
  unfold square
  rw [← ha.val]; rfl

theorem inv00_isM {n : Nat} {A : Mat K} {M : Matrix (Fin n) (Fin n) K} (ha : IsM A M) (pn : 0 < n) (work : List K)
    (hw : (n : Int) * n ≤ work.length) :
    (M.det ≠ 0 → ∃ B, inv00 A work = .ok (0, B) ∧ IsM B M⁻¹ ∧ SameShape A B) ∧
    (M.det = 0 → inv00 A work = .ok (1, A)) := by
  obtain ⟨e, sq⟩ := square_isM ha
  have hsz := ha.wf.size
  rw [ha.rows, ha.cols] at hsz
  have hdet : (square A).det = M.det := by
    have : square A = M.submatrix (Fin.castOrderIso e) (Fin.castOrderIso e) := by
      funext i j; rw [sq]; rfl
    rw [this]
    exact Matrix.det_submatrix_equiv_self (Fin.castOrderIso e).toEquiv M
  have hinv : ∀ i j, (square A)⁻¹ i j = M⁻¹ (i.cast e) (j.cast e) := by
    intro i j
    have : square A = M.submatrix (Fin.castOrderIso e).toEquiv (Fin.castOrderIso e).toEquiv := by
      funext i j; rw [sq]; rfl
    rw [this, Matrix.inv_submatrix_equiv]; rfl
  have g : ¬(A.rows < 1 ∨ (work.length : Int) < A.rows * A.rows ∨ (A.mem.length : Int) < A.rows * A.rows) := by
    rw [ha.rows]
    omega
  constructor
  · intro hd
    refine ⟨_, by unfold inv00; rw [if_neg g, if_pos (by rw [hdet]; exact hd)], ?_⟩
    have hlen : (squareCells (square A)⁻¹).length = n * n := by unfold squareCells; rw [List.length_ofFn, e]
    have hl : (squareCells (square A)⁻¹ ++ A.mem.drop (A.rows.toNat * A.rows.toNat)).length = A.mem.length := by
      rw [List.length_append, hlen, List.length_drop, e]
      have : n * n ≤ A.mem.length := by exact_mod_cast hsz
      omega
    refine ⟨⟨⟨⟨ha.wf.rows_nonneg, ha.wf.cols_nonneg, rfl, ?_⟩, ha.rows, ha.cols⟩, ?_⟩, ⟨rfl, rfl, ?_, ?_, ?_⟩⟩
    · simp only [Mat.mem, Option.getD_some]
      simp only [Mat.mem] at hl
      rw [hl]; exact ha.wf.size
    · intro i j
      have hi := i.2; have hj := j.2
      have hlt : (i : Nat) + n * j < n * n := by
        calc (i : Nat) + n * j < n + n * j := by omega
          _ = n * (j + 1) := by ring
          _ ≤ n * n := Nat.mul_le_mul_left _ (by omega)
      unfold Mat.val
      simp only [Mat.mem, Option.getD_some]
      rw [show ((i : Nat) + A.rows * (j : Nat) : Int).toNat = (i : Nat) + n * j by rw [ha.rows]; norm_cast]
      rw [List.getElem?_append_left (by rw [hlen]; exact hlt)]
      have := squareCells_get ((square A)⁻¹) (i.cast e.symm) (j.cast e.symm)
      simp only [Fin.val_cast, e] at this
      rw [this, hinv]; rfl
    · rw [ha.wf.data_eq]; rfl
    · simp only [Mat.mem, Option.getD_some] at hl ⊢; exact hl
    · intro i hi
      simp only [Mat.mem, Option.getD_some]
      rw [ha.rows, ha.cols] at hi
      have h' : n * n ≤ i := by
        zify; exact hi
      rw [List.getElem?_append_right (by rw [hlen]; exact h'), hlen, List.getElem?_drop, e]
      congr 1; omega
  · intro hd
    unfold inv00; rw [if_neg g, if_neg (by rw [hdet, hd]; simp)]

theorem subtractFrom_isM {r c : Nat} {Y R : Mat K} {M N : Matrix (Fin r) (Fin c) K} (hy : IsM Y M) (hr : IsM R N) :
    ∃ res, subtractFrom Y R = .ok res ∧ IsM res (M - N) ∧ SameShape R res := by
  have hl : R.length = Y.length := by unfold Mat.length; rw [hy.rows, hy.cols, hr.rows, hr.cols]
  have hsz := hy.wf.size
  obtain ⟨res, e, s, cells⟩ := cellLoopIn_spec R hr.wf Y.length hl (fun i v => do
    let a ← read Y.mem i
    pure (a - v)) (by
      intro k x h0 h1
      obtain ⟨v, hv⟩ := read_ok_of h0 (show k < Y.mem.length by unfold Mat.length at h1; omega)
      exact ⟨v - x, by rw [hv]; rfl⟩)
  refine ⟨res, e, ⟨hr.toSized.same s, ?_⟩, s⟩
  intro i j
  have iy := hy.toSized.inR i j
  have ir := hr.toSized.inR i j
  have vy := get0_val hy.wf iy
  have vr := get0_val hr.wf ir
  have ie := get0_val (s.wf hr.wf) (s.inR.2 ir)
  unfold Mat.get0 at vy vr ie
  rw [hy.rows] at vy
  rw [hr.rows] at vr
  rw [s.rows, hr.rows] at ie
  have hi := i.2; have hj := j.2
  have hlt : (i : Nat) + r * (j : Nat) < r * c := by
    calc (i : Nat) + r * j < r + r * j := by omega
      _ = r * (j + 1) := by ring
      _ ≤ r * c := Nat.mul_le_mul_left _ (by omega)
  have := cells ((i : Nat) + (r : Int) * (j : Nat)) _ (by positivity) (by
    unfold Mat.length; rw [hy.rows, hy.cols]; exact_mod_cast hlt) vr
  rw [ie] at this
  simp only [vy, Outcome.ok_bind, Outcome.pure_eq, Outcome.ok.injEq] at this
  rw [this, hy.val, hr.val]; rfl

end
end Ls
end LDT
