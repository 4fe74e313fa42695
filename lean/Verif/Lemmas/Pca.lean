import Verif.Model.Pca
import Verif.Spec.Pca
import Verif.Props.Standardize
import Verif.Lemmas.PcaMath
import Verif.Lemmas.Dense2
/-!
# Lemmas for the principal components
-/
namespace LDT
namespace Pc
open Mx Sd
open Arr (Val)
open Co (part)
open Ls (dotTr0 IsM Sized isM_of_cells dotTr0_isM sized_part)

variable {r c k : ℕ}

theorem mapM_some (l : List ℝ) : (l.map some).mapM (id : Option ℝ → Option ℝ) = some l := by
  induction l with
  | nil => rfl
  | cons a t ih => rw [List.map_cons, List.mapM_cons, ih]; rfl

theorem cell_mem {A : Mat (Val ℝ)} {X : Fin r → Fin c → ℝ} (h : Holds A X) (i : Fin r) (j : Fin c) :
    A.mem[(i : ℕ) + r * j]? = some (some (X i j)) := by
  have g := (get_inv (h.cell i j)).2
  rw [h.rows] at g
  have := (read_eq_ok.1 g).2
  rw [← this]
  congr 1

theorem pos_left {t : ℕ} (h : t < r * c) : 0 < r := by
  rcases Nat.eq_zero_or_pos r with h0 | h0
  · rw [h0, zero_mul] at h; omega
  · exact h0

theorem numbersOf_ok {A : Mat (Val ℝ)} {X : Fin r → Fin c → ℝ} (h : Holds A X) :
    ∃ B, numbersOf A = .ok B ∧ IsM B (X : Matrix (Fin r) (Fin c) ℝ) := by
  have hl : (A.rows * A.cols).toNat = r * c := by rw [h.rows, h.cols]; norm_cast
  have hsz := h.wf.size
  rw [h.rows, h.cols] at hsz
  have hsz' : r * c ≤ A.mem.length := by exact_mod_cast hsz
  have key : A.mem.take (r * c) = (List.ofFn fun t : Fin (r * c) => X ⟨(t : ℕ) % r, Nat.mod_lt _ (pos_left (t.2))⟩ ⟨(t : ℕ) / r, Nat.div_lt_of_lt_mul t.2⟩).map some := by
    apply List.ext_getElem?
    intro t
    rw [List.getElem?_take, List.getElem?_map, List.getElem?_ofFn]
    by_cases ht : t < r * c
    · rw [if_pos ht, dif_pos ht]
      have hr : 0 < r := by
        rcases Nat.eq_zero_or_pos r with h0 | h0
        · rw [h0, zero_mul] at ht; omega
        · exact h0
      have := cell_mem h ⟨t % r, Nat.mod_lt _ hr⟩ ⟨t / r, Nat.div_lt_of_lt_mul ht⟩
      simp only [Nat.mod_add_div] at this
      exact this
    · rw [if_neg ht, dif_neg ht]; rfl
  unfold numbersOf
  rw [hl, key, mapM_some]
  refine ⟨_, rfl, isM_of_cells ⟨⟨h.wf.rows_nonneg, h.wf.cols_nonneg, rfl, ?_⟩, h.rows, h.cols⟩ fun i j => ?_⟩
  · show A.rows * A.cols ≤ _
    rw [h.rows, h.cols]
    simp only [Mat.mem, Option.getD_some, List.length_ofFn]
    push_cast; exact le_refl _
  · have hlt := Ls.lin_lt i j
    simp only [Mat.mem, Option.getD_some, List.getElem?_ofFn]
    rw [dif_pos hlt]
    congr 2
    · apply Fin.ext
      show ((i : ℕ) + r * j) % r = i
      rw [Nat.add_mul_mod_self_left, Nat.mod_eq_of_lt i.2]
    · apply Fin.ext
      show ((i : ℕ) + r * j) / r = j
      rw [Nat.add_mul_div_left _ _ (by have := i.2; omega), Nat.div_eq_of_lt i.2, zero_add]

/-- What `dgesvd` promises when it reports success. -/
def Lapack.Correct (L : Lapack) : Prop :=
  ∀ (r c : ℕ) (X : Fin r → Fin c → ℝ), 0 < r → 0 < c → (L.gesvd r c X).1 = 0 →
    IsSvd (n := min r c) X (fun a => (L.gesvd r c X).2.1 a) (fun a j => (L.gesvd r c X).2.2 a j)

theorem gesvd_of (L : Lapack) {x : Mat ℝ} {X : Fin r → Fin k → ℝ} (h : IsM x (X : Matrix (Fin r) (Fin k) ℝ)) :
    L.gesvd x.rows.toNat x.cols.toNat (fun i j => x.val (i : ℕ) (j : ℕ)) = L.gesvd r k X := by
  have hv := h.val
  have hr := h.rows
  have hc := h.cols
  have hr' : x.rows.toNat = r := by rw [hr]; simp
  have hc' : x.cols.toNat = k := by rw [hc]; simp
  have gen : ∀ (a b : ℕ) (ea : a = r) (eb : b = k),
      L.gesvd a b (fun i j => x.val ((i : ℕ) : Int) ((j : ℕ) : Int)) = L.gesvd r k X := by
    intro a b ea eb
    subst ea; subst eb
    congr 1
    funext i j
    exact hv i j
  exact gen _ _ hr' hc'

theorem vtCells_isM (cols mn : ℕ) (vt : ℕ → ℕ → ℝ) (old : List ℝ) :
    Sized (⟨(cols : Int), (cols : Int), some (vtCells cols mn vt old)⟩ : Mat ℝ) cols cols ∧
    IsM (⟨(cols : Int), (cols : Int), some (vtCells cols mn vt old)⟩ : Mat ℝ)
      (fun a j => if (a : ℕ) < mn then vt a j else old.getD ((a : ℕ) + cols * j) 0 : Matrix (Fin cols) (Fin cols) ℝ) := by
  have hs : Sized (⟨(cols : Int), (cols : Int), some (vtCells cols mn vt old)⟩ : Mat ℝ) cols cols := by
    refine ⟨⟨by simp, by simp, rfl, ?_⟩, rfl, rfl⟩
    simp only [Mat.mem, Option.getD_some, vtCells, List.length_ofFn]
    push_cast; exact le_refl _
  refine ⟨hs, isM_of_cells hs fun i j => ?_⟩
  have hlt := Ls.lin_lt i j
  simp only [Mat.mem, Option.getD_some, vtCells, List.getElem?_ofFn]
  rw [dif_pos hlt]
  have e1 : ((i : ℕ) + cols * j) % cols = i := by rw [Nat.add_mul_mod_self_left, Nat.mod_eq_of_lt i.2]
  have e2 : ((i : ℕ) + cols * j) / cols = j := by
    rw [Nat.add_mul_div_left _ _ (by have := i.2; omega), Nat.div_eq_of_lt i.2, zero_add]
  simp only [e1, e2]

/-- What the array contains where `VT` is laid over it. -/
def oldCell (storage : List ℝ) (mn k a j : ℕ) : ℝ := (part storage (mn : Int) ((k : Int) * k)).getD (a + k * j) 0

theorem svdRun_ok (L : Lapack) {x : Mat ℝ} {X : Fin r → Fin k → ℝ} (h : IsM x (X : Matrix (Fin r) (Fin k) ℝ)) (hr : 0 < r) (hk : 0 < k)
    (storage work : List ℝ) (hs : min r k + k * k ≤ storage.length)
    (hw : r * k + 2 * max (3 * min r k + max r k) (5 * min r k) ≤ work.length) :
    ((L.gesvd r k X).1 ≠ 0 → svdRun L x storage work = .throws) ∧
    ((L.gesvd r k X).1 = 0 → ∃ D, svdRun L x storage work = .ok (List.ofFn (fun a : Fin (min r k) => (L.gesvd r k X).2.1 a), D) ∧
      IsM D (fun a j => if (a : ℕ) < min r k then (L.gesvd r k X).2.2 a j else oldCell storage (min r k) k a j :
        Matrix (Fin k) (Fin k) ℝ)) := by
  have h1 : ((r * k : ℕ) : Int) = (r : Int) * k := by push_cast; rfl
  have h2 : ((k * k : ℕ) : Int) = (k : Int) * k := by push_cast; rfl
  have hm : ((min r k : ℕ) : Int) = min (r : Int) k := by push_cast; rfl
  have hsz := h.wf.size
  rw [h.rows, h.cols] at hsz
  have hG := gesvd_of L h
  have hfit : ¬ ((storage.length : Int) < min (r : Int) k + (k : Int) * k ∨
      (work.length : Int) < (r : Int) * k + 2 * max (3 * min (r : Int) k + max (r : Int) k) (5 * min (r : Int) k) ∨
      (x.mem.length : Int) < (r : Int) * k) := by
    rw [← h1, ← h2]
    rw [← h1] at hsz
    omega
  have hmk : (min (r : Int) k).toNat = min r k := by rw [← hm]; exact Int.toNat_natCast _
  unfold svdRun Svd.make
  rw [h.rows, h.cols, if_neg (by omega), Outcome.ok_bind]
  dsimp only
  rw [if_neg hfit]
  rw [h.rows, h.cols] at hG
  rw [hG]
  constructor
  · intro hi; rw [if_pos hi]
  · intro hi
    rw [if_neg (by rw [hi]; simp)]
    rw [hmk]
    refine ⟨_, rfl, ?_⟩
    have := (vtCells_isM k (min r k) (L.gesvd r k X).2.2 (part storage (min (r : Int) k) ((k : Int) * k))).2
    rw [← hm] at this ⊢
    exact this

end Pc
end LDT
