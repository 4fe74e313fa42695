import Verif.Lemmas.Dense
import Verif.Model.Sur
import Verif.Props.MatrixAlg
import Verif.Props.MatrixElem
import Verif.Props.Dataset
import Mathlib.Logic.Equiv.Fin.Basic
/-!
# More about matrices in memory: reshaping, Kronecker products, cross products
-/
namespace LDT
namespace Ls
open Mx Matrix
open Co (part)

section
variable {K : Type}

theorem lin_lt {r c : Nat} (i : Fin r) (j : Fin c) : (i : Nat) + r * j < r * c := by
  have hi := i.2; have hj := j.2
  calc (i : Nat) + r * j < r + r * j := by omega
    _ = r * (j + 1) := by ring
    _ ≤ r * c := Nat.mul_le_mul_left _ (by omega)

/-- Column after column. -/
def vecM {k m : Nat} (B : Matrix (Fin k) (Fin m) K) : Matrix (Fin (m * k)) (Fin 1) K := fun p _ => B p.modNat p.divNat

/-- The Kronecker product with its rows and columns numbered. -/
def kronM [Mul K] {a b c d : Nat} (M : Matrix (Fin a) (Fin b) K) (N : Matrix (Fin c) (Fin d) K) :
    Matrix (Fin (a * c)) (Fin (b * d)) K := fun p q => M p.divNat q.divNat * N p.modNat q.modNat

theorem fin_split {m k : Nat} (p : Fin (m * k)) : (p : Nat) = (p.modNat : Nat) + k * (p.divNat : Nat) := by
  simp only [Fin.modNat, Fin.divNat]
  exact (Nat.mod_add_div _ _).symm

end

section
variable {K : Type} [Field K] [DecidableEq K]

theorem IsM.cell {r c : Nat} {A : Mat K} {M : Matrix (Fin r) (Fin c) K} (h : IsM A M) (i : Fin r) (j : Fin c) :
    A.mem[(i : Nat) + r * j]? = some (M i j) := by
  have g := get0_val h.wf (h.toSized.inR i j)
  unfold Mat.get0 at g
  rw [h.val, h.rows] at g
  have := (read_eq_ok.1 g).2
  rw [← this]
  congr 1

theorem isM_of_cells {r c : Nat} {A : Mat K} {M : Matrix (Fin r) (Fin c) K} (hs : Sized A r c)
    (h : ∀ (i : Fin r) (j : Fin c), A.mem[(i : Nat) + r * j]? = some (M i j)) : IsM A M := by
  refine ⟨hs, fun i j => ?_⟩
  unfold Mat.val
  rw [show ((i : Nat) + A.rows * (j : Nat) : Int).toNat = (i : Nat) + r * j by rw [hs.rows]; norm_cast, h]
  rfl

theorem IsM.read {r c : Nat} {A : Mat K} {M : Matrix (Fin r) (Fin c) K} (h : IsM A M) (i : Fin r) (j : Fin c) (p : Int)
    (hp : p = (i : Nat) + (r : Int) * (j : Nat)) : Mx.read A.mem p = .ok (M i j) := by
  have g := get0_val h.wf (h.toSized.inR i j)
  unfold Mat.get0 at g
  rw [h.val, h.rows] at g
  rw [hp]; exact g

/-- A part of a long enough array. -/
theorem sized_part' (l : List K) (q R C n : Int) (r c : Nat) (hR : R = r) (hC : C = c) (hn : n = R * C) (h0 : 0 ≤ q)
    (h : q + n ≤ l.length) : Sized (⟨R, C, some (part l q n)⟩ : Mat K) r c := by
  subst hn hR hC
  exact sized_part l q r c h0 h

/-- A matrix with another shape over the same memory. -/
theorem Sized.reshape {A : Mat K} {r c r' c' : Nat} (h : Sized A r c) (hle : r' * c' ≤ r * c) (R C : Int) (hR : R = r')
    (hC : C = c') : Sized { A with rows := R, cols := C } r' c' := by
  subst hR hC
  refine ⟨⟨by simp, by simp, h.wf.alloc, ?_⟩, rfl, rfl⟩
  have := h.wf.size
  rw [h.rows, h.cols] at this
  have h2 : ((r' * c' : Nat) : Int) ≤ ((r * c : Nat) : Int) := by exact_mod_cast hle
  push_cast at h2
  show (r' : Int) * c' ≤ (A.mem.length : Int)
  omega

theorem IsM.vec {k m : Nat} {A : Mat K} {B : Matrix (Fin k) (Fin m) K} (h : IsM A B) (R C : Int)
    (hR : R = ((m * k : Nat) : Int)) (hC : C = 1) : IsM { A with rows := R, cols := C } (vecM B) := by
  refine isM_of_cells (h.toSized.reshape (by rw [mul_one, mul_comm]) R C hR (by rw [hC]; rfl)) fun p j => ?_
  have hj : (j : Nat) = 0 := by omega
  show A.mem[_]? = _
  rw [hj, mul_zero, add_zero, fin_split p, h.cell]
  rfl

theorem isM_unvec {k m : Nat} {A : Mat K} {V : Matrix (Fin (m * k)) (Fin 1) K} (hs : Sized A k m)
    (h : ∀ p : Fin (m * k), A.mem[(p : Nat)]? = some (V p 0)) :
    IsM A (fun l j => V (finProdFinEquiv (j, l)) 0 : Matrix (Fin k) (Fin m) K) := by
  refine isM_of_cells hs fun l j => ?_
  rw [← h]
  congr 1

theorem dotAtA_isM {n k : Nat} {A S : Mat K} {M : Matrix (Fin n) (Fin k) K} (ha : IsM A M) (hs : Sized S k k) (pn : 0 < n)
    (pk : 0 < k) : ∃ res, A.dotAtA S true 1 0 = .ok res ∧ IsM res (Mᵀ * M) ∧ SameShape S res := by
  have h1 : S.rows = A.cols := by rw [hs.rows, ha.cols]
  have h2 : S.cols = A.cols := by rw [hs.cols, ha.cols]
  obtain ⟨l, e, s, h⟩ := syrkU_spec true A S ha.wf hs.wf A.rows ha.wf.rows_nonneg (by omega) ⟨rfl, h1.symm⟩
    (by rw [ha.rows]; omega) (by rw [hs.rows]; omega) 1 0
  obtain ⟨res, e2, s2, v2⟩ := finish_spec true S _ hs.wf (by omega) s
    (fun i j => ∑ k ∈ Finset.range A.rows.toNat, A.val k i * A.val k j)
    (fun i j => Finset.sum_congr rfl fun _ _ => mul_comm _ _) (by
      intro i j hij
      rw [h i j hij, one_mul, zero_mul, add_zero]
      rfl)
  refine ⟨res, ?_, ⟨hs.same s2, fun i j => ?_⟩, s2⟩
  · unfold Mat.dotAtA
    rw [if_neg (by omega), ← h1, withMem_ok S e]
    exact e2
  · rw [v2 _ _ (hs.inR i j), if_pos (Or.inr rfl), Matrix.mul_apply, ha.rows]
    simp only [Int.toNat_natCast]
    rw [Finset.sum_range]
    refine Finset.sum_congr rfl fun l _ => ?_
    rw [ha.val, ha.val, transpose_apply]

theorem get_isM {r c : Nat} {A : Mat K} {M : Matrix (Fin r) (Fin c) K} (h : IsM A M) (i : Fin r) (j : Fin c) :
    A.get (i : Nat) (j : Nat) = .ok (M i j) := by
  rw [get_val h.wf (h.toSized.inR i j), h.val]

theorem isM_of_get {r c : Nat} {A : Mat K} {M : Matrix (Fin r) (Fin c) K} (hs : Sized A r c)
    (h : ∀ (i : Fin r) (j : Fin c), A.get (i : Nat) (j : Nat) = .ok (M i j)) : IsM A M := by
  refine ⟨hs, fun i j => ?_⟩
  have := h i j
  rw [get_val hs.wf (hs.inR i j)] at this
  simpa using this

theorem kron_isM {a b c d : Nat} {A B S : Mat K} {M : Matrix (Fin a) (Fin b) K} {N : Matrix (Fin c) (Fin d) K}
    (ha : IsM A M) (hb : IsM B N) (hs : Sized S (a * c) (b * d)) :
    ∃ res, A.kron B S = .ok res ∧ IsM res (kronM M N) ∧ SameShape S res := by
  obtain ⟨res, e, s, h⟩ := (C59_kron A B S ha.wf hb.wf hs.wf).1 (by rw [hs.rows, ha.rows, hb.rows]; push_cast; rfl)
    (by rw [hs.cols, ha.cols, hb.cols]; push_cast; rfl)
  refine ⟨res, e, isM_of_get (hs.same s) fun p q => ?_, s⟩
  have := h _ _ _ _ _ _ (ha.toSized.inR p.divNat q.divNat) (hb.toSized.inR p.modNat q.modNat) (get_isM ha _ _) (get_isM hb _ _)
  rw [hb.rows, hb.cols] at this
  have e1 : ((p : Nat) : Int) = ((p.divNat : Nat) : Int) * c + ((p.modNat : Nat) : Int) := by
    rw [fin_split p]; push_cast; ring
  have e2 : ((q : Nat) : Int) = ((q.divNat : Nat) : Int) * d + ((q.modNat : Nat) : Int) := by
    rw [fin_split q]; push_cast; ring
  rw [e1, e2]; exact this

theorem idenKron_isM {a b h : Nat} {A S : Mat K} {M : Matrix (Fin a) (Fin b) K} (ha : IsM A M)
    (hs : Sized S (h * a) (h * b)) :
    ∃ res, A.idenKron h S = .ok res ∧ IsM res (kronM (1 : Matrix (Fin h) (Fin h) K) M) ∧ SameShape S res := by
  obtain ⟨res, e, s, hh⟩ := (C59_iden_kron A S ha.wf hs.wf h (by omega)).1
    (by rw [hs.rows, ha.rows]; push_cast; ring) (by rw [hs.cols, ha.cols]; push_cast; ring)
  refine ⟨res, e, isM_of_get (hs.same s) fun p q => ?_, s⟩
  have l1 := p.divNat.2; have l2 := q.divNat.2
  have := hh _ _ (p.divNat : Nat) (q.divNat : Nat) _ (ha.toSized.inR p.modNat q.modNat) (by omega) (by exact_mod_cast l1)
    (by omega) (by exact_mod_cast l2) (get_isM ha _ _)
  rw [ha.rows, ha.cols] at this
  have e1 : ((p : Nat) : Int) = ((p.divNat : Nat) : Int) * a + ((p.modNat : Nat) : Int) := by
    rw [fin_split p]; push_cast; ring
  have e2 : ((q : Nat) : Int) = ((q.divNat : Nat) : Int) * b + ((q.modNat : Nat) : Int) := by
    rw [fin_split q]; push_cast; ring
  rw [e1, e2, this]
  congr 1
  unfold kronM
  rw [one_apply]
  by_cases hd : p.divNat = q.divNat
  · simp [hd]
  · rw [if_neg hd, if_neg, zero_mul]
    intro hc; apply hd; apply Fin.ext; exact_mod_cast hc

theorem subM_isM {r c : Nat} {A B S : Mat K} {M N : Matrix (Fin r) (Fin c) K} (ha : IsM A M) (hb : IsM B N)
    (hs : Sized S r c) : ∃ res, A.subM B S = .ok res ∧ IsM res (M - N) ∧ SameShape S res := by
  obtain ⟨-, ⟨res, e, s, h⟩, -⟩ := (C62_matrices A B S ha.wf hb.wf hs.wf).1
    ⟨by rw [hs.rows, ha.rows], by rw [hs.cols, ha.cols]⟩ ⟨by rw [hb.rows, ha.rows], by rw [hb.cols, ha.cols]⟩
  exact ⟨res, e, isM_of_get (hs.same s) fun i j =>
    h _ _ _ _ _ (get_isM ha i j) (get_isM hb i j) (get_isM (isM_of hs) i j), s⟩

theorem addMIn_isM {r c : Nat} {A B : Mat K} {M N : Matrix (Fin r) (Fin c) K} (ha : IsM A M) (hb : IsM B N) :
    ∃ res, A.addMIn B = .ok res ∧ IsM res (M + N) ∧ SameShape A res := by
  obtain ⟨⟨res, e, s, h⟩, -⟩ := (C62_matrices_in A B ha.wf hb.wf).1
    ⟨by rw [hb.rows, ha.rows], by rw [hb.cols, ha.cols]⟩
  exact ⟨res, e, isM_of_get (ha.toSized.same s) fun i j => h _ _ _ _ (get_isM ha i j) (get_isM hb i j), s⟩

theorem divSIn_isM {r c : Nat} {A : Mat K} {M : Matrix (Fin r) (Fin c) K} (ha : IsM A M) (b : K) :
    ∃ res, A.divSIn b = .ok res ∧ IsM res (fun i j => M i j / b : Matrix (Fin r) (Fin c) K) ∧ SameShape A res := by
  obtain ⟨res, e, s, h⟩ := scalarIn_spec ha.wf (· / b)
  exact ⟨res, e, isM_of_get (ha.toSized.same s) fun i j => h _ _ _ (get_isM ha i j), s⟩

/-- Copying column after column, into the same or another shape. -/
theorem copyTo00_cells {r c r' c' : Nat} {A S : Mat K} {M : Matrix (Fin r) (Fin c) K} (ha : IsM A M) (hs : Sized S r' c')
    (hle : r * c ≤ r' * c') : ∃ res, A.copyTo00 S = .ok res ∧ SameShape S res ∧
      (∀ (i : Fin r) (j : Fin c), res.mem[(i : Nat) + r * j]? = some (M i j)) := by
  have h1 := ha.wf.size
  have h2 := hs.wf.size
  rw [ha.rows, ha.cols] at h1
  rw [hs.rows, hs.cols] at h2
  have hle' : ((r * c : Nat) : Int) ≤ ((r' * c' : Nat) : Int) := by exact_mod_cast hle
  have hln : A.length = ((r * c : Nat) : Int) := by unfold Mat.length; rw [ha.rows, ha.cols]; push_cast; rfl
  push_cast at hle'
  obtain ⟨d', e, er, ec, es, el, eb, eo⟩ := foldlM_copy A.mem (r * c) S hs.wf.alloc (by zify; exact h1) (by
    zify; omega)
  refine ⟨d', by unfold Mat.copyTo00; rw [hln]; exact e, ⟨er, ec, by rw [es, hs.wf.alloc], el, fun i hi => eo i ?_⟩, fun i j => ?_⟩
  · rw [hs.rows, hs.cols] at hi; zify; omega
  · rw [eb _ (lin_lt i j), ha.cell]

theorem copyTo00_isM {r c : Nat} {A S : Mat K} {M : Matrix (Fin r) (Fin c) K} (ha : IsM A M) (hs : Sized S r c) :
    ∃ res, A.copyTo00 S = .ok res ∧ IsM res M ∧ SameShape S res := by
  obtain ⟨res, e, s, h⟩ := copyTo00_cells ha hs le_rfl
  exact ⟨res, e, isM_of_cells (hs.same s) h, s⟩

theorem copyTo00_vec {k m : Nat} {A S : Mat K} {M : Matrix (Fin k) (Fin m) K} (ha : IsM A M) (hs : Sized S (m * k) 1) :
    ∃ res, A.copyTo00 S = .ok res ∧ IsM res (vecM M) ∧ SameShape S res := by
  obtain ⟨res, e, s, h⟩ := copyTo00_cells ha hs (by rw [mul_one, mul_comm])
  refine ⟨res, e, isM_of_cells (hs.same s) fun p j => ?_, s⟩
  have hj : (j : Nat) = 0 := by omega
  rw [hj, mul_zero, add_zero, fin_split p, h]
  rfl

theorem inv0_isM {n : Nat} (lu : List K → List K) {A : Mat K} {M : Matrix (Fin n) (Fin n) K} (ha : IsM A M) (pn : 0 < n) :
    (M.det ≠ 0 → ∃ B, Su.inv0 lu A = .ok (0, B) ∧ IsM B M⁻¹ ∧ SameShape A B) ∧
    (M.det = 0 → Su.inv0 lu A = .ok (1, { A with data := some (lu A.mem) })) := by
  have hl : ((List.replicate (n * n) (0 : K)).length : Int) = (n : Int) * n := by simp
  have hsz := ha.wf.size
  rw [ha.rows, ha.cols] at hsz
  obtain ⟨h1, h2⟩ := inv00_isM ha pn (List.replicate (n * n) 0) (by rw [hl])
  have g : ¬(A.rows < 1 ∨ (A.mem.length : Int) < A.rows * A.rows) := by rw [ha.rows]; omega
  have g' : ¬(A.rows < 1 ∨ ((List.replicate (n * n) (0 : K)).length : Int) < A.rows * A.rows ∨
      (A.mem.length : Int) < A.rows * A.rows) := by rw [ha.rows, hl]; omega
  constructor
  · intro hd
    obtain ⟨B, e, i, s⟩ := h1 hd
    refine ⟨B, ?_, i, s⟩
    unfold inv00 at e
    rw [if_neg g'] at e
    unfold Su.inv0
    rw [if_neg g]
    split_ifs at e ⊢ with h
    · exact e
    · simp at e
  · intro hd
    have e := h2 hd
    unfold inv00 at e
    rw [if_neg g'] at e
    unfold Su.inv0
    rw [if_neg g]
    split_ifs at e ⊢ with h
    · simp at e
    · rfl

theorem getDiag_cells {n r c : Nat} {A S : Mat K} {M : Matrix (Fin n) (Fin n) K} (ha : IsM A M) (hs : Sized S r c)
    (hle : n ≤ r * c) : ∃ res, A.getDiag S = .ok res ∧ SameShape S res ∧
      (∀ i : Fin n, res.mem[(i : Nat)]? = some (M i i)) := by
  have h2 := hs.wf.size
  rw [hs.rows, hs.cols] at h2
  have hle' : (n : Int) ≤ ((r * c : Nat) : Int) := by exact_mod_cast hle
  push_cast at hle'
  let P : Int → Mat K × Int → Prop := fun t d => SameShape S d.1 ∧ d.2 = t * (A.rows + 1) ∧
    ∀ i : Fin n, ((i : Nat) : Int) < t → d.1.mem[(i : Nat)]? = some (M i i)
  obtain ⟨d, e, hd⟩ := loop_inv (a := 0) (b := A.rows) ha.wf.rows_nonneg
    (f := fun (d : Mat K × Int) i => do
      let v ← Mx.read A.mem d.2
      let l ← write d.1.mem i v
      pure ({ d.1 with data := some l }, d.2 + (A.rows + 1)))
    (P := P) (s := (S, 0)) ⟨SameShape.refl _, by simp, fun i hi => by omega⟩ (by
      intro t h0 h1 d ⟨sd, pd, cd⟩
      have hn : A.rows = n := ha.rows
      have ht : t.toNat < n := by omega
      have hr := ha.read ⟨t.toNat, ht⟩ ⟨t.toNat, ht⟩ d.2 (by
        rw [pd, hn]; simp only [Int.toNat_of_nonneg h0]; ring)
      have hlen : t < d.1.mem.length := by rw [sd.len]; omega
      refine ⟨_, by simp only [hr, Outcome.ok_bind, write_ok_of _ h0 hlen, Outcome.pure_eq]; rfl, ?_, ?_, ?_⟩
      · refine sd.trans ⟨rfl, rfl, ?_, by simp [Mat.mem], ?_⟩
        · rw [sd.alloc, hs.wf.alloc]; rfl
        · intro p hp
          rw [sd.rows, sd.cols, hs.rows, hs.cols] at hp
          simp only [Mat.mem, Option.getD_some]
          rw [List.getElem?_set_ne (by omega)]
      · rw [pd]; ring
      · intro i hi
        simp only [Mat.mem, Option.getD_some]
        by_cases hit : (i : Nat) = t.toNat
        · have : i = ⟨t.toNat, ht⟩ := Fin.ext hit
          subst this
          have : t.toNat < (d.1.data.getD []).length := by
            have := hlen; simp only [Mat.mem] at this; omega
          rw [List.getElem?_set_self this]
        · rw [List.getElem?_set_ne (by omega)]
          exact cd i (by omega))
  refine ⟨d.1, ?_, hd.1, fun i => hd.2.2 i (by rw [ha.rows]; have := i.2; omega)⟩
  unfold Mat.getDiag
  rw [if_neg (by rw [ha.rows, ha.cols]; simp), if_neg (by unfold Mat.length; rw [ha.rows, hs.rows, hs.cols]; omega)]
  show (_ >>= _) = _
  rw [e]; rfl

end
end Ls
end LDT
