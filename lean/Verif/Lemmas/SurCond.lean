import Verif.Lemmas.SurExt
import Verif.Lemmas.SurSearch
/-! # Lemmas: the condition number of a system of regressions -/
namespace LDT
namespace Su
open Mx Ls Op
open Co (part)
open Arr (Val)
open Matrix

theorem foldl_max_spec : ∀ (l : List ℝ) (a : ℝ), a ≤ l.foldl max a ∧ (∀ b ∈ l, b ≤ l.foldl max a) ∧ (l.foldl max a = a ∨ l.foldl max a ∈ l)
  | [], a => ⟨le_refl _, fun _ h => (by cases h), Or.inl rfl⟩
  | c :: l, a => by
    obtain ⟨h1, h2, h3⟩ := foldl_max_spec l (max a c)
    rw [List.foldl_cons]
    refine ⟨le_trans (le_max_left _ _) h1, fun b hb => ?_, ?_⟩
    · rcases List.mem_cons.1 hb with rfl | hb
      · exact le_trans (le_max_right _ _) h1
      · exact h2 b hb
    · rcases h3 with h3 | h3
      · rcases max_choice a c with e | e
        · left; rw [h3, e]
        · right; rw [h3, e]; exact List.mem_cons_self
      · right; exact List.mem_cons_of_mem _ h3

theorem column_sum {a b : ℕ} {A : Mat ℝ} {M : Matrix (Fin a) (Fin b) ℝ} (h : IsM A M) (j : Fin b) :
    ((upTo 0 A.rows).map fun i => |A.val i (((j : ℕ) : ℤ))|).sum = ∑ i, |M i j| := by
  rw [upTo_fin a A.rows h.rows, List.map_map, ← List.sum_ofFn, List.ofFn_eq_map]
  congr 1
  refine List.map_congr_left fun i _ => ?_
  show |A.val (((i : ℕ) : ℤ)) (((j : ℕ) : ℤ))| = _
  rw [h.val]

theorem norm1_spec {a b : ℕ} {A : Mat ℝ} {M : Matrix (Fin a) (Fin b) ℝ} (h : IsM A M) (pb : 0 < b) : GreatestColumn M (norm1 A) := by
  unfold norm1
  obtain ⟨h1, h2, h3⟩ := foldl_max_spec ((upTo 0 A.cols).map fun j => ((upTo 0 A.rows).map fun i => |A.val i j|).sum) 0
  have hm : ∀ j : Fin b, (∑ i, |M i j|) ∈ ((upTo 0 A.cols).map fun j => ((upTo 0 A.rows).map fun i => |A.val i j|).sum) := fun j =>
    List.mem_map.2 ⟨((j : ℕ) : ℤ), mem_upTo.2 ⟨by omega, by rw [h.cols]; have := j.2; omega⟩, column_sum h j⟩
  refine ⟨fun j => h2 _ (hm j), ?_⟩
  rcases h3 with h3 | h3
  · refine ⟨⟨0, pb⟩, ?_⟩
    have := h2 _ (hm ⟨0, pb⟩)
    rw [h3] at this ⊢
    exact le_antisymm this (Finset.sum_nonneg fun i _ => abs_nonneg _)
  · obtain ⟨j, hj, e⟩ := List.mem_map.1 h3
    rw [← e]
    have hj' := mem_upTo.1 hj
    rw [h.cols] at hj'
    refine ⟨⟨j.toNat, by omega⟩, ?_⟩
    rw [← column_sum h]
    show ((upTo 0 A.rows).map fun i => |A.val i ((j.toNat : ℕ) : ℤ)|).sum = _
    rw [Int.toNat_of_nonneg hj'.1]

theorem condUn_spec (lu : List ℝ → List ℝ) {N k : ℕ} {x : Mat ℝ} {X : Matrix (Fin N) (Fin k) ℝ} (hx : IsM x X) (pN : 0 < N) (pk : 0 < k)
    (work : List ℝ) (hw : (k : ℤ) * k ≤ work.length) (hd : (Xᵀ * X).det ≠ 0) :
    ∃ a b, condUn lu x work = .ok (a * b) ∧ GreatestColumn (Xᵀ * X) a ∧ GreatestColumn (Xᵀ * X)⁻¹ b := by
  obtain ⟨xtx, e1, i1, -⟩ := dotAtA_isM hx (sized_part work 0 k k (by omega) (by omega)) pN pk
  obtain ⟨xi, e2, i2, -⟩ := (inv0_isM lu i1 pk).1 hd
  refine ⟨_, _, ?_, norm1_spec i1 pk, norm1_spec i2 pk⟩
  unfold condUn
  simp only [hx.cols, e1, Outcome.ok_bind, e2, ne_eq, not_true, if_false]
  rfl

theorem condR_spec (lu : List ℝ → List ℝ) {N m k q : ℕ} {y x R : Mat ℝ} {Y : Matrix (Fin N) (Fin m) ℝ} {X : Matrix (Fin N) (Fin k) ℝ}
    {Rm : Matrix (Fin (m * k)) (Fin q) ℝ} (hy : IsM y Y) (hx : IsM x X) (hR : IsM R Rm) (pN : 0 < N) (pm : 0 < m) (pk : 0 < k) (pq : 0 < q)
    (hq : q ≤ m * k) (work : List ℝ)
    (hw : (k : ℤ) * k + ((k : ℤ) * m) * ((k : ℤ) * m) + (q : ℤ) * ((k : ℤ) * m) + ((N : ℤ) * m) * ((k : ℤ) * m) +
      ((N : ℤ) * m) * q + (q : ℤ) * 1 ≤ work.length) (e : Est ℝ) (he : Room e N m k) {S : Matrix (Fin m) (Fin m) ℝ} (hS : IsM e.residVar S)
    (hd : S.det ≠ 0) (hg : (gramR S⁻¹ X Rm).det ≠ 0) :
    ∃ a b, condR lu y x R work e = .ok (a * b) ∧ GreatestColumn (Rmᵀ * kronM S⁻¹ (Xᵀ * X)) a ∧ GreatestColumn (gramR S⁻¹ X Rm)⁻¹ b := by
  have pmk : 0 < m * k := Nat.mul_pos pm pk
  have a0 : (0 : ℤ) ≤ (k : ℤ) * k := by positivity
  have a1 : (0 : ℤ) ≤ ((k : ℤ) * m) * ((k : ℤ) * m) := by positivity
  have a2 : (0 : ℤ) ≤ (q : ℤ) * ((k : ℤ) * m) := by positivity
  have a3 : (0 : ℤ) ≤ ((N : ℤ) * m) * ((k : ℤ) * m) := by positivity
  have a4 : (0 : ℤ) ≤ ((N : ℤ) * m) * q := by positivity
  have c1 : (k : ℤ) * m = ((m * k : ℕ) : ℤ) := by push_cast; ring
  obtain ⟨v, e0, hW, -⟩ := (inv0_isM lu hS pm).1 hd
  obtain ⟨xtx, e1, i1, -⟩ := dotAtA_isM hx (sized_part work 0 k k (by omega) (by omega)) pN pk
  obtain ⟨vxx, e2, i2, -⟩ := kron_isM hW i1
    (sized_part' work ((k : ℤ) * k) ((k : ℤ) * m) ((k : ℤ) * m) (((k : ℤ) * m) * ((k : ℤ) * m)) (m * k) (m * k) c1 c1
      rfl (by omega) (by omega))
  have s3 := sized_part' work ((k : ℤ) * k + ((k : ℤ) * m) * ((k : ℤ) * m)) (q : ℤ) ((k : ℤ) * m)
    ((q : ℤ) * ((k : ℤ) * m)) q (m * k) rfl c1 rfl (by omega) (by omega)
  obtain ⟨rvx, e3, i3, -⟩ := trDot0_isM hR i2 s3 pq pmk
  have s4 : Sized { e.gammaVar with rows := (q : ℤ), cols := (q : ℤ) } q q :=
    sized_of_mem he.gammaVar.1 (le_trans (Nat.mul_le_mul hq hq) he.gammaVar.2) _ _ rfl rfl
  obtain ⟨gv, e4, i4, -⟩ := dot0_isM i3 hR s4 pq pmk
  obtain ⟨gi, e5, i5, -⟩ := (inv0_isM lu i4 pq).1 hg
  refine ⟨_, _, ?_, norm1_spec i3 pmk, norm1_spec i5 pq⟩
  unfold condR
  simp only [hy.cols, hx.cols, hR.cols, e0, Outcome.ok_bind, e1, e2]
  rw [trDot_eq (by rw [hR.rows, i2.rows]) (by rw [hR.cols]) (by rw [i2.cols]; exact c1.symm), e3]
  simp only [Outcome.ok_bind]
  rw [dot_eq (by rw [i3.cols, hR.rows]) (by rw [i3.rows]) (by rw [hR.cols]), e4]
  simp only [Outcome.ok_bind, e5, ne_eq, not_true, if_false]
  rfl

theorem GreatestColumn.unique {a b : ℕ} {A : Matrix (Fin a) (Fin b) ℝ} {c d : ℝ} (h : GreatestColumn A c) (h' : GreatestColumn A d) : c = d := by
  obtain ⟨h1, j, e⟩ := h
  obtain ⟨h1', j', e'⟩ := h'
  exact le_antisymm (e ▸ h1' j) (e' ▸ h1 j')

/-- The greatest column sum of a product is at most the product of the greatest column sums. -/
theorem GreatestColumn.mul_le {a b c : ℕ} {A : Matrix (Fin a) (Fin b) ℝ} {B : Matrix (Fin b) (Fin c) ℝ} {x y z : ℝ} (hA : GreatestColumn A x)
    (hB : GreatestColumn B y) (h : GreatestColumn (A * B) z) : z ≤ x * y := by
  obtain ⟨_, j, e⟩ := h
  rw [← e]
  have hx : 0 ≤ x := by obtain ⟨l, el⟩ := hA.2; rw [← el]; exact Finset.sum_nonneg fun i _ => abs_nonneg _
  calc ∑ i, |(A * B) i j| ≤ ∑ i, ∑ l, |A i l| * |B l j| := Finset.sum_le_sum fun i _ => by
        rw [mul_apply]
        refine le_trans (Finset.abs_sum_le_sum_abs _ _) (le_of_eq ?_)
        exact Finset.sum_congr rfl fun l _ => abs_mul _ _
    _ = ∑ l, (∑ i, |A i l|) * |B l j| := by
        rw [Finset.sum_comm]
        exact Finset.sum_congr rfl fun l _ => by rw [Finset.sum_mul]
    _ ≤ ∑ l, x * |B l j| := Finset.sum_le_sum fun l _ => mul_le_mul_of_nonneg_right (hA.1 l) (abs_nonneg _)
    _ = x * ∑ l, |B l j| := by rw [Finset.mul_sum]
    _ ≤ x * y := mul_le_mul_of_nonneg_left (hB.1 j) hx

theorem greatest_one {k : ℕ} (pk : 0 < k) : GreatestColumn (1 : Matrix (Fin k) (Fin k) ℝ) 1 := by
  have h : ∀ j : Fin k, ∑ i, |(1 : Matrix (Fin k) (Fin k) ℝ) i j| = 1 := fun j => by
    rw [Finset.sum_eq_single j]
    · simp
    · intro b _ hb; rw [Matrix.one_apply_ne hb, abs_zero]
    · intro hb; exact absurd (Finset.mem_univ _) hb
  exact ⟨fun j => (h j).le, ⟨0, pk⟩, h _⟩

theorem GreatestColumn.smul {a b : ℕ} {A : Matrix (Fin a) (Fin b) ℝ} {x : ℝ} (h : GreatestColumn A x) (c : ℝ) : GreatestColumn (c • A) (|c| * x) := by
  have e : ∀ j, ∑ i, |(c • A) i j| = |c| * ∑ i, |A i j| := fun j => by
    rw [Finset.mul_sum]
    exact Finset.sum_congr rfl fun i _ => by rw [Matrix.smul_apply, smul_eq_mul, abs_mul]
  obtain ⟨h1, j, h2⟩ := h
  exact ⟨fun j => by rw [e]; exact mul_le_mul_of_nonneg_left (h1 j) (abs_nonneg _), j, by rw [e, h2]⟩

end Su
end LDT
