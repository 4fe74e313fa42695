import Verif.Model.VarmaFit
import Verif.Spec.VarmaFit
import Verif.Lemmas.Ols
/-!
# Least squares of a VARMA model
-/
namespace LDT
namespace Ve
open Matrix
open scoped Kronecker

section
variable {g n k p : ℕ} {κ : Type} [Fintype κ] [DecidableEq κ]

theorem gram_iff {ι : Type} [Fintype ι] [DecidableEq ι] (X : Matrix ι κ ℝ) : (Xᵀ * X).det ≠ 0 ↔ Ls.FullRank X := by
  constructor
  · intro h
    by_contra hX
    have := Ls.gram_det_zero (1 : Matrix ι ι ℝ) hX
    rw [Matrix.mul_one] at this
    exact h this
  · intro h
    have := Ls.gram_det_ne h (Ls.PosDef.one (K := ℝ) (ι := ι))
    rwa [Matrix.mul_one] at this

theorem cross_eq (X : Matrix (Fin n) κ ℝ) : cross X = Xᵀ * X := by
  funext c d
  simp [cross, Matrix.mul_apply]

theorem fold_le {ι : Type} (s : Finset ι) (f : ι → ℝ) (hf : ∀ i, 0 ≤ f i) :
    (∀ i ∈ s, f i ≤ s.fold max 0 f) ∧ ((∃ i ∈ s, f i = s.fold max 0 f) ∨ (s = ∅ ∧ s.fold max 0 f = 0)) := by
  classical
  induction s using Finset.induction_on with
  | empty => simp
  | insert a s ha ih =>
    rw [Finset.fold_insert ha]
    refine ⟨?_, Or.inl ?_⟩
    · intro i hi
      rcases Finset.mem_insert.1 hi with rfl | hi
      · exact le_max_left _ _
      · exact (ih.1 i hi).trans (le_max_right _ _)
    · rcases le_total (s.fold max 0 f) (f a) with h | h
      · exact ⟨a, Finset.mem_insert_self _ _, (max_eq_left h).symm⟩
      · rcases ih.2 with ⟨i, hi, e⟩ | ⟨_, e⟩
        · exact ⟨i, Finset.mem_insert_of_mem hi, by rw [max_eq_right h, e]⟩
        · refine ⟨a, Finset.mem_insert_self _ _, ?_⟩
          rw [e] at h ⊢
          exact (max_eq_left (hf a)).symm

theorem norm1_is (A : Matrix κ κ ℝ) : IsNorm1 A (norm1 A) := by
  have h := fold_le Finset.univ (fun j => ∑ i, |A i j|) fun j => Finset.sum_nonneg fun i _ => abs_nonneg _
  refine ⟨fun c => h.1 c (Finset.mem_univ _), ?_⟩
  rcases h.2 with ⟨i, _, e⟩ | ⟨e, e'⟩
  · exact .inl ⟨i, e⟩
  · exact .inr ⟨Finset.univ_eq_empty_iff.1 e, e'⟩

theorem IsNorm1.unique {A : Matrix κ κ ℝ} {v w : ℝ} (h : IsNorm1 A v) (h' : IsNorm1 A w) : v = w := by
  obtain ⟨h1, h2⟩ := h
  obtain ⟨h1', h2'⟩ := h'
  rcases h2 with ⟨c, e⟩ | ⟨he, e⟩
  · rcases h2' with ⟨c', e'⟩ | ⟨he', e'⟩
    · have a := h1 c'
      have b := h1' c
      linarith
    · exact (he'.false c).elim
  · rcases h2' with ⟨c', e'⟩ | ⟨he', e'⟩
    · exact (he.false c').elim
    · rw [e, e']

theorem conditioned_iff {A : Matrix κ κ ℝ} (hA : A.det ≠ 0) (m : Option ℝ) :
    WellConditioned A m ↔ exceeds (norm1 A * norm1 A⁻¹) m = false := by
  have u : IsUnit A.det := isUnit_iff_ne_zero.2 hA
  cases m with
  | none => simp [WellConditioned, exceeds]
  | some m =>
    have e : exceeds (norm1 A * norm1 A⁻¹) (some m) = false ↔ norm1 A * norm1 A⁻¹ ≤ m := by simp [exceeds]
    rw [e]
    constructor
    · intro h
      obtain ⟨B, a, b, hB, ha, hb, hab⟩ := h m rfl
      have : A⁻¹ = B := inv_eq_right_inv hB
      rwa [this, ← ha.unique (norm1_is A), ← hb.unique (norm1_is B)]
    · rintro h m' e
      cases e
      exact ⟨A⁻¹, _, _, mul_nonsing_inv _ u, norm1_is A, norm1_is _, h⟩

theorem left_eq (y : Matrix (Fin g) (Fin n) ℝ) (X : Matrix (Fin n) κ ℝ) (B : Matrix (Fin g) κ ℝ) : left y X B = y - B * Xᵀ := by
  funext j i
  simp [left, Matrix.mul_apply]

theorem misfit_mine (X : Matrix (Fin n) κ ℝ) (v : Fin n → ℝ) (b : κ → ℝ) : Ls.misfit X v b = fun i => v i - ∑ c, b c * X i c := by
  funext i
  exact congrArg (v i - ·) (Finset.sum_congr rfl fun c _ => mul_comm _ _)

theorem ols_ok {X : Matrix (Fin n) κ ℝ} {y : Matrix (Fin g) (Fin n) ℝ} {m : Option ℝ} {a : Step g n κ} (h : ols X y m = .ok a) :
    Ls.FullRank X ∧ WellConditioned (cross X) m ∧ a.gamma = y * (X * (Xᵀ * X)⁻¹) ∧ a.resid = left y X a.gamma ∧ a.inv = (Xᵀ * X)⁻¹ := by
  unfold ols at h
  by_cases hd : (Xᵀ * X).det = 0
  · rw [if_pos hd] at h
    cases h
  · rw [if_neg hd] at h
    by_cases hc : exceeds (norm1 (Xᵀ * X) * norm1 (Xᵀ * X)⁻¹) m = true
    · rw [if_pos hc] at h
      cases h
    · rw [if_neg hc] at h
      cases h
      refine ⟨(gram_iff X).1 hd, ?_, rfl, (left_eq _ _ _).symm, rfl⟩
      rw [cross_eq, conditioned_iff hd]
      exact Bool.eq_false_iff.2 hc

theorem ols_run {X : Matrix (Fin n) κ ℝ} {m : Option ℝ} (y : Matrix (Fin g) (Fin n) ℝ) (hX : Ls.FullRank X) (hc : WellConditioned (cross X) m) :
    ∃ a, ols X y m = .ok a := by
  have hd := (gram_iff X).2 hX
  rw [cross_eq, conditioned_iff hd] at hc
  unfold ols
  rw [if_neg hd, if_neg (by rw [hc]; exact Bool.false_ne_true)]
  exact ⟨_, rfl⟩

theorem ols_total (X : Matrix (Fin n) κ ℝ) (y : Matrix (Fin g) (Fin n) ℝ) (m : Option ℝ) : ols X y m = .throws ∨ ∃ a, ols X y m = .ok a := by
  unfold ols
  by_cases hd : (Xᵀ * X).det = 0
  · exact .inl (if_pos hd)
  · rw [if_neg hd]
    by_cases hc : exceeds (norm1 (Xᵀ * X) * norm1 (Xᵀ * X)⁻¹) m = true
    · exact .inl (if_pos hc)
    · exact .inr ⟨_, if_neg hc⟩

theorem best_of {X : Matrix (Fin n) κ ℝ} (y : Matrix (Fin g) (Fin n) ℝ) (hX : Ls.FullRank X) : BestFit y X (y * (X * (Xᵀ * X)⁻¹)) := by
  intro j b
  have h := Ls.best_fit (Y := yᵀ) hX (Ls.PosDef.one (K := ℝ) (ι := Fin n)) j b
  rw [Matrix.mul_one, ← Ls.squares_eq, ← Ls.squares_eq] at h
  have e : (fun l => ((Xᵀ * X)⁻¹ * Xᵀ * yᵀ) l j) = (y * (X * (Xᵀ * X)⁻¹)) j := by
    have t : (y * (X * (Xᵀ * X)⁻¹))ᵀ = (Xᵀ * X)⁻¹ * Xᵀ * yᵀ := by
      rw [Matrix.transpose_mul, Matrix.transpose_mul, Matrix.transpose_nonsing_inv, Matrix.transpose_mul, Matrix.transpose_transpose]
    funext l
    rw [← t]
    rfl
  rw [e] at h
  rw [misfit_mine, misfit_mine] at h
  exact h

theorem sigma2_eq (e : Matrix (Fin g) (Fin n) ℝ) : sigma2 e = meanProducts e := by
  funext j j'
  simp [sigma2, meanProducts, Matrix.mul_apply]
  ring

theorem covOf_kron {X : Matrix (Fin n) κ ℝ} (hX : Ls.FullRank X) (S : Matrix (Fin g) (Fin g) ℝ) : CovOf X S ((Xᵀ * X)⁻¹ ⊗ₖ S) := by
  intro c c' j j'
  have u : IsUnit (Xᵀ * X).det := isUnit_iff_ne_zero.2 ((gram_iff X).2 hX)
  have h := congrFun (congrFun (mul_nonsing_inv _ u) c) c'
  rw [Matrix.mul_apply] at h
  have e : ∀ d, (∑ i, X i c * X i d) * ((Xᵀ * X)⁻¹ ⊗ₖ S) (d, j) (c', j') = ((Xᵀ * X) c d * (Xᵀ * X)⁻¹ d c') * S j j' := by
    intro d
    rw [kroneckerMap_apply, Matrix.mul_apply]
    simp only [transpose_apply]
    ring
  rw [Finset.sum_congr rfl fun d _ => e d, ← Finset.sum_mul, h, Matrix.one_apply]
  split <;> simp

theorem withLags_xt (s : Sample g n k p) (e : Matrix (Fin g) (Fin n) ℝ) : WithLags s.x s.lag e (s.xt e) where
  first i c := rfl
  lagged i i' c j h := by
    change (if s.lag c ≤ i then e j ⟨i - s.lag c, _⟩ else 0) = _
    rw [if_pos (by omega)]
    exact congrArg (e j) (Fin.ext (by simp; omega))
  before i c j h := by
    change (if s.lag c ≤ i then e j ⟨i - s.lag c, _⟩ else 0) = _
    rw [if_neg (by omega)]

theorem WithLags.unique {x : Matrix (Fin n) (Fin k) ℝ} {lag : Fin p → ℕ} {e : Matrix (Fin g) (Fin n) ℝ} {X X' : Matrix (Fin n) (Reg g k p) ℝ}
    (h : WithLags x lag e X) (h' : WithLags x lag e X') : X = X' := by
  funext i c
  rcases c with c | ⟨c, j⟩
  · rw [h.first, h'.first]
  · by_cases hl : lag c ≤ i
    · rw [h.lagged i ⟨i - lag c, by omega⟩ c j (by simp; omega), h'.lagged i ⟨i - lag c, by omega⟩ c j (by simp; omega)]
    · rw [h.before i c j (by omega), h'.before i c j (by omega)]

/-! ## With a restriction -/

/-- The regressors of the free coefficients, one row for each observation of each equation. -/
noncomputable def design {q : ℕ} (X : Matrix (Fin n) κ ℝ) (R : Matrix (κ × Fin g) (Fin q) ℝ) : Matrix (Fin n × Fin g) (Fin q) ℝ :=
  (X ⊗ₖ (1 : Matrix (Fin g) (Fin g) ℝ)) * R

theorem design_cross {q : ℕ} (X : Matrix (Fin n) κ ℝ) (R : Matrix (κ × Fin g) (Fin q) ℝ) :
    Rᵀ * ((Xᵀ * X) ⊗ₖ (1 : Matrix (Fin g) (Fin g) ℝ)) * R = (design X R)ᵀ * design X R := by
  unfold design
  rw [Matrix.transpose_mul, ← kroneckerMap_transpose, Matrix.transpose_one, Matrix.mul_assoc Rᵀ, Matrix.mul_assoc Rᵀ,
    ← Matrix.mul_assoc (Xᵀ ⊗ₖ (1 : Matrix (Fin g) (Fin g) ℝ)), ← Matrix.mul_kronecker_mul, Matrix.one_mul]

theorem design_tr {q : ℕ} (X : Matrix (Fin n) κ ℝ) (R : Matrix (κ × Fin g) (Fin q) ℝ) :
    Rᵀ * (Xᵀ ⊗ₖ (1 : Matrix (Fin g) (Fin g) ℝ)) = (design X R)ᵀ := by
  unfold design
  rw [Matrix.transpose_mul, ← kroneckerMap_transpose, Matrix.transpose_one]

theorem design_mul {q : ℕ} (X : Matrix (Fin n) κ ℝ) (R : Matrix (κ × Fin g) (Fin q) ℝ) (t : Fin q → ℝ) (i : Fin n) (j : Fin g) :
    (design X R *ᵥ t) (i, j) = ∑ c, expand R t j c * X i c := by
  unfold design
  rw [← mulVec_mulVec]
  have e : R *ᵥ t = fun c => expand R t c.2 c.1 := rfl
  rw [e]
  simp only [mulVec, dotProduct, kroneckerMap_apply, Fintype.sum_prod_type, Matrix.one_apply]
  refine Finset.sum_congr rfl fun c _ => ?_
  rw [Finset.sum_eq_single j]
  · rw [if_pos rfl]; ring
  · intro b _ hb; rw [if_neg (Ne.symm hb)]; ring
  · simp

theorem design_apply {q : ℕ} (X : Matrix (Fin n) κ ℝ) (R : Matrix (κ × Fin g) (Fin q) ℝ) (i : Fin n) (j : Fin g) (a : Fin q) :
    design X R (i, j) a = ∑ c, R (c, j) a * X i c := by
  have h := design_mul X R (Pi.single a 1) i j
  rw [mulVec_single_one] at h
  rw [show design X R (i, j) a = (design X R).col a (i, j) from rfl, h]
  refine Finset.sum_congr rfl fun c _ => ?_
  simp [expand, Pi.single_apply]

theorem design_full {q : ℕ} (X : Matrix (Fin n) κ ℝ) (R : Matrix (κ × Fin g) (Fin q) ℝ) :
    Ls.FullRank (design X R) ↔ ∀ t : Fin q → ℝ, (∀ i j, ∑ c, expand R t j c * X i c = 0) → t = 0 := by
  rw [Ls.fullRank_iff]
  refine forall_congr' fun t => ?_
  have : design X R *ᵥ t = 0 ↔ ∀ i j, ∑ c, expand R t j c * X i c = 0 := by
    constructor
    · intro h i j
      rw [← design_mul, h]; rfl
    · intro h
      funext ij
      rw [show ij = (ij.1, ij.2) from rfl, design_mul, h]; rfl
  rw [this]

theorem design_gram {q : ℕ} (X : Matrix (Fin n) κ ℝ) (R : Matrix (κ × Fin g) (Fin q) ℝ) : (design X R)ᵀ * design X R =
    crossR X R := by
  funext a a'
  rw [Matrix.mul_apply, Fintype.sum_prod_type]
  refine Finset.sum_congr rfl fun i _ => Finset.sum_congr rfl fun j _ => ?_
  rw [transpose_apply, design_apply, design_apply]

theorem identified_iff {q : ℕ} (X : Matrix (Fin n) κ ℝ) (R : Matrix (κ × Fin g) (Fin q) ℝ) : Identified X R ↔ Ls.FullRank (design X R) := by
  rw [design_full]
  have e : ∀ (t t' : Fin q → ℝ) i j, ∑ c, expand R (t - t') j c * X i c = ∑ c, expand R t j c * X i c - ∑ c, expand R t' j c * X i c := by
    intro t t' i j
    rw [← design_mul, ← design_mul, ← design_mul, mulVec_sub]
    rfl
  constructor
  · intro h t ht
    refine h t 0 fun i j => ?_
    rw [ht, ← design_mul, mulVec_zero]; rfl
  · intro h t t' ht
    refine sub_eq_zero.1 (h (t - t') fun i j => ?_)
    rw [e, ht, sub_self]

theorem total_design {q : ℕ} (X : Matrix (Fin n) κ ℝ) (y : Matrix (Fin g) (Fin n) ℝ) (R : Matrix (κ × Fin g) (Fin q) ℝ) (t : Fin q → ℝ) :
    total (left y X (expand R t)) = Ls.squares (Ls.misfit (design X R) (vecY y) t) := by
  unfold Ls.squares total
  rw [Fintype.sum_prod_type, Finset.sum_comm]
  refine Finset.sum_congr rfl fun i _ => Finset.sum_congr rfl fun j _ => ?_
  rw [Ls.misfit_eq, Pi.sub_apply, design_mul]
  rfl

theorem restrictedFit_ok {q : ℕ} {X : Matrix (Fin n) κ ℝ} {y : Matrix (Fin g) (Fin n) ℝ} {R : Matrix (κ × Fin g) (Fin q) ℝ} {m : Option ℝ}
    {r : Start g n (Fin q)} (h : restrictedFit X y R m = .ok r) :
    (Ls.FullRank (design X R) ∧ WellConditioned ((design X R)ᵀ * design X R) m) ∧
    r = ⟨((design X R)ᵀ * design X R)⁻¹ *ᵥ ((design X R)ᵀ *ᵥ vecY y), 1, left y X (expand R r.gamma), some (meanProducts r.resid),
      some ((design X R)ᵀ * design X R)⁻¹⟩ := by
  unfold restrictedFit at h
  rw [design_cross, design_tr] at h
  generalize hZ : design X R = Z at h ⊢
  by_cases hd : (Zᵀ * Z).det = 0
  · rw [if_pos hd] at h
    cases h
  · rw [if_neg hd] at h
    by_cases hc : exceeds (norm1 (Zᵀ * Z) * norm1 (Zᵀ * Z)⁻¹) m = true
    · rw [if_pos hc] at h
      cases h
    · rw [if_neg hc] at h
      have e := Outcome.ok.inj h
      refine ⟨⟨(gram_iff Z).1 hd, (conditioned_iff hd m).2 (Bool.eq_false_iff.2 hc)⟩, ?_⟩
      rw [← e]
      have hr : (fun j i => (vecY y - Zᵀᵀ *ᵥ ((Zᵀ * Z)⁻¹ *ᵥ (Zᵀ *ᵥ vecY y))) (i, j) : Matrix (Fin g) (Fin n) ℝ) =
          left y X (expand R ((Zᵀ * Z)⁻¹ *ᵥ (Zᵀ *ᵥ vecY y))) := by
        funext j i
        rw [Matrix.transpose_transpose, Pi.sub_apply, ← hZ, design_mul]
        rfl
      simp only [hr, sigma2_eq]

theorem restrictedFit_run {q : ℕ} {X : Matrix (Fin n) κ ℝ} (y : Matrix (Fin g) (Fin n) ℝ) {R : Matrix (κ × Fin g) (Fin q) ℝ} {m : Option ℝ}
    (hX : Ls.FullRank (design X R)) (hc : WellConditioned ((design X R)ᵀ * design X R) m) : ∃ r, restrictedFit X y R m = .ok r := by
  have hd := (gram_iff _).2 hX
  rw [conditioned_iff hd] at hc
  unfold restrictedFit
  rw [design_cross, design_tr, if_neg hd, if_neg (by rw [hc]; exact Bool.false_ne_true)]
  exact ⟨_, rfl⟩

theorem restrictedFit_total {q : ℕ} (X : Matrix (Fin n) κ ℝ) (y : Matrix (Fin g) (Fin n) ℝ) (R : Matrix (κ × Fin g) (Fin q) ℝ) (m : Option ℝ) :
    restrictedFit X y R m = .throws ∨ ∃ r, restrictedFit X y R m = .ok r := by
  unfold restrictedFit
  rw [design_cross, design_tr]
  generalize design X R = Z
  by_cases hd : (Zᵀ * Z).det = 0
  · exact .inl (if_pos hd)
  · rw [if_neg hd]
    by_cases hc : exceeds (norm1 (Zᵀ * Z) * norm1 (Zᵀ * Z)⁻¹) m = true
    · exact .inl (if_pos hc)
    · exact .inr ⟨_, if_neg hc⟩

theorem design_best {q : ℕ} {X : Matrix (Fin n) κ ℝ} (y : Matrix (Fin g) (Fin n) ℝ) {R : Matrix (κ × Fin g) (Fin q) ℝ}
    (hX : Ls.FullRank (design X R)) (t : Fin q → ℝ) :
    let t0 := ((design X R)ᵀ * design X R)⁻¹ *ᵥ ((design X R)ᵀ *ᵥ vecY y)
    total (left y X (expand R t0)) ≤ total (left y X (expand R t)) ∧
      (total (left y X (expand R t)) ≤ total (left y X (expand R t0)) → t = t0) := by
  intro t0
  have h := Ls.best_fit (Y := (Matrix.of fun i _ => vecY y i : Matrix (Fin n × Fin g) Unit ℝ)) hX (Ls.PosDef.one (K := ℝ) (ι := Fin n × Fin g)) () t
  rw [Matrix.mul_one, ← Ls.squares_eq, ← Ls.squares_eq] at h
  have e : (fun l => (((design X R)ᵀ * design X R)⁻¹ * (design X R)ᵀ * (Matrix.of fun i _ => vecY y i : Matrix (Fin n × Fin g) Unit ℝ)) l ()) = t0 := by
    change _ = ((design X R)ᵀ * design X R)⁻¹ *ᵥ ((design X R)ᵀ *ᵥ vecY y)
    rw [mulVec_mulVec]
    rfl
  rw [e] at h
  rw [total_design, total_design]
  exact h

end
end Ve
end LDT
