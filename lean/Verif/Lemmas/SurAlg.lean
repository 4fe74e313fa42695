import Verif.Lemmas.SurEst
import Verif.Spec.Sur
import Mathlib.Algebra.BigOperators.Field
/-!
# Algebra of systems of regressions
-/
namespace LDT
namespace Su
open Matrix Ls

section
variable {K : Type} [Field K] {N m k q : Nat}

theorem sum_split {M : Type} [AddCommMonoid M] (f : Fin (m * k) → M) : ∑ p, f p = ∑ j : Fin m, ∑ l : Fin k, f (number j l) := by
  rw [← Fintype.sum_prod_type', ← Equiv.sum_comp (finProdFinEquiv (m := m) (n := k)) f]
  rfl

@[simp] theorem divNat_number (j : Fin m) (l : Fin k) : (number j l).divNat = j := by
  have := finProdFinEquiv.symm_apply_apply (j, l)
  exact congrArg Prod.fst this

@[simp] theorem modNat_number (j : Fin m) (l : Fin k) : (number j l).modNat = l := by
  have := finProdFinEquiv.symm_apply_apply (j, l)
  exact congrArg Prod.snd this

theorem number_split (p : Fin (m * k)) : p = number p.divNat p.modNat := by
  have := finProdFinEquiv.apply_symm_apply p
  exact this.symm

theorem kronM_number {a b c d : Nat} (A : Matrix (Fin a) (Fin b) K) (B : Matrix (Fin c) (Fin d) K) (i : Fin a) (i' : Fin c)
    (j : Fin b) (j' : Fin d) : kronM A B (number i i') (number j j') = A i j * B i' j' := by
  unfold kronM
  rw [divNat_number, divNat_number, modNat_number, modNat_number]

theorem kronM_mul {a b c a' b' c' : Nat} (A : Matrix (Fin a) (Fin b) K) (B : Matrix (Fin a') (Fin b') K)
    (C : Matrix (Fin b) (Fin c) K) (D : Matrix (Fin b') (Fin c') K) : kronM A B * kronM C D = kronM (A * C) (B * D) := by
  funext p r
  rw [mul_apply, sum_split]
  unfold kronM
  simp only [divNat_number, modNat_number, mul_apply]
  rw [Finset.sum_mul_sum]
  exact Finset.sum_congr rfl fun j _ => Finset.sum_congr rfl fun l _ => by ring

theorem kronM_transpose {a b c d : Nat} (A : Matrix (Fin a) (Fin b) K) (B : Matrix (Fin c) (Fin d) K) :
    (kronM A B)ᵀ = kronM Aᵀ Bᵀ := rfl

theorem kronM_one : kronM (1 : Matrix (Fin m) (Fin m) K) (1 : Matrix (Fin k) (Fin k) K) = 1 := by
  funext p r
  unfold kronM
  by_cases h : p = r
  · subst h; simp
  · rw [one_apply_ne h]
    by_cases h1 : p.divNat = r.divNat
    · have h2 : p.modNat ≠ r.modNat := by
        intro h2; apply h; rw [number_split p, number_split r, h1, h2]
      rw [one_apply_ne h2, mul_zero]
    · rw [one_apply_ne h1, zero_mul]

/-- The regressors of the whole system. -/
noncomputable def design (X : Matrix (Fin N) (Fin k) K) (R : Matrix (Fin (m * k)) (Fin q) K) : Matrix (Fin (m * N)) (Fin q) K :=
  kronM (1 : Matrix (Fin m) (Fin m) K) X * R

theorem gramR_eq (W : Matrix (Fin m) (Fin m) K) (X : Matrix (Fin N) (Fin k) K) (R : Matrix (Fin (m * k)) (Fin q) K) :
    gramR W X R = (design X R)ᵀ * kronM W (1 : Matrix (Fin N) (Fin N) K) * design X R := by
  unfold gramR design
  rw [transpose_mul, kronM_transpose, transpose_one]
  have : kronM W (Xᵀ * X) = kronM (1 : Matrix (Fin m) (Fin m) K) Xᵀ * kronM W (1 : Matrix (Fin N) (Fin N) K) *
      kronM (1 : Matrix (Fin m) (Fin m) K) X := by
    rw [kronM_mul, kronM_mul, Matrix.one_mul, Matrix.mul_one, Matrix.mul_one]
  rw [this]
  simp only [Matrix.mul_assoc]

theorem gammaR_eq (W : Matrix (Fin m) (Fin m) K) (hW : Wᵀ = W) (X : Matrix (Fin N) (Fin k) K)
    (R : Matrix (Fin (m * k)) (Fin q) K) (Y : Matrix (Fin N) (Fin m) K) :
    gammaR W X R Y = ((design X R)ᵀ * kronM W (1 : Matrix (Fin N) (Fin N) K) * design X R)⁻¹ *
      ((design X R)ᵀ * kronM W (1 : Matrix (Fin N) (Fin N) K)) * vecM Y := by
  unfold gammaR
  rw [gramR_eq, Matrix.mul_assoc _ _ (vecM Y)]
  congr 2
  unfold design
  rw [transpose_mul, transpose_mul, kronM_transpose, kronM_transpose, transpose_one, hW, Matrix.mul_assoc, kronM_mul,
    Matrix.one_mul, Matrix.mul_one]

theorem weighted_kron (W : Matrix (Fin m) (Fin m) K) (v : Fin (m * N) → K) :
    weighted (kronM W (1 : Matrix (Fin N) (Fin N) K)) v = system W (fun i j => v (number j i)) := by
  unfold weighted system weighted
  rw [sum_split]
  have h : ∀ (j : Fin m) (i : Fin N), ∑ r, v (number j i) * kronM W (1 : Matrix (Fin N) (Fin N) K) (number j i) r * v r =
      ∑ j', v (number j i) * W j j' * v (number j' i) := by
    intro j i
    rw [sum_split]
    refine Finset.sum_congr rfl fun j' _ => ?_
    rw [Finset.sum_eq_single i]
    · simp [kronM_number]
    · intro i' _ hi
      simp [kronM_number, one_apply_ne hi.symm]
    · simp
  simp only [h]
  rw [Finset.sum_comm]

theorem misfit_design (X : Matrix (Fin N) (Fin k) K) (R : Matrix (Fin (m * k)) (Fin q) K) (Y : Matrix (Fin N) (Fin m) K)
    (g : Fin q → K) :
    (fun i j => misfit (design X R) (fun p => vecM Y p 0) g (number j i) : Matrix (Fin N) (Fin m) K) = left Y X (coef R g) := by
  funext i j
  unfold misfit left coef design
  congr 1
  · simp [vecM]
  · simp only [mul_apply, Finset.sum_mul]
    rw [Finset.sum_comm, sum_split]
    rw [Finset.sum_eq_single j]
    · refine Finset.sum_congr rfl fun l _ => ?_
      rw [Finset.mul_sum]
      refine Finset.sum_congr rfl fun p _ => ?_
      simp [kronM_number, mul_assoc]
    · intro j' _ hj
      refine Finset.sum_eq_zero fun l _ => Finset.sum_eq_zero fun p _ => ?_
      simp [kronM_number, one_apply_ne hj.symm]
    · simp

theorem coef_eq (R : Matrix (Fin (m * k)) (Fin q) K) (g : Matrix (Fin q) (Fin 1) K) :
    unvec (R * g) = coef R (fun p => g p 0) := by
  funext l j
  unfold unvec coef
  rw [mul_apply]; rfl

theorem left_eq (Y : Matrix (Fin N) (Fin m) K) (X : Matrix (Fin N) (Fin k) K) (B : Matrix (Fin k) (Fin m) K) :
    left Y X B = Y - X * B := by
  funext i j; rw [Matrix.sub_apply, mul_apply]; rfl

theorem cov_eq (E : Matrix (Fin N) (Fin m) K) : cov E = covM E := by
  funext i j
  unfold cov covM
  rw [mul_apply]
  simp [transpose_apply]

variable [LinearOrder K] [IsStrictOrderedRing K]

theorem posDef_kron {W : Matrix (Fin m) (Fin m) K} (h : PosDef W) :
    PosDef (kronM W (1 : Matrix (Fin N) (Fin N) K)) := by
  refine ⟨fun p r => ?_, fun v hv => ?_⟩
  · have : (kronM W (1 : Matrix (Fin N) (Fin N) K))ᵀ = kronM W 1 := by
      rw [kronM_transpose, h.transpose, transpose_one]
    exact congrFun (congrFun this r) p
  · rw [weighted_kron]
    obtain ⟨p, hp⟩ := Function.ne_iff.1 hv
    refine Finset.sum_pos' (fun i _ => h.nonneg _) ⟨p.modNat, Finset.mem_univ _, h.2 _ ?_⟩
    intro h0
    apply hp
    have := congrFun h0 p.divNat
    simp only [← number_split] at this
    exact this

theorem fullRank_design {X : Matrix (Fin N) (Fin k) K} {R : Matrix (Fin (m * k)) (Fin q) K} (hX : FullRank X) (hR : FullRank R) :
    FullRank (design X R) := by
  rw [fullRank_iff] at hR ⊢
  intro g hg
  apply hR
  unfold design at hg
  rw [← mulVec_mulVec] at hg
  funext p
  have key : ∀ j : Fin m, (fun l => (R *ᵥ g) (number j l)) = 0 := by
    intro j
    apply hX
    intro i
    have := congrFun hg (number j i)
    simp only [mulVec, dotProduct, Pi.zero_apply] at this
    rw [sum_split, Finset.sum_eq_single j] at this
    · simpa [kronM_number, mulVec, dotProduct] using this
    · intro j' _ hj
      refine Finset.sum_eq_zero fun l _ => ?_
      simp [kronM_number, one_apply_ne hj.symm]
    · simp
  have := congrFun (key p.divNat) p.modNat
  simp only [← number_split] at this
  exact this

theorem fullRank_of_design {X : Matrix (Fin N) (Fin k) K} {R : Matrix (Fin (m * k)) (Fin q) K} (h : FullRank (design X R)) :
    FullRank R := by
  rw [fullRank_iff] at h ⊢
  intro g hg
  apply h
  unfold design
  rw [← mulVec_mulVec, hg, mulVec_zero]

theorem cov_weighted (pN : 0 < N) (E : Matrix (Fin N) (Fin m) K) (v : Fin m → K) :
    weighted (cov E) v = (∑ i, (∑ j, E i j * v j) ^ 2) / N := by
  have hN : (N : K) ≠ 0 := by exact_mod_cast pN.ne'
  unfold weighted cov
  rw [eq_div_iff hN]
  have e1 : ∀ j j' : Fin m, v j * ((∑ i, E i j * E i j') / N) * v j' = (∑ i, (E i j * v j) * (E i j' * v j')) / N := by
    intro j j'
    rw [mul_div_assoc', div_mul_eq_mul_div, Finset.mul_sum, Finset.sum_mul]
    congr 1
    exact Finset.sum_congr rfl fun i _ => by ring
  simp only [e1, ← Finset.sum_div]
  rw [div_mul_cancel₀ _ hN]
  have : ∀ j : Fin m, ∑ j', ∑ i, (E i j * v j) * (E i j' * v j') = ∑ i, ∑ j', (E i j * v j) * (E i j' * v j') :=
    fun j => Finset.sum_comm
  simp only [this]
  rw [Finset.sum_comm]
  refine Finset.sum_congr rfl fun i _ => ?_
  rw [sq, Finset.sum_mul_sum]

theorem posDef_cov (pN : 0 < N) (E : Matrix (Fin N) (Fin m) K) : PosDef (cov E) ↔ FullRank E := by
  have hN : (0 : K) < N := by exact_mod_cast pN
  constructor
  · intro h b hb
    by_contra h0
    have := h.2 b h0
    rw [cov_weighted pN] at this
    simp [hb] at this
  · intro h
    refine ⟨fun i j => ?_, fun v hv => ?_⟩
    · unfold cov; congr 1; exact Finset.sum_congr rfl fun _ _ => mul_comm _ _
    · rw [cov_weighted pN]
      apply div_pos _ hN
      by_contra hc
      apply hv
      apply h
      have nn : ∀ i ∈ Finset.univ, 0 ≤ (∑ j, E i j * v j) ^ 2 := fun i _ => sq_nonneg _
      have z := (Finset.sum_eq_zero_iff_of_nonneg nn).1 (le_antisymm (not_lt.1 hc) (Finset.sum_nonneg nn))
      intro i
      exact pow_eq_zero_iff (two_ne_zero) |>.1 (z i (Finset.mem_univ _))

/-- The least squares of all equations. -/
theorem leastSquares_iff {Y : Matrix (Fin N) (Fin m) K} {X : Matrix (Fin N) (Fin k) K} (hX : FullRank X)
    (B : Matrix (Fin k) (Fin m) K) : LeastSquares Y X B ↔ B = (Xᵀ * X)⁻¹ * (Xᵀ * Y) := by
  have e : ∀ j, (fun l => ((Xᵀ * (1 : Matrix (Fin N) (Fin N) K) * X)⁻¹ * (Xᵀ * (1 : Matrix (Fin N) (Fin N) K)) * Y) l j) = fun l => ((Xᵀ * X)⁻¹ * (Xᵀ * Y)) l j := by
    intro j; rw [Matrix.mul_one, Matrix.mul_assoc]
  constructor
  · intro h
    funext l j
    have b := best_fit (Y := Y) hX PosDef.one j (fun l => B l j)
    rw [e, ← squares_eq, ← squares_eq] at b
    exact congrFun (b.2 (h j _)) l
  · rintro rfl j b
    have b := best_fit (Y := Y) hX PosDef.one j b
    rw [e, ← squares_eq, ← squares_eq] at b
    exact b.1

theorem normal_un {Y : Matrix (Fin N) (Fin m) K} {X : Matrix (Fin N) (Fin k) K} (hX : FullRank X) :
    Xᵀ * left Y X ((Xᵀ * X)⁻¹ * (Xᵀ * Y)) = 0 := by
  have hd : (Xᵀ * (1 : Matrix (Fin N) (Fin N) K) * X).det ≠ 0 := gram_det_ne hX PosDef.one
  have := normal_equations (Y := Y) hd
  rw [Matrix.mul_one, Matrix.mul_assoc] at this
  rw [left_eq]; exact this

/-- If no combination of the least squares residuals vanishes, none of any other residuals does. -/
theorem fullRank_left {Y : Matrix (Fin N) (Fin m) K} {X : Matrix (Fin N) (Fin k) K} (hX : FullRank X)
    (h : FullRank (left Y X ((Xᵀ * X)⁻¹ * (Xᵀ * Y)))) (B : Matrix (Fin k) (Fin m) K) : FullRank (left Y X B) := by
  have hn := normal_un (Y := Y) hX
  generalize hB0 : (Xᵀ * X)⁻¹ * (Xᵀ * Y) = B0 at h hn
  rw [fullRank_iff] at h ⊢
  intro v hv
  apply h
  have e : left Y X B = left Y X B0 + X * (B0 - B) := by
    rw [left_eq, left_eq, Matrix.mul_sub]; abel
  rw [e, add_mulVec, ← mulVec_mulVec] at hv
  have e2 : left Y X B0 *ᵥ v = - (X *ᵥ ((B0 - B) *ᵥ v)) := eq_neg_of_add_eq_zero_left hv
  have d : (left Y X B0 *ᵥ v) ⬝ᵥ (left Y X B0 *ᵥ v) = 0 := by
    conv_lhs => rw [e2]
    rw [neg_dotProduct_neg]
    have : (X *ᵥ ((B0 - B) *ᵥ v)) ⬝ᵥ (X *ᵥ ((B0 - B) *ᵥ v)) =
        - ((X *ᵥ ((B0 - B) *ᵥ v)) ⬝ᵥ (left Y X B0 *ᵥ v)) := by rw [e2]; simp
    rw [this, dotProduct_comm, dotProduct_mulVec, ← mulVec_transpose, mulVec_mulVec, hn]
    simp
  exact dotProduct_self_eq_zero.1 d

/-- The restricted estimate is the best. -/
theorem best_system {W : Matrix (Fin m) (Fin m) K} (hW : PosDef W) {X : Matrix (Fin N) (Fin k) K} (hX : FullRank X)
    {R : Matrix (Fin (m * k)) (Fin q) K} (hR : FullRank R) (Y : Matrix (Fin N) (Fin m) K) (g : Fin q → K) :
    system W (left Y X (coef R fun p => gammaR W X R Y p 0)) ≤ system W (left Y X (coef R g)) ∧
    (system W (left Y X (coef R g)) ≤ system W (left Y X (coef R fun p => gammaR W X R Y p 0)) →
      g = fun p => gammaR W X R Y p 0) := by
  have b := best_fit (Y := vecM Y) (fullRank_design (N := N) hX hR) (posDef_kron (N := N) hW) 0 g
  rw [← gammaR_eq W hW.transpose X R Y, weighted_kron, weighted_kron, misfit_design, misfit_design] at b
  exact b

theorem gramR_det_ne {W : Matrix (Fin m) (Fin m) K} (hW : PosDef W) {X : Matrix (Fin N) (Fin k) K} (hX : FullRank X)
    {R : Matrix (Fin (m * k)) (Fin q) K} (hR : FullRank R) : (gramR W X R).det ≠ 0 := by
  rw [gramR_eq]; exact gram_det_ne (fullRank_design hX hR) (posDef_kron hW)

theorem gramR_det_zero (W : Matrix (Fin m) (Fin m) K) (X : Matrix (Fin N) (Fin k) K)
    {R : Matrix (Fin (m * k)) (Fin q) K} (hR : ¬ FullRank R) : (gramR W X R).det = 0 := by
  rw [gramR_eq]; exact gram_det_zero _ fun h => hR (fullRank_of_design h)

end
end Su
end LDT
