import Verif.Spec.Ols
import Mathlib.LinearAlgebra.Matrix.NonsingularInverse
import Mathlib.LinearAlgebra.Matrix.DotProduct
import Mathlib.LinearAlgebra.Matrix.ToLinearEquiv
import Mathlib.Algebra.Order.BigOperators.Ring.Finset
import Mathlib.Tactic.Ring
import Mathlib.Tactic.Linarith
import Mathlib.Tactic.NoncommRing
/-!
# Algebra of least squares
-/
namespace LDT
namespace Ls
open Matrix

section
variable {K : Type} [Field K] {ι κ μ : Type} [Fintype ι] [Fintype κ] [DecidableEq ι] [DecidableEq κ]

theorem misfit_eq (X : Matrix ι κ K) (y : ι → K) (b : κ → K) : misfit X y b = y - X *ᵥ b := by
  funext i; simp [misfit, mulVec, dotProduct]

theorem weighted_eq (W : Matrix ι ι K) (v : ι → K) : weighted W v = v ⬝ᵥ W *ᵥ v := by
  unfold weighted
  simp only [dotProduct, mulVec, Finset.mul_sum, mul_assoc]

theorem squares_eq (v : ι → K) : squares v = weighted 1 v := by
  rw [weighted_eq, one_mulVec]
  unfold squares
  simp only [dotProduct, sq]

theorem fullRank_iff (X : Matrix ι κ K) : FullRank X ↔ ∀ b, X *ᵥ b = 0 → b = 0 := by
  unfold FullRank
  constructor
  · intro h b hb
    refine h b fun i => ?_
    have := congrFun hb i
    simpa [mulVec, dotProduct] using this
  · intro h b hb
    refine h b (funext fun i => ?_)
    simpa [mulVec, dotProduct] using hb i

/-- Completing the square. -/
theorem weighted_split (X : Matrix ι κ K) (W : Matrix ι ι K) (hW : Wᵀ = W) (y : ι → K)
    (β b : κ → K) (hn : Xᵀ *ᵥ (W *ᵥ (y - X *ᵥ β)) = 0) :
    weighted W (misfit X y b) = weighted W (misfit X y β) + weighted W (X *ᵥ (β - b)) := by
  rw [misfit_eq, misfit_eq, weighted_eq, weighted_eq, weighted_eq]
  have e : y - X *ᵥ b = (y - X *ᵥ β) + X *ᵥ (β - b) := by rw [mulVec_sub]; abel
  have c1 : (X *ᵥ (β - b)) ⬝ᵥ W *ᵥ (y - X *ᵥ β) = 0 := by
    rw [dotProduct_comm, dotProduct_mulVec, ← mulVec_transpose, hn, zero_dotProduct]
  have c2 : (y - X *ᵥ β) ⬝ᵥ W *ᵥ (X *ᵥ (β - b)) = 0 := by
    rw [dotProduct_mulVec, ← mulVec_transpose, hW, dotProduct_comm, c1]
  rw [e, mulVec_add, dotProduct_add, add_dotProduct, add_dotProduct, c1, c2]
  ring

variable [LinearOrder K] [IsStrictOrderedRing K]

theorem weighted_zero (W : Matrix ι ι K) : weighted W 0 = 0 := by rw [weighted_eq]; simp

theorem PosDef.transpose {W : Matrix ι ι K} (h : PosDef W) : Wᵀ = W := by
  funext i j; exact h.1 j i

theorem PosDef.nonneg {W : Matrix ι ι K} (h : PosDef W) (v : ι → K) : 0 ≤ weighted W v := by
  by_cases hv : v = 0
  · rw [hv, weighted_zero]
  · exact (h.2 v hv).le

theorem PosDef.det_ne {W : Matrix ι ι K} (h : PosDef W) : W.det ≠ 0 := by
  intro hd
  obtain ⟨v, hv, e⟩ := exists_mulVec_eq_zero_iff.2 hd
  have := h.2 v hv
  rw [weighted_eq, e, dotProduct_zero] at this
  exact lt_irrefl _ this

theorem PosDef.one : PosDef (1 : Matrix ι ι K) := by
  refine ⟨fun i j => by simp only [one_apply, eq_comm], fun v hv => ?_⟩
  rw [← squares_eq]
  unfold squares
  obtain ⟨i, hi⟩ := Function.ne_iff.1 hv
  exact Finset.sum_pos' (fun _ _ => sq_nonneg _) ⟨i, Finset.mem_univ _, by
    have : v i ≠ 0 := hi
    positivity⟩

theorem PosDef.inv {W : Matrix ι ι K} (h : PosDef W) : PosDef W⁻¹ := by
  have hd := h.det_ne
  have u : IsUnit W.det := isUnit_iff_ne_zero.2 hd
  have ht : (W⁻¹)ᵀ = W⁻¹ := by rw [transpose_nonsing_inv, h.transpose]
  refine ⟨fun i j => congrFun (congrFun ht j) i, fun v hv => ?_⟩
  have hw : W⁻¹ *ᵥ v ≠ 0 := by
    intro e
    apply hv
    have := congrArg (W *ᵥ ·) e
    simpa [mulVec_mulVec, mul_nonsing_inv W u] using this
  have := h.2 _ hw
  rw [weighted_eq, mulVec_mulVec, mul_nonsing_inv W u, one_mulVec] at this
  rw [weighted_eq, dotProduct_comm]; exact this

theorem gram_det_ne {X : Matrix ι κ K} {W : Matrix ι ι K} (hX : FullRank X) (hW : PosDef W) :
    (Xᵀ * W * X).det ≠ 0 := by
  intro hd
  obtain ⟨v, hv, e⟩ := exists_mulVec_eq_zero_iff.2 hd
  have hXv : X *ᵥ v ≠ 0 := fun h => hv ((fullRank_iff X).1 hX v h)
  have := hW.2 _ hXv
  have z : weighted W (X *ᵥ v) = v ⬝ᵥ (Xᵀ * W * X) *ᵥ v := by
    rw [weighted_eq, ← mulVec_mulVec, ← mulVec_mulVec, dotProduct_mulVec v Xᵀ, ← mulVec_transpose, transpose_transpose]
  rw [z, e, dotProduct_zero] at this
  exact lt_irrefl _ this

/-- Dependent regressors: the matrix of cross products is singular, whatever the weights. -/
theorem gram_det_zero {X : Matrix ι κ K} (W : Matrix ι ι K) (hX : ¬ FullRank X) :
    (Xᵀ * W * X).det = 0 := by
  rw [fullRank_iff] at hX
  push Not at hX
  obtain ⟨b, hb, b0⟩ := hX
  refine exists_mulVec_eq_zero_iff.1 ⟨b, b0, ?_⟩
  rw [← mulVec_mulVec, hb, mulVec_zero]

theorem normal_equations {X : Matrix ι κ K} {W : Matrix ι ι K} {Y : Matrix ι μ K}
    (hd : (Xᵀ * W * X).det ≠ 0) : Xᵀ * W * (Y - X * ((Xᵀ * W * X)⁻¹ * (Xᵀ * W) * Y)) = 0 := by
  have u : IsUnit (Xᵀ * W * X).det := isUnit_iff_ne_zero.2 hd
  rw [Matrix.mul_sub, ← Matrix.mul_assoc (Xᵀ * W) X, Matrix.mul_assoc (Xᵀ * W * X)⁻¹, ← Matrix.mul_assoc (Xᵀ * W * X),
    mul_nonsing_inv _ u, Matrix.one_mul, sub_self]

/-- The best weighted fit, column by column. -/
theorem best_fit {X : Matrix ι κ K} {W : Matrix ι ι K} {Y : Matrix ι μ K}
    (hX : FullRank X) (hW : PosDef W) (j : μ) (b : κ → K) :
    weighted W (misfit X (fun i => Y i j) (fun l => ((Xᵀ * W * X)⁻¹ * (Xᵀ * W) * Y) l j)) ≤
        weighted W (misfit X (fun i => Y i j) b) ∧
      (weighted W (misfit X (fun i => Y i j) b) ≤
        weighted W (misfit X (fun i => Y i j) (fun l => ((Xᵀ * W * X)⁻¹ * (Xᵀ * W) * Y) l j)) →
        b = fun l => ((Xᵀ * W * X)⁻¹ * (Xᵀ * W) * Y) l j) := by
  have hn := normal_equations (Y := Y) (gram_det_ne hX hW)
  generalize (Xᵀ * W * X)⁻¹ * (Xᵀ * W) * Y = B at *
  have hn' : Xᵀ *ᵥ (W *ᵥ ((fun i => Y i j) - X *ᵥ (fun l => B l j))) = 0 := by
    rw [mulVec_mulVec]
    funext i
    have := congrFun (congrFun hn i) j
    rw [Matrix.mul_apply] at this
    exact this
  have s := weighted_split X W hW.transpose (fun i => Y i j) (fun l => B l j) b hn'
  refine ⟨by rw [s]; linarith [hW.nonneg (X *ᵥ ((fun l => B l j) - b))], fun hle => ?_⟩
  by_contra hne
  have h0 : (fun l => B l j) - b ≠ 0 := fun h => hne (sub_eq_zero.1 h).symm
  have := hW.2 (X *ᵥ ((fun l => B l j) - b)) (fun h => h0 ((fullRank_iff X).1 hX _ h))
  linarith

end
end Ls
end LDT
