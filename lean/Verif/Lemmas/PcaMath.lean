import Verif.Spec.Pca
import Mathlib.Algebra.BigOperators.Ring.Finset
import Mathlib.Algebra.BigOperators.Field
import Mathlib.Algebra.Order.BigOperators.Ring.Finset
import Mathlib.Tactic.Linarith
import Mathlib.Tactic.Ring
import Mathlib.Tactic.FieldSimp
/-!
# A singular value decomposition gives the principal components
-/
namespace LDT
namespace Pc
open Sd

variable {r k n : ℕ} {X : Fin r → Fin k → ℝ} {S : Fin n → ℝ} {V : Fin n → Fin k → ℝ}

/-- The score in any direction, by the decomposition. -/
theorem score_svd {U : Fin r → Fin n → ℝ} (hX : ∀ i j, X i j = ∑ a, U i a * S a * V a j) (i : Fin r) (w : Fin k → ℝ) :
    score X i w = ∑ a, U i a * (S a * ∑ j, V a j * w j) := by
  unfold score
  calc ∑ j, X i j * w j = ∑ j, ∑ a, U i a * (S a * (V a j * w j)) := by
        refine Finset.sum_congr rfl fun j _ => ?_
        rw [hX, Finset.sum_mul]
        exact Finset.sum_congr rfl fun a _ => by ring
    _ = ∑ a, ∑ j, U i a * (S a * (V a j * w j)) := Finset.sum_comm
    _ = _ := by
        refine Finset.sum_congr rfl fun a _ => ?_
        rw [Finset.mul_sum, Finset.mul_sum]

/-- Orthonormal columns keep inner products. -/
theorem inner_U {U : Fin r → Fin n → ℝ} (hU : ∀ a b, ∑ i, U i a * U i b = if a = b then 1 else 0) (f g : Fin n → ℝ) :
    ∑ i, (∑ a, U i a * f a) * (∑ a, U i a * g a) = ∑ a, f a * g a := by
  calc ∑ i, (∑ a, U i a * f a) * (∑ b, U i b * g b) = ∑ i, ∑ a, ∑ b, (U i a * U i b) * (f a * g b) := by
        refine Finset.sum_congr rfl fun i _ => ?_
        rw [Finset.sum_mul_sum]
        exact Finset.sum_congr rfl fun a _ => Finset.sum_congr rfl fun b _ => by ring
    _ = ∑ a, ∑ b, ∑ i, (U i a * U i b) * (f a * g b) := by
        rw [Finset.sum_comm]
        refine Finset.sum_congr rfl fun a _ => ?_
        rw [Finset.sum_comm]
    _ = ∑ a, ∑ b, (if a = b then 1 else 0) * (f a * g b) := by
        refine Finset.sum_congr rfl fun a _ => Finset.sum_congr rfl fun b _ => ?_
        rw [← Finset.sum_mul, hU]
    _ = _ := by
        refine Finset.sum_congr rfl fun a _ => ?_
        simp

/-- Bessel's inequality. -/
theorem bessel (hV : ∀ a b, ∑ j, V a j * V b j = if a = b then 1 else 0) (w : Fin k → ℝ) :
    ∑ a, (∑ j, V a j * w j) ^ 2 ≤ ∑ j, w j ^ 2 := by
  set t : Fin n → ℝ := fun a => ∑ j, V a j * w j with ht
  have h1 : ∑ j, (∑ a, V a j * t a) * (∑ a, V a j * t a) = ∑ a, t a * t a :=
    inner_U (U := fun j a => V a j) hV t t
  have h2 : ∑ j, (∑ a, V a j * t a) * w j = ∑ a, t a * t a := by
    calc ∑ j, (∑ a, V a j * t a) * w j = ∑ j, ∑ a, t a * (V a j * w j) := by
          refine Finset.sum_congr rfl fun j _ => ?_
          rw [Finset.sum_mul]; exact Finset.sum_congr rfl fun a _ => by ring
      _ = ∑ a, ∑ j, t a * (V a j * w j) := Finset.sum_comm
      _ = _ := Finset.sum_congr rfl fun a _ => by rw [← Finset.mul_sum]
  have h3 : 0 ≤ ∑ j, (w j - ∑ a, V a j * t a) ^ 2 := Finset.sum_nonneg fun _ _ => sq_nonneg _
  have h4 : ∑ j, (w j - ∑ a, V a j * t a) ^ 2 = ∑ j, w j ^ 2 - 2 * (∑ j, (∑ a, V a j * t a) * w j)
      + ∑ j, (∑ a, V a j * t a) * (∑ a, V a j * t a) := by
    rw [Finset.mul_sum, ← Finset.sum_sub_distrib, ← Finset.sum_add_distrib]
    exact Finset.sum_congr rfl fun j _ => by ring
  rw [h4, h1, h2] at h3
  have h5 : ∑ a, (∑ j, V a j * w j) ^ 2 = ∑ a, t a * t a := Finset.sum_congr rfl fun a _ => by rw [ht]; ring
  rw [h5]; linarith

/-- The second moment in any direction. -/
theorem moment_svd {U : Fin r → Fin n → ℝ} (hU : ∀ a b, ∑ i, U i a * U i b = if a = b then 1 else 0)
    (hX : ∀ i j, X i j = ∑ a, U i a * S a * V a j) (w u : Fin k → ℝ) :
    ∑ i, score X i w * score X i u = ∑ a, (S a * ∑ j, V a j * w j) * (S a * ∑ j, V a j * u j) := by
  rw [← inner_U hU]
  exact Finset.sum_congr rfl fun i _ => by rw [score_svd hX, score_svd hX]

/-- The principal components. -/
theorem isPca_of_svd (h : IsSvd X S V) (h2 : 2 ≤ r) : IsPca X V (fun a => S a / Real.sqrt ((r : ℝ) - 1)) := by
  obtain ⟨hp, hd, hV, U, hU, hX⟩ := h
  have hr : (0 : ℝ) < (r : ℝ) - 1 := by have : (2 : ℝ) ≤ r := by exact_mod_cast h2
                                        linarith
  have hq := Real.sqrt_pos.2 hr
  have sq : ∀ a, (S a / Real.sqrt ((r : ℝ) - 1)) ^ 2 = S a ^ 2 / ((r : ℝ) - 1) := fun a => by
    rw [div_pow, Real.sq_sqrt hr.le]
  refine ⟨hV, fun a b => ?_, fun a => div_nonneg (hp a) hq.le, fun a b hab => by gcongr; exact hd a b hab, fun i j => ?_, fun a w hw ho => ?_⟩
  · rw [moment_svd hU hX]
    simp only [hV]
    by_cases hab : a = b
    · subst hab
      rw [if_pos rfl, sq]
      congr 1
      rw [Finset.sum_eq_single a]
      · simp; ring
      · intro c _ hc; rw [if_neg hc]; ring
      · simp
    · rw [if_neg hab]
      rw [Finset.sum_eq_zero, zero_div]
      intro c _
      by_cases hc : c = a
      · rw [if_neg (show ¬ c = b from fun e => hab (hc.symm.trans e))]; ring
      · rw [if_neg hc]; ring
  · rw [hX]
    refine Finset.sum_congr rfl fun a _ => ?_
    rw [score_svd hX]
    simp only [hV]
    rw [Finset.sum_eq_single a]
    · simp
    · intro c _ hc; rw [if_neg hc]; ring
    · simp
  · rw [sq]
    gcongr
    have e : ∑ i, score X i w ^ 2 = ∑ b, S b ^ 2 * (∑ j, V b j * w j) ^ 2 := by
      have := moment_svd hU hX w w
      calc ∑ i, score X i w ^ 2 = ∑ i, score X i w * score X i w := Finset.sum_congr rfl fun i _ => by ring
        _ = _ := this
        _ = _ := Finset.sum_congr rfl fun b _ => by ring
    rw [e]
    calc ∑ b, S b ^ 2 * (∑ j, V b j * w j) ^ 2 ≤ ∑ b, S a ^ 2 * (∑ j, V b j * w j) ^ 2 := by
          refine Finset.sum_le_sum fun b _ => ?_
          by_cases hb : b < a
          · rw [ho b hb]; simp
          · have := hd a b (not_lt.1 hb)
            have h0 := hp b
            gcongr
      _ = S a ^ 2 * ∑ b, (∑ j, V b j * w j) ^ 2 := by rw [Finset.mul_sum]
      _ ≤ S a ^ 2 * ∑ j, w j ^ 2 := mul_le_mul_of_nonneg_left (bessel hV w) (sq_nonneg _)
      _ = S a ^ 2 := by rw [hw, mul_one]

/-- The total of the second moments. -/
theorem IsPca.total {sd : Fin n → ℝ} {D : Fin n → Fin k → ℝ} (h : IsPca X D sd) :
    (∑ j, ∑ i, X i j ^ 2) / ((r : ℝ) - 1) = ∑ a, sd a ^ 2 := by
  have e : ∀ i, ∑ j, X i j ^ 2 = ∑ a, score X i (D a) * score X i (D a) := by
    intro i
    calc ∑ j, X i j ^ 2 = ∑ j, X i j * ∑ a, score X i (D a) * D a j :=
          Finset.sum_congr rfl fun j _ => by rw [← h.complete]; ring
      _ = ∑ j, ∑ a, score X i (D a) * (X i j * D a j) := by
          refine Finset.sum_congr rfl fun j _ => ?_
          rw [Finset.mul_sum]; exact Finset.sum_congr rfl fun a _ => by ring
      _ = ∑ a, ∑ j, score X i (D a) * (X i j * D a j) := Finset.sum_comm
      _ = _ := Finset.sum_congr rfl fun a _ => by rw [← Finset.mul_sum]; rfl
  rw [Finset.sum_comm, Finset.sum_congr rfl (fun i _ => e i), Finset.sum_comm, Finset.sum_div]
  refine Finset.sum_congr rfl fun a _ => ?_
  have := h.moments a a
  rw [if_pos rfl] at this
  exact this

/-- Scores of a centred table have mean 0. -/
theorem score_mean (hc : ∀ j, ∑ i, X i j = 0) (d : Fin k → ℝ) : ∑ i, score X i d = 0 := by
  unfold score
  rw [Finset.sum_comm]
  refine Finset.sum_eq_zero fun j _ => ?_
  rw [← Finset.sum_mul, hc, zero_mul]

end Pc
end LDT
