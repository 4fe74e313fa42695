import Verif.Lemmas.ChoiceCode
/-! # The functions handed to the optimiser are the likelihood, its gradient and its Hessian -/
namespace LDT
namespace Dc
open Di Op Set

section ordered
variable {S : Fns} (hS : S.Good) (law : Law) {J : ℕ} (D : Data)
include hS

theorem gfunOrdered_eq (hJ : 2 ≤ J) (hc : ∀ i < D.n, D.cat i ≤ J) (β : ℕ → ℝ) (l : ℕ) :
    gfunOrdered S law J D β l = grad law.cdf law.pdf J D.k0 D.n D.wt D.cat D.x β (unit l) := by
  unfold gfunOrdered
  rw [foldl_cells (ι := ℕ) D.n _ (fun i l => -(D.wt i * (first law.pdf J D.k0 D.x D.cat i β (unit l) / chanceAt law.cdf J D.k0 D.x D.cat i β)))
    (fun _ => True) (fun i hi s l _ => by
      rw [gStep_apply, parts_P hS law D β i hJ (hc i hi), parts_eq hS law D β i hJ (hc i hi)]
      congr 1
      have hci := hc i hi
      generalize chanceAt law.cdf J D.k0 D.x D.cat i β = P
      unfold first
      have e1 : ∀ j, gap D.k0 D.x i j (unit l) = (if j ≠ 0 ∧ l = D.k0 + j - 1 then 1 else 0) - if l < D.k0 then D.x i l else 0 := fun j => by
        unfold gap; rw [cut_unit, index_unit]
      simp only [e1]
      generalize law.pdf (gap D.k0 D.x i (D.cat i) β) = f1
      generalize law.pdf (gap D.k0 D.x i (D.cat i - 1) β) = f0
      generalize D.cat i = j at *
      generalize D.wt i = v
      generalize D.x i l = y
      by_cases h0 : j = 0
      · have hJ' : ¬ 0 = J := by omega
        subst h0
        simp only [if_neg hJ', true_or, if_true, Nat.zero_le, reduceCtorEq, if_false, ne_eq, not_true, false_and]
        split_ifs <;> ring
      · by_cases hj : j = J
        · have h2 : ¬ j ≤ 1 := by omega
          have h3 : j - 1 ≠ 0 := by omega
          have h4 : D.k0 + (j - 1) - 1 = D.k0 + j - 2 := by omega
          rw [if_pos (Or.inr hj : j = 0 ∨ j = J)]
          simp only [if_pos hj, if_neg h0, if_neg h2, if_true, reduceCtorEq, if_false, h3, ne_eq, not_false_iff, true_and, h4, Option.some.injEq]
          have h5 : (D.k0 + j - 2 = l) ↔ (l = D.k0 + j - 2) := eq_comm
          simp only [h5]
          split_ifs <;> first | omega | ring1
        · have h1 : ¬ (j = 0 ∨ j = J) := by omega
          rw [if_neg h1]
          simp only [if_neg hj, if_neg h0, Option.some.injEq, h0, ne_eq, not_false_iff, true_and]
          have h5 : (D.k0 + j - 1 = l) ↔ (l = D.k0 + j - 1) := eq_comm
          by_cases h2 : j ≤ 1
          · have h3 : j - 1 = 0 := by omega
            simp only [if_pos h2, h5, h3, reduceCtorEq, if_false, not_true, false_and]
            split_ifs <;> first | omega | ring1
          · have h3 : ¬ j - 1 = 0 := by omega
            have h4 : D.k0 + (j - 1) - 1 = D.k0 + j - 2 := by omega
            have h6 : (D.k0 + j - 2 = l) ↔ (l = D.k0 + j - 2) := eq_comm
            simp only [if_neg h2, h5, h3, h4, h6, not_false_iff, true_and, Option.some.injEq]
            split_ifs <;> first | omega | ring1) _ l trivial]
  unfold grad; simp

theorem hUpper (hJ : 2 ≤ J) (hc : ∀ i < D.n, D.cat i ≤ J) (β : ℕ → ℝ) (l m : ℕ) (hlm : l ≤ m) :
    (List.range D.n).foldl (fun stro i => hStep (D.parts S law J β i) (D.wt i) D.k0 (D.x i) stro) (fun _ _ => 0) l m =
      hess law.cdf law.pdf law.slope J D.k0 D.n D.wt D.cat D.x β (unit l) (unit m) := by
  rw [foldl_cells2 D.n _ (fun i l m => -(D.wt i * (second law.slope J D.k0 D.x D.cat i β (unit l) (unit m) / chanceAt law.cdf J D.k0 D.x D.cat i β -
      first law.pdf J D.k0 D.x D.cat i β (unit l) * first law.pdf J D.k0 D.x D.cat i β (unit m) / chanceAt law.cdf J D.k0 D.x D.cat i β ^ 2)))
    (fun l m => l ≤ m) (fun i hi s l m hlm => by
      rw [hStep_apply _ _ _ _ _ _ _ hlm, parts_P hS law D β i hJ (hc i hi), parts_eq hS law D β i hJ (hc i hi)]
      congr 1
      have hci := hc i hi
      generalize chanceAt law.cdf J D.k0 D.x D.cat i β = P
      unfold first second
      have e1 : ∀ l j, gap D.k0 D.x i j (unit l) = (if j ≠ 0 ∧ l = D.k0 + j - 1 then 1 else 0) - if l < D.k0 then D.x i l else 0 := fun l j => by
        unfold gap; rw [cut_unit, index_unit]
      simp only [e1]
      generalize law.pdf (gap D.k0 D.x i (D.cat i) β) = f1
      generalize law.pdf (gap D.k0 D.x i (D.cat i - 1) β) = f0
      generalize law.slope (gap D.k0 D.x i (D.cat i) β) = s1
      generalize law.slope (gap D.k0 D.x i (D.cat i - 1) β) = s0
      generalize D.cat i = j at *
      generalize D.wt i = v
      generalize D.x i l = y
      generalize D.x i m = z
      by_cases h0 : j = 0
      · have hJ' : ¬ 0 = J := by omega
        subst h0
        simp only [if_neg hJ', true_or, if_true, Nat.zero_le, reduceCtorEq, if_false, ne_eq, not_true, false_and, and_false]
        split_ifs <;> first | omega | ring1
      · by_cases hj : j = J
        · have h2 : ¬ j ≤ 1 := by omega
          have h3 : j - 1 ≠ 0 := by omega
          have h4 : D.k0 + (j - 1) - 1 = D.k0 + j - 2 := by omega
          rw [if_pos (Or.inr hj : j = 0 ∨ j = J)]
          simp only [if_pos hj, if_neg h0, if_neg h2, if_true, reduceCtorEq, if_false, h3, ne_eq, not_false_iff, true_and, and_true, false_and,
            and_false, h4, Option.some.injEq]
          have h5 : ∀ l, (D.k0 + j - 2 = l) ↔ (l = D.k0 + j - 2) := fun _ => eq_comm
          simp only [h5]
          have h6 : D.k0 ≤ D.k0 + j - 2 := by omega
          generalize D.k0 + j - 2 = r at *
          generalize D.k0 = k at *
          by_cases a1 : l < k <;> by_cases a2 : m < k <;> simp only [if_pos, if_neg, a1, a2, true_and, false_and, and_true, and_false, if_true, if_false] <;> split_ifs <;> first | omega | ring1
        · have h1 : ¬ (j = 0 ∨ j = J) := by omega
          rw [if_neg h1]
          simp only [if_neg hj, if_neg h0, Option.some.injEq, h0, ne_eq, not_false_iff, true_and]
          have h5 : ∀ l, (D.k0 + j - 1 = l) ↔ (l = D.k0 + j - 1) := fun _ => eq_comm
          by_cases h2 : j ≤ 1
          · have h3 : j - 1 = 0 := by omega
            simp only [if_pos h2, h5, h3, reduceCtorEq, if_false, not_true, false_and, and_false]
            have h6 : D.k0 ≤ D.k0 + j - 1 := by omega
            generalize D.k0 + j - 1 = r at *
            generalize D.k0 = k at *
            by_cases a1 : l < k <;> by_cases a2 : m < k <;> simp only [if_pos, if_neg, a1, a2, true_and, false_and, and_true, and_false, if_true, if_false] <;> split_ifs <;> first | omega | ring1
          · have h3 : ¬ j - 1 = 0 := by omega
            have h4 : D.k0 + (j - 1) - 1 = D.k0 + j - 2 := by omega
            have h6 : ∀ l, (D.k0 + j - 2 = l) ↔ (l = D.k0 + j - 2) := fun _ => eq_comm
            simp only [if_neg h2, h5, h3, h4, h6, not_false_iff, true_and, Option.some.injEq]
            have h7 : D.k0 ≤ D.k0 + j - 2 := by omega
            have h8 : D.k0 + j - 1 = D.k0 + j - 2 + 1 := by omega
            rw [h8]
            generalize D.k0 + j - 2 = r at *
            generalize D.k0 = k at *
            by_cases a1 : l < k <;> by_cases a2 : m < k <;> simp only [if_pos, if_neg, a1, a2, true_and, false_and, and_true, and_false, if_true, if_false] <;> split_ifs <;> first | omega | ring1) _ l m hlm]
  unfold hess; simp

theorem hfunOrdered_eq (hJ : 2 ≤ J) (hc : ∀ i < D.n, D.cat i ≤ J) (β : ℕ → ℝ) (l m : ℕ) (hl : l < D.k0 + J - 1) :
    hfunOrdered S law J D β l m = hess law.cdf law.pdf law.slope J D.k0 D.n D.wt D.cat D.x β (unit l) (unit m) := by
  unfold hfunOrdered
  rw [mirror_apply]
  by_cases h : m < l
  · rw [if_pos ⟨h, hl⟩, hUpper hS law D hJ hc β m l h.le, hess_comm]
  · rw [if_neg (by omega), hUpper hS law D hJ hc β l m (by omega)]

end ordered

end Dc
end LDT
