import Verif.Lemmas.ChoiceCode
/-! # Two choices: the functions handed to the optimiser are the likelihood, its gradient and its Hessian -/
namespace LDT
namespace Dc
open Di Op Set

theorem cat_binary {D : Data} {i : ℕ} (h : D.y i = 0 ∨ D.y i = 1) : (D.y i = 0 ∧ D.cat i = 0) ∨ (D.y i = 1 ∧ D.cat i = 1) := by
  unfold Data.cat
  rcases h with h | h
  · left; rw [h]; simp
  · right; rw [h]; simp

section
variable {S : Fns} (hS : S.Good) (law : Law) (D : Data) (hy : ∀ i < D.n, D.y i = 0 ∨ D.y i = 1) (β : ℕ → ℝ)

theorem gap_binary (i : ℕ) (d : ℕ → ℝ) : gap D.k0 D.x i 0 d = -index D.k0 D.x d i := by unfold gap cut; simp

theorem chanceAt_binary {i : ℕ} (h : D.cat i = 0 ∨ D.cat i = 1) :
    chanceAt law.cdf 1 D.k0 D.x D.cat i β = if D.cat i = 0 then 1 - law.cdf (index D.k0 D.x β i) else law.cdf (index D.k0 D.x β i) := by
  unfold chanceAt
  rcases h with h | h
  · rw [h]; simp [gap_binary, law.link.symm]
  · rw [h]; simp [gap_binary, law.link.symm]

theorem first_binary {i : ℕ} (h : D.cat i = 0 ∨ D.cat i = 1) (d : ℕ → ℝ) :
    first law.pdf 1 D.k0 D.x D.cat i β d =
      if D.cat i = 0 then -(law.pdf (index D.k0 D.x β i) * index D.k0 D.x d i) else law.pdf (index D.k0 D.x β i) * index D.k0 D.x d i := by
  unfold first
  rcases h with h | h
  · rw [h]; simp [gap_binary, law.link.gsymm]
  · rw [h]; simp [gap_binary, law.link.gsymm]

theorem second_binary {i : ℕ} (h : D.cat i = 0 ∨ D.cat i = 1) (d e : ℕ → ℝ) :
    second law.slope 1 D.k0 D.x D.cat i β d e =
      if D.cat i = 0 then -(law.slope (index D.k0 D.x β i) * index D.k0 D.x d i * index D.k0 D.x e i)
      else law.slope (index D.k0 D.x β i) * index D.k0 D.x d i * index D.k0 D.x e i := by
  unfold second
  rcases h with h | h
  · rw [h]; simp [gap_binary, law.link.ssymm]
  · rw [h]; simp [gap_binary, law.link.ssymm]

include hy

theorem cat_le : ∀ i < D.n, D.cat i ≤ 1 := fun i hi => by
  rcases cat_binary (hy i hi) with h | h <;> omega

include hS

theorem funBinary_eq : funBinary S law D β = -logLik law.cdf D.n 1 D.k0 D.wt D.cat D.x β := by
  cases law
  · show funLogit D β = _
    unfold funLogit
    rw [foldl_sum, zero_add, logLik_eq]
    congr 1
    refine Finset.sum_congr rfl fun i hi => ?_
    rw [chanceAt_binary .logit D β (by rcases cat_binary (hy i (Finset.mem_range.1 hi)) with h | h <;> simp [h])]
    congr 1
    have hp : (0 : ℝ) < 1 + Real.exp (index D.k0 D.x β i) := by positivity
    rw [dot_eq]
    rcases cat_binary (hy i (Finset.mem_range.1 hi)) with h | h
    · rw [h.1, if_pos h.2]
      show _ = Real.log (1 - logistic _)
      have : 1 - logistic (index D.k0 D.x β i) = (1 + Real.exp (index D.k0 D.x β i))⁻¹ := by
        unfold logistic; field_simp; ring
      rw [this, Real.log_inv]; ring
    · rw [h.1, if_neg (by rw [h.2]; norm_num)]
      show _ = Real.log (logistic _)
      unfold logistic
      rw [Real.log_div (Real.exp_pos _).ne' hp.ne', Real.log_exp]; ring
  · show funProbit S D β = _
    unfold funProbit
    rw [foldl_sum, zero_add, logLik_eq]
    congr 1
    refine Finset.sum_congr rfl fun i hi => ?_
    rw [chanceAt_binary .probit D β (by rcases cat_binary (hy i (Finset.mem_range.1 hi)) with h | h <;> simp [h])]
    congr 1
    simp only [dot_eq, normalCdf_eq hS]
    rcases cat_binary (hy i (Finset.mem_range.1 hi)) with h | h
    · rw [h.1, if_pos h.2]
      show _ = Real.log (1 - gaussian _)
      ring
    · rw [h.1, if_neg (by rw [h.2]; norm_num)]
      show _ = Real.log (gaussian _)
      ring

theorem gfunBinary_eq (l : ℕ) (hl : l < D.k0) :
    gfunBinary S law D β l = grad law.cdf law.pdf 1 D.k0 D.n D.wt D.cat D.x β (unit l) := by
  have hf := fun i (hi : i < D.n) => cat_binary (hy i hi)
  cases law
  · show gfunLogit D β l = _
    unfold gfunLogit
    rw [foldl_cells (ι := ℕ) D.n _ (fun i l => -(D.wt i * (first logisticPdf 1 D.k0 D.x D.cat i β (unit l) / chanceAt logistic 1 D.k0 D.x D.cat i β)))
      (fun l => l < D.k0) (fun i hi s l hl => by
        rw [sub_eq_add_neg]
        congr 1
        have hb : D.cat i = 0 ∨ D.cat i = 1 := by rcases hf i hi with h | h <;> simp [h]
        have e1 := first_binary .logit D β hb (unit l)
        have e2 := chanceAt_binary .logit D β hb
        simp only [Law.pdf, Law.cdf] at e1 e2
        rw [e1, e2, index_unit, if_pos hl, dot_eq, neg_one_mul, logistic_inv]
        have h1 := logistic_link.pos (index D.k0 D.x β i)
        have h2 := logistic_link.lt_one (index D.k0 D.x β i)
        unfold logisticPdf
        generalize logistic (index D.k0 D.x β i) = F at *
        have h3 : 1 - F ≠ 0 := by linarith
        rcases hf i hi with h | h
        · rw [h.1, if_pos h.2, if_pos h.2]; field_simp; ring
        · rw [h.1, if_neg (by rw [h.2]; norm_num), if_neg (by rw [h.2]; norm_num)]; field_simp) _ l hl]
    unfold grad; simp [Law.pdf, Law.cdf]
  · show gfunProbit S D β l = _
    unfold gfunProbit
    rw [foldl_cells (ι := ℕ) D.n _ (fun i l => -(D.wt i * (first gaussPdf 1 D.k0 D.x D.cat i β (unit l) / chanceAt gaussian 1 D.k0 D.x D.cat i β)))
      (fun l => l < D.k0) (fun i hi s l hl => by
        rw [sub_eq_add_neg]
        congr 1
        have hb : D.cat i = 0 ∨ D.cat i = 1 := by rcases hf i hi with h | h <;> simp [h]
        have e1 := first_binary .probit D β hb (unit l)
        have e2 := chanceAt_binary .probit D β hb
        simp only [Law.pdf, Law.cdf] at e1 e2
        rw [e1, e2, index_unit, if_pos hl]
        simp only [dot_eq, normalCdf_eq hS, normalPdf_eq]
        have h1 := gaussian_link.pos (index D.k0 D.x β i)
        have h2 := gaussian_link.lt_one (index D.k0 D.x β i)
        rcases hf i hi with h | h
        · rw [h.1, if_pos h.2, if_pos h.2]
          have e : (2 * 0 - 1) * index D.k0 D.x β i = -index D.k0 D.x β i := by ring
          rw [e, gaussPdf_neg, gaussian_symm]
          have h3 : 1 - gaussian (index D.k0 D.x β i) ≠ 0 := by linarith
          field_simp; ring
        · rw [h.1, if_neg (by rw [h.2]; norm_num), if_neg (by rw [h.2]; norm_num)]
          have e : (2 * 1 - 1) * index D.k0 D.x β i = index D.k0 D.x β i := by ring
          rw [e]
          field_simp; ring) _ l hl]
    unfold grad; simp [Law.pdf, Law.cdf]

theorem hfunBinary_eq (l m : ℕ) (hl : l < D.k0) (hm : m < D.k0) :
    hfunBinary S law D β l m = hess law.cdf law.pdf law.slope 1 D.k0 D.n D.wt D.cat D.x β (unit l) (unit m) := by
  have hf := fun i (hi : i < D.n) => cat_binary (hy i hi)
  cases law
  · show hfunLogit D β l m = _
    unfold hfunLogit
    rw [foldl_cells2 D.n _ (fun i l m => -(D.wt i * (second logisticSlope 1 D.k0 D.x D.cat i β (unit l) (unit m) / chanceAt logistic 1 D.k0 D.x D.cat i β -
        first logisticPdf 1 D.k0 D.x D.cat i β (unit l) * first logisticPdf 1 D.k0 D.x D.cat i β (unit m) / chanceAt logistic 1 D.k0 D.x D.cat i β ^ 2)))
      (fun l m => l < D.k0 ∧ m < D.k0) (fun i hi s l m hlm => by
        show _ + _ = _
        congr 1
        have hb : D.cat i = 0 ∨ D.cat i = 1 := by rcases hf i hi with h | h <;> simp [h]
        have e1 := first_binary .logit D β hb
        have e2 := chanceAt_binary .logit D β hb
        have e3 := second_binary .logit D β hb
        simp only [Law.pdf, Law.cdf, Law.slope] at e1 e2 e3
        rw [e1, e1, e2, e3, index_unit, if_pos hlm.1, index_unit, if_pos hlm.2, dot_eq]
        have h1 := logistic_link.pos (index D.k0 D.x β i)
        have h2 := logistic_link.lt_one (index D.k0 D.x β i)
        have e : Real.exp (index D.k0 D.x β i) / (1 + Real.exp (index D.k0 D.x β i)) = logistic (index D.k0 D.x β i) := rfl
        rw [e]
        unfold logisticSlope logisticPdf
        generalize logistic (index D.k0 D.x β i) = F at *
        have h3 : 1 - F ≠ 0 := by linarith
        rcases hf i hi with h | h
        · simp only [if_pos h.2]; field_simp; ring
        · have h4 : ¬ D.cat i = 0 := by rw [h.2]; norm_num
          simp only [if_neg h4]; field_simp; ring) _ l m ⟨hl, hm⟩]
    unfold hess; simp [Law.pdf, Law.cdf, Law.slope]
  · show hfunProbit S D β l m = _
    unfold hfunProbit
    rw [foldl_cells2 D.n _ (fun i l m => -(D.wt i * (second (fun z => -z * gaussPdf z) 1 D.k0 D.x D.cat i β (unit l) (unit m) /
        chanceAt gaussian 1 D.k0 D.x D.cat i β -
        first gaussPdf 1 D.k0 D.x D.cat i β (unit l) * first gaussPdf 1 D.k0 D.x D.cat i β (unit m) / chanceAt gaussian 1 D.k0 D.x D.cat i β ^ 2)))
      (fun l m => l < D.k0 ∧ m < D.k0) (fun i hi s l m hlm => by
        show _ + _ = _
        congr 1
        have hb : D.cat i = 0 ∨ D.cat i = 1 := by rcases hf i hi with h | h <;> simp [h]
        have e1 := first_binary .probit D β hb
        have e2 := chanceAt_binary .probit D β hb
        have e3 := second_binary .probit D β hb
        simp only [Law.pdf, Law.cdf, Law.slope] at e1 e2 e3
        rw [e1, e1, e2, e3, index_unit, if_pos hlm.1, index_unit, if_pos hlm.2]
        simp only [dot_eq, normalCdf_eq hS, normalPdf_eq]
        have h1 := gaussian_link.pos (index D.k0 D.x β i)
        have h2 := gaussian_link.lt_one (index D.k0 D.x β i)
        rcases hf i hi with h | h
        · simp only [if_pos h.2]
          rw [h.1]
          have e : (2 * 0 - 1) * index D.k0 D.x β i = -index D.k0 D.x β i := by ring
          rw [e, gaussPdf_neg, gaussian_symm]
          have h3 : 1 - gaussian (index D.k0 D.x β i) ≠ 0 := by linarith
          field_simp; ring
        · have h4 : ¬ D.cat i = 0 := by rw [h.2]; norm_num
          simp only [if_neg h4]
          rw [h.1]
          have e : (2 * 1 - 1) * index D.k0 D.x β i = index D.k0 D.x β i := by ring
          rw [e]
          field_simp; ring) _ l m ⟨hl, hm⟩]
    unfold hess; simp [Law.pdf, Law.cdf, Law.slope]

end
end Dc
end LDT
