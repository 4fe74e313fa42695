import Verif.Lemmas.ChoiceLik
/-! # The code computes these functions -/
namespace LDT
namespace Dc
open Di Op Set

/-- The density and its derivative that belong to a law. -/
noncomputable def Law.pdf : Law → ℝ → ℝ
  | .logit => logisticPdf
  | .probit => gaussPdf

/-- The derivative of the density. -/
noncomputable def Law.slope : Law → ℝ → ℝ
  | .logit => logisticSlope
  | .probit => fun z => -z * gaussPdf z

theorem Law.link : ∀ law : Law, Link law.cdf law.pdf law.slope
  | .logit => logistic_link
  | .probit => gaussian_link

theorem logistic_inv (z : ℝ) : 1 / (1 + Real.exp (-z)) = logistic z := by
  unfold logistic
  rw [Real.exp_neg]
  have := Real.exp_pos z
  have hp : (1 : ℝ) + Real.exp z ≠ 0 := by positivity
  have hq : (1 : ℝ) + (Real.exp z)⁻¹ ≠ 0 := by positivity
  field_simp
  ring

theorem normalCdf_eq {S : Fns} (hS : S.Good) (z : ℝ) : normalCdf S z = gaussian z := (gaussian_eq hS z).symm

theorem normalPdf_eq (z : ℝ) : normalPdf z = gaussPdf z := (gaussPdf_eq z).symm

theorem cdfAt_eq {S : Fns} (hS : S.Good) (law : Law) (m xib : ℝ) : cdfAt S law m xib = law.cdf (m - xib) := by
  cases law
  · show 1 / (1 + Real.exp (-m + xib)) = logistic (m - xib)
    rw [← logistic_inv]; congr 3; ring
  · exact normalCdf_eq hS _

theorem cdfAt0_eq {S : Fns} (hS : S.Good) (law : Law) (xib : ℝ) : cdfAt0 S law xib = law.cdf (0 - xib) := by
  rw [← cdfAt_eq hS]
  cases law
  · show 1 / (1 + Real.exp xib) = 1 / (1 + Real.exp (-0 + xib))
    congr 3; ring
  · show normalCdf S (-xib) = normalCdf S (0 - xib)
    rw [zero_sub]

theorem pdfAt_eq (law : Law) (m xib : ℝ) : pdfAt law (law.cdf (m - xib)) m xib = law.pdf (m - xib) := by
  cases law
  · rfl
  · exact normalPdf_eq _

theorem pdfAt0_eq (law : Law) (xib : ℝ) : pdfAt0 law (law.cdf (0 - xib)) xib = law.pdf (0 - xib) := by
  rw [zero_sub]
  cases law
  · rfl
  · exact normalPdf_eq _

theorem slopeAt_eq (law : Law) (m xib : ℝ) : slopeAt law (law.cdf (m - xib)) (law.pdf (m - xib)) m xib = law.slope (m - xib) := by
  cases law
  · rfl
  · show -gaussPdf (m - xib) * (m - xib) = -(m - xib) * gaussPdf (m - xib)
    ring

theorem slopeAt0_eq (law : Law) (xib : ℝ) : slopeAt0 law (law.cdf (0 - xib)) (law.pdf (0 - xib)) xib = law.slope (0 - xib) := by
  cases law
  · rfl
  · show gaussPdf (0 - xib) * xib = -(0 - xib) * gaussPdf (0 - xib)
    ring

theorem cut_ordermu (k0 : ℕ) (β : ℕ → ℝ) {j : ℕ} (hj : j ≠ 0) : ordermu k0 β (j - 1) = cut k0 β j := by
  unfold ordermu cut
  rw [if_neg hj]; congr 1; omega

theorem dot_eq (k0 : ℕ) (x : ℕ → ℕ → ℝ) (β : ℕ → ℝ) (i : ℕ) : dot k0 x β i = index k0 x β i := rfl

/-! ## The parts of an observation -/

section parts
variable {S : Fns} (hS : S.Good) (law : Law) {J : ℕ} (D : Data) (β : ℕ → ℝ) (i : ℕ)
include hS

theorem parts_eq (hJ : 2 ≤ J) (hc : D.cat i ≤ J) :
    D.parts S law J β i = ⟨if D.cat i = J then 1 else law.cdf (gap D.k0 D.x i (D.cat i) β),
      if D.cat i = 0 then 0 else law.cdf (gap D.k0 D.x i (D.cat i - 1) β),
      if D.cat i = J then 0 else law.pdf (gap D.k0 D.x i (D.cat i) β),
      if D.cat i = 0 then 0 else law.pdf (gap D.k0 D.x i (D.cat i - 1) β),
      if D.cat i = J then 0 else law.slope (gap D.k0 D.x i (D.cat i) β),
      if D.cat i = 0 then 0 else law.slope (gap D.k0 D.x i (D.cat i - 1) β),
      if D.cat i = 0 ∨ D.cat i = J then none else some (D.k0 + D.cat i - 1),
      if D.cat i ≤ 1 then none else some (D.k0 + D.cat i - 2)⟩ := by
  have c0 : cut D.k0 β 0 = 0 := by simp [cut]
  unfold Data.parts parts gap
  rw [dot_eq]
  generalize D.cat i = j at *
  by_cases h0 : j = 0
  · subst h0
    have hJ' : ¬ (0 : ℕ) = J := by omega
    simp only [if_true, if_neg hJ', c0, cdfAt0_eq hS, pdfAt0_eq, slopeAt0_eq, Nat.zero_le, true_or]
  · by_cases h1 : j = 1
    · subst h1
      have hJ' : ¬ 1 = J := by omega
      have e := cut_ordermu D.k0 β (j := 1) (by omega)
      simp only [Nat.sub_self] at e
      simp only [if_neg hJ', c0, cdfAt0_eq hS, pdfAt0_eq, slopeAt0_eq, cdfAt_eq hS, pdfAt_eq, slopeAt_eq, e, one_ne_zero, if_false, if_true,
        Nat.sub_self, false_or, le_refl, Nat.add_sub_cancel]
    · have h2 : ¬ j ≤ 1 := by omega
      have e := cut_ordermu D.k0 β (j := j - 1) (by omega)
      rw [show j - 1 - 1 = j - 2 by omega] at e
      have e' := cut_ordermu D.k0 β (j := j) (by omega)
      by_cases h : j = J
      · simp only [if_neg h0, if_neg h1, if_pos h, if_neg h2, cdfAt_eq hS, pdfAt_eq, slopeAt_eq, e]
        rw [if_pos (Or.inr h)]
      · simp only [if_neg h0, if_neg h1, if_neg h, if_neg h2, cdfAt_eq hS, pdfAt_eq, slopeAt_eq, e, e', h0, h, false_or, if_false]

theorem parts_P (hJ : 2 ≤ J) (hc : D.cat i ≤ J) : (D.parts S law J β i).P = chanceAt law.cdf J D.k0 D.x D.cat i β := by
  rw [parts_eq hS law D β i hJ hc]; rfl

end parts

/-! ## Loops -/

theorem foldl_sum (n : ℕ) (f : ℕ → ℝ) (a : ℝ) : (List.range n).foldl (fun s i => s + f i) a = a + ∑ i ∈ Finset.range n, f i := by
  induction n with
  | zero => simp
  | succ n ih => rw [List.range_succ, List.foldl_append, ih, Finset.sum_range_succ]; simp [add_assoc]

/-- A loop that adds to every cell. -/
theorem foldl_cells {ι : Type} (n : ℕ) (step : (ι → ℝ) → ℕ → ι → ℝ) (f : ℕ → ι → ℝ) (P : ι → Prop)
    (h : ∀ i < n, ∀ s l, P l → step s i l = s l + f i l) (s0 : ι → ℝ) (l : ι) (hl : P l) :
    (List.range n).foldl step s0 l = s0 l + ∑ i ∈ Finset.range n, f i l := by
  induction n with
  | zero => simp
  | succ n ih =>
    rw [List.range_succ, List.foldl_append, List.foldl_cons, List.foldl_nil, h n (by omega) _ l hl, ih fun i hi => h i (by omega),
      Finset.sum_range_succ, add_assoc]

theorem addAt_apply (s : ℕ → ℝ) (r : Option ℕ) (v : ℝ) (l : ℕ) : addAt s r v l = s l + if r = some l then v else 0 := by
  cases r with
  | none => simp [addAt]
  | some r =>
    unfold addAt
    by_cases h : l = r
    · simp [h]
    · have : ¬ r = l := fun e => h e.symm
      simp [h, this]

theorem gStep_apply (p : Parts) (v : ℝ) (k0 : ℕ) (x : ℕ → ℝ) (s : ℕ → ℝ) (l : ℕ) :
    gStep p v k0 x s l = s l + ((if p.r1 = some l then -(v * (p.f1 / p.P)) else 0) + (if p.r2 = some l then v * (p.f0 / p.P) else 0) +
      if l < k0 then x l * (v * ((p.f1 - p.f0) / p.P)) else 0) := by
  unfold gStep
  rw [foldl_cells (ι := ℕ) k0 _ (fun j l => if some j = some l then x j * (v * ((p.f1 - p.f0) / p.P)) else 0) (fun _ => True)
    (fun i _ s l _ => addAt_apply s (some i) _ l) _ l trivial, addAt_apply, addAt_apply]
  have : ∑ i ∈ Finset.range k0, (if some i = some l then x i * (v * ((p.f1 - p.f0) / p.P)) else 0) =
      if l < k0 then x l * (v * ((p.f1 - p.f0) / p.P)) else 0 := by
    simp only [Option.some.injEq]
    rw [Finset.sum_ite_eq']
    simp
  rw [this]; ring

theorem addAt2_apply (s : ℕ → ℕ → ℝ) (a b : ℕ) (v : ℝ) (l m : ℕ) : addAt2 s a b v l m = s l m + if l = a ∧ m = b then v else 0 := by
  unfold addAt2; split_ifs <;> simp

/-- A loop over matrices that adds to every cell. -/
theorem foldl_cells2 (n : ℕ) (step : (ℕ → ℕ → ℝ) → ℕ → ℕ → ℕ → ℝ) (f : ℕ → ℕ → ℕ → ℝ) (P : ℕ → ℕ → Prop)
    (h : ∀ i < n, ∀ s l m, P l m → step s i l m = s l m + f i l m) (s0 : ℕ → ℕ → ℝ) (l m : ℕ) (hl : P l m) :
    (List.range n).foldl step s0 l m = s0 l m + ∑ i ∈ Finset.range n, f i l m := by
  induction n with
  | zero => simp
  | succ n ih =>
    rw [List.range_succ, List.foldl_append, List.foldl_cons, List.foldl_nil, h n (by omega) _ l m hl, ih fun i hi => h i (by omega),
      Finset.sum_range_succ, add_assoc]

theorem hCut_apply (v : ℝ) (k0 : ℕ) (x : ℕ → ℝ) (r : Option ℕ) (c e : ℝ) (s : ℕ → ℕ → ℝ) (l m : ℕ) :
    hCut v k0 x r c e s l m = s l m + ((if l < k0 ∧ r = some m then v * (x l * c) else 0) + if r = some l ∧ l = m then -(v * e) else 0) := by
  cases r with
  | none => simp [hCut]
  | some r =>
    unfold hCut
    simp only []
    rw [addAt2_apply, foldl_cells2 k0 _ (fun a l m => if l = a ∧ m = r then v * (x a * c) else 0) (fun _ _ => True)
      (fun i _ s l m _ => addAt2_apply s i r _ l m) _ l m trivial]
    have h1 : ∑ i ∈ Finset.range k0, (if l = i ∧ m = r then v * (x i * c) else 0) = if l < k0 ∧ some r = some m then v * (x l * c) else 0 := by
      by_cases hm : m = r
      · simp only [hm, and_true]
        rw [Finset.sum_ite_eq]
        simp
      · have : ¬ r = m := fun e => hm e.symm
        simp [hm, this]
    rw [h1]
    have h2 : (l = r ∧ m = r) ↔ (some r = some l ∧ l = m) := by
      simp only [Option.some.injEq]
      constructor
      · rintro ⟨rfl, rfl⟩; exact ⟨rfl, rfl⟩
      · rintro ⟨rfl, rfl⟩; exact ⟨rfl, rfl⟩
    simp only [h2]
    ring

theorem hCross_apply (r1 r2 : Option ℕ) (e : ℝ) (s : ℕ → ℕ → ℝ) (l m : ℕ) :
    hCross r1 r2 e s l m = s l m + if r2 = some l ∧ r1 = some m then -e else 0 := by
  cases r1 <;> cases r2 <;> simp only [hCross] <;> try simp
  rw [addAt2_apply]
  congr 2
  simp only [eq_comm]

theorem hStep_apply (p : Parts) (v : ℝ) (k0 : ℕ) (x : ℕ → ℝ) (s : ℕ → ℕ → ℝ) (l m : ℕ) (hlm : l ≤ m) :
    hStep p v k0 x s l m = s l m +
      (((if l < k0 ∧ p.r1 = some m then v * (x l * (p.ff1 / p.P - (p.f1 - p.f0) * p.f1 / (p.P * p.P))) else 0) +
        (if p.r1 = some l ∧ l = m then -(v * (p.ff1 / p.P - (p.f1 / p.P) ^ 2)) else 0)) +
      ((if l < k0 ∧ p.r2 = some m then v * (x l * (-p.ff0 / p.P + (p.f1 - p.f0) * p.f0 / (p.P * p.P))) else 0) +
        (if p.r2 = some l ∧ l = m then -(v * (-p.ff0 / p.P - (p.f0 / p.P) ^ 2)) else 0)) +
      (if p.r2 = some l ∧ p.r1 = some m then -(v * (p.f1 * p.f0 / (p.P * p.P))) else 0) +
      if l < k0 ∧ m < k0 then -(x l * x m * (v * ((p.ff1 - p.ff0) / p.P - ((p.f1 - p.f0) / p.P) ^ 2))) else 0) := by
  unfold hStep
  set E := v * ((p.ff1 - p.ff0) / p.P - ((p.f1 - p.f0) / p.P) ^ 2) with hE
  rw [foldl_cells2 k0 _ (fun j l m => if l = j ∧ m < k0 then -(x l * x m * E) else 0) (fun l m => l ≤ m) (fun j hj s l m hlm => by
      rw [foldl_cells2 k0 _ (fun a l m => if l = j ∧ m = a then -(x l * x m * E) else 0) (fun l m => l ≤ m) (fun a ha s l m hlm => by
        split_ifs with h1 h2 h2
        · omega
        · simp
        · rw [addAt2_apply, if_pos h2, h2.1, h2.2]
        · rw [addAt2_apply, if_neg h2]) s l m hlm]
      congr 1
      by_cases h : l = j
      · simp only [h, true_and]
        rw [Finset.sum_ite_eq]
        simp
      · simp [h]) _ l m hlm, hCross_apply, hCut_apply, hCut_apply]
  have : ∑ i ∈ Finset.range k0, (if l = i ∧ m < k0 then -(x l * x m * E) else 0) = if l < k0 ∧ m < k0 then -(x l * x m * E) else 0 := by
    by_cases h : m < k0
    · simp only [h, and_true]
      rw [Finset.sum_ite_eq]
      simp
    · simp [h]
  rw [this]; ring

theorem setAt2_apply (s : ℕ → ℕ → ℝ) (a b : ℕ) (v : ℝ) (l m : ℕ) : setAt2 s a b v l m = if l = a ∧ m = b then v else s l m := rfl

/-- The state of the mirror loop. -/
theorem mirror_inner (k j : ℕ) (t : ℕ → ℕ → ℝ) (r : ℕ) (l m : ℕ) :
    (List.range r).foldl (fun s a => if j > a then s else setAt2 s a j (s j a)) t l m =
      if m = j ∧ j < l ∧ l < r then t j l else t l m := by
  induction r generalizing l m with
  | zero => simp
  | succ r ih =>
    rw [List.range_succ, List.foldl_append, List.foldl_cons, List.foldl_nil]
    by_cases h : j > r
    · rw [if_pos h, ih]
      have : (m = j ∧ j < l ∧ l < r) ↔ (m = j ∧ j < l ∧ l < r + 1) := by omega
      simp only [this]
    · rw [if_neg h, setAt2_apply]
      by_cases h1 : l = r ∧ m = j
      · rw [if_pos h1, ih]
        obtain ⟨rfl, rfl⟩ := h1
        have h2 : ¬ (l = m ∧ m < m ∧ m < l) := by omega
        rw [if_neg h2]
        by_cases h3 : m < l
        · rw [if_pos ⟨rfl, h3, by omega⟩]
        · rw [if_neg (by omega)]
          have : m = l := by omega
          rw [this]
      · rw [if_neg h1, ih]
        have : (m = j ∧ j < l ∧ l < r) ↔ (m = j ∧ j < l ∧ l < r + 1) := by omega
        simp only [this]

theorem mirror_apply (k : ℕ) (t : ℕ → ℕ → ℝ) (l m : ℕ) :
    mirror k t l m = if m < l ∧ l < k then t m l else t l m := by
  unfold mirror
  have H : ∀ r ≤ k, ∀ l m, (List.range r).foldl (fun s j => (List.range k).foldl (fun s a => if j > a then s else setAt2 s a j (s j a)) s) t l m =
      if m < r ∧ m < l ∧ l < k then t m l else t l m := by
    intro r
    induction r with
    | zero => intro _ l m; simp
    | succ r ih =>
      intro hr l m
      rw [List.range_succ, List.foldl_append, List.foldl_cons, List.foldl_nil, mirror_inner k]
      rw [ih (by omega), ih (by omega)]
      by_cases h1 : m = r ∧ r < l ∧ l < k
      · obtain ⟨rfl, h2, h3⟩ := h1
        rw [if_pos ⟨rfl, h2, h3⟩, if_neg (by omega), if_pos ⟨by omega, h2, h3⟩]
      · rw [if_neg h1]
        have : (m < r ∧ m < l ∧ l < k) ↔ (m < r + 1 ∧ m < l ∧ l < k) := by omega
        simp only [this]
  rw [H k (le_refl k)]
  have : (m < k ∧ m < l ∧ l < k) ↔ (m < l ∧ l < k) := by omega
  simp only [this]

end Dc
end LDT
