import Verif.Lemmas.ChoiceLaw
/-! # The likelihood, its gradient and its Hessian -/
namespace LDT
namespace Dc
open Set

variable {G g s : ℝ → ℝ} {J k0 : ℕ} {n : ℕ} {w : ℕ → ℝ} {c : ℕ → ℕ} {x : ℕ → ℕ → ℝ}

/-- Moving from `β` in the direction `d`. -/
def move (β d : ℕ → ℝ) (t : ℝ) : ℕ → ℝ := fun l => β l + t * d l

theorem cut_move (k0 : ℕ) (β d : ℕ → ℝ) (t : ℝ) (j : ℕ) : cut k0 (move β d t) j = cut k0 β j + t * cut k0 d j := by
  unfold cut move; split_ifs <;> simp

theorem index_move (k0 : ℕ) (x : ℕ → ℕ → ℝ) (β d : ℕ → ℝ) (t : ℝ) (i : ℕ) :
    index k0 x (move β d t) i = index k0 x β i + t * index k0 x d i := by
  unfold index move
  rw [Finset.mul_sum, ← Finset.sum_add_distrib]
  refine Finset.sum_congr rfl fun j _ => by ring

/-- `cut j - x'β`, a linear form. -/
def gap (k0 : ℕ) (x : ℕ → ℕ → ℝ) (i j : ℕ) (β : ℕ → ℝ) : ℝ := cut k0 β j - index k0 x β i

theorem gap_move (i j : ℕ) (β d : ℕ → ℝ) (t : ℝ) : gap k0 x i j (move β d t) = gap k0 x i j β + t * gap k0 x i j d := by
  unfold gap; rw [cut_move, index_move]; ring

theorem gap_deriv (i j : ℕ) (β d : ℕ → ℝ) (t : ℝ) : HasDerivAt (fun t => gap k0 x i j (move β d t)) (gap k0 x i j d) t := by
  have e : (fun t => gap k0 x i j (move β d t)) = fun t => gap k0 x i j β + t * gap k0 x i j d := funext fun t => gap_move i j β d t
  rw [e]
  simpa using ((hasDerivAt_id t).mul_const (gap k0 x i j d)).const_add (gap k0 x i j β)

/-- The probability of the choice of observation `i`. -/
def chanceAt (G : ℝ → ℝ) (J k0 : ℕ) (x : ℕ → ℕ → ℝ) (c : ℕ → ℕ) (i : ℕ) (β : ℕ → ℝ) : ℝ :=
  (if c i = J then 1 else G (gap k0 x i (c i) β)) - (if c i = 0 then 0 else G (gap k0 x i (c i - 1) β))

/-- The derivative of that probability in the direction `d`. -/
def first (g : ℝ → ℝ) (J k0 : ℕ) (x : ℕ → ℕ → ℝ) (c : ℕ → ℕ) (i : ℕ) (β d : ℕ → ℝ) : ℝ :=
  (if c i = J then 0 else g (gap k0 x i (c i) β) * gap k0 x i (c i) d) -
    (if c i = 0 then 0 else g (gap k0 x i (c i - 1) β) * gap k0 x i (c i - 1) d)

/-- The second derivative. -/
def second (s : ℝ → ℝ) (J k0 : ℕ) (x : ℕ → ℕ → ℝ) (c : ℕ → ℕ) (i : ℕ) (β d e : ℕ → ℝ) : ℝ :=
  (if c i = J then 0 else s (gap k0 x i (c i) β) * gap k0 x i (c i) d * gap k0 x i (c i) e) -
    (if c i = 0 then 0 else s (gap k0 x i (c i - 1) β) * gap k0 x i (c i - 1) d * gap k0 x i (c i - 1) e)

/-- The gradient of minus the likelihood in the direction `d`. -/
noncomputable def grad (G g : ℝ → ℝ) (J k0 n : ℕ) (w : ℕ → ℝ) (c : ℕ → ℕ) (x : ℕ → ℕ → ℝ) (β d : ℕ → ℝ) : ℝ :=
  ∑ i ∈ Finset.range n, -(w i * (first g J k0 x c i β d / chanceAt G J k0 x c i β))

/-- The Hessian of minus the likelihood in the directions `d` and `e`. -/
noncomputable def hess (G g s : ℝ → ℝ) (J k0 n : ℕ) (w : ℕ → ℝ) (c : ℕ → ℕ) (x : ℕ → ℕ → ℝ) (β d e : ℕ → ℝ) : ℝ :=
  ∑ i ∈ Finset.range n, -(w i * (second s J k0 x c i β d e / chanceAt G J k0 x c i β -
    first g J k0 x c i β d * first g J k0 x c i β e / chanceAt G J k0 x c i β ^ 2))

theorem logLik_eq (β : ℕ → ℝ) : logLik G n J k0 w c x β = ∑ i ∈ Finset.range n, w i * Real.log (chanceAt G J k0 x c i β) := rfl

theorem chanceAt_deriv (L : Link G g s) (i : ℕ) (β d : ℕ → ℝ) (t : ℝ) :
    HasDerivAt (fun t => chanceAt G J k0 x c i (move β d t)) (first g J k0 x c i (move β d t) d) t := by
  have h1 : ∀ j, HasDerivAt (fun t => G (gap k0 x i j (move β d t))) (g (gap k0 x i j (move β d t)) * gap k0 x i j d) t := fun j =>
    (L.dG _).comp t (gap_deriv i j β d t)
  unfold chanceAt first
  refine HasDerivAt.sub (f := fun t => if c i = J then 1 else G (gap k0 x i (c i) (move β d t)))
    (g := fun t => if c i = 0 then 0 else G (gap k0 x i (c i - 1) (move β d t))) ?_ ?_
  · split_ifs
    · exact hasDerivAt_const t 1
    · exact h1 _
  · split_ifs
    · exact hasDerivAt_const t 0
    · exact h1 _

theorem first_deriv (L : Link G g s) (i : ℕ) (β d e : ℕ → ℝ) (t : ℝ) :
    HasDerivAt (fun t => first g J k0 x c i (move β e t) d) (second s J k0 x c i (move β e t) d e) t := by
  have h1 : ∀ j, HasDerivAt (fun t => g (gap k0 x i j (move β e t)) * gap k0 x i j d)
      (s (gap k0 x i j (move β e t)) * gap k0 x i j d * gap k0 x i j e) t := fun j => by
    refine (((L.dg _).comp t (gap_deriv i j β e t)).mul_const (gap k0 x i j d)).congr_deriv ?_
    ring
  unfold first second
  refine HasDerivAt.sub (f := fun t => if c i = J then 0 else g (gap k0 x i (c i) (move β e t)) * gap k0 x i (c i) d)
    (g := fun t => if c i = 0 then 0 else g (gap k0 x i (c i - 1) (move β e t)) * gap k0 x i (c i - 1) d) ?_ ?_
  · split_ifs
    · exact hasDerivAt_const t 0
    · exact h1 _
  · split_ifs
    · exact hasDerivAt_const t 0
    · exact h1 _

theorem logLik_deriv (L : Link G g s) (β d : ℕ → ℝ) (t : ℝ) (hp : ∀ i < n, 0 < chanceAt G J k0 x c i (move β d t)) :
    HasDerivAt (fun t => -logLik G n J k0 w c x (move β d t)) (grad G g J k0 n w c x (move β d t) d) t := by
  have e : (fun t => -logLik G n J k0 w c x (move β d t)) =
      fun t => ∑ i ∈ Finset.range n, -(w i * Real.log (chanceAt G J k0 x c i (move β d t))) := by
    funext t; rw [logLik_eq, Finset.sum_neg_distrib]
  rw [e]
  refine HasDerivAt.fun_sum fun i hi => ?_
  have := ((((chanceAt_deriv L i β d t).log (hp i (Finset.mem_range.1 hi)).ne')).const_mul (w i)).neg
  exact this

theorem grad_deriv (L : Link G g s) (β d e : ℕ → ℝ) (t : ℝ) (hp : ∀ i < n, 0 < chanceAt G J k0 x c i (move β e t)) :
    HasDerivAt (fun t => grad G g J k0 n w c x (move β e t) d) (hess G g s J k0 n w c x (move β e t) d e) t := by
  unfold grad hess
  refine HasDerivAt.fun_sum fun i hi => ?_
  have h := (((first_deriv (J := J) (k0 := k0) (x := x) (c := c) L i β d e t).div (chanceAt_deriv L i β e t) (hp i (Finset.mem_range.1 hi)).ne').const_mul (w i)).neg
  refine h.congr_deriv ?_
  have hp0 := (hp i (Finset.mem_range.1 hi)).ne'
  field_simp

/-! ## Probabilities are positive -/

theorem chance_pos (L : Link G g s) {β : ℕ → ℝ} (h : Increasing J k0 β) (hJ : 1 ≤ J) (xb : ℝ) {j : ℕ} (hj : j ≤ J) :
    0 < chance G J k0 β xb j := by
  unfold chance
  by_cases h1 : j = J
  · rw [if_pos h1, if_neg (by omega)]
    have := L.lt_one (cut k0 β (j - 1) - xb)
    linarith
  · rw [if_neg h1]
    by_cases h0 : j = 0
    · rw [if_pos h0, sub_zero]; exact L.pos _
    · rw [if_neg h0]
      have h2 := h (j - 1) (by omega)
      rw [show j - 1 + 1 = j by omega] at h2
      have h3 := L.strictMono (show cut k0 β (j - 1) - xb < cut k0 β j - xb by linarith)
      linarith

theorem chanceAt_eq (i : ℕ) (β : ℕ → ℝ) : chanceAt G J k0 x c i β = chance G J k0 β (index k0 x β i) (c i) := rfl

/-! ## The Hessian -/

/-- The direction is seen by observation `i`. -/
def Seen (J k0 : ℕ) (x : ℕ → ℕ → ℝ) (c : ℕ → ℕ) (i : ℕ) (d : ℕ → ℝ) : Prop :=
  (c i ≠ J ∧ gap k0 x i (c i) d ≠ 0) ∨ (c i ≠ 0 ∧ gap k0 x i (c i - 1) d ≠ 0)

theorem curve_pos (L : Link G g s) (hJ : 1 ≤ J) {i : ℕ} {β d : ℕ → ℝ} (hp : 0 < chanceAt G J k0 x c i β) (hs : Seen J k0 x c i d) :
    0 < -(second s J k0 x c i β d d / chanceAt G J k0 x c i β - first g J k0 x c i β d * first g J k0 x c i β d / chanceAt G J k0 x c i β ^ 2) := by
  have e : -(second s J k0 x c i β d d / chanceAt G J k0 x c i β - first g J k0 x c i β d * first g J k0 x c i β d / chanceAt G J k0 x c i β ^ 2)
      = (-second s J k0 x c i β d d * chanceAt G J k0 x c i β + first g J k0 x c i β d ^ 2) / chanceAt G J k0 x c i β ^ 2 := by
    field_simp; ring
  rw [e]
  refine div_pos ?_ (by positivity)
  unfold Seen at hs
  unfold chanceAt second first at *
  by_cases h1 : c i = J
  · have h0 : c i ≠ 0 := by omega
    simp only [if_pos h1, if_neg h0] at *
    have hd : gap k0 x i (c i - 1) d ≠ 0 := by
      rcases hs with h | h
      · exact absurd h1 h.1
      · exact h.2
    have h := L.high (gap k0 x i (c i - 1) β)
    generalize gap k0 x i (c i - 1) β = z at *
    generalize gap k0 x i (c i - 1) d = q at *
    have : -(0 - s z * q * q) * (1 - G z) + (0 - g z * q) ^ 2 = (g z ^ 2 + s z * (1 - G z)) * q ^ 2 := by ring
    rw [this]; positivity
  · by_cases h0 : c i = 0
    · simp only [if_neg h1, if_pos h0] at *
      have hd : gap k0 x i (c i) d ≠ 0 := by
        rcases hs with h | h
        · exact h.2
        · exact absurd h0 h.1
      have h := L.low (gap k0 x i (c i) β)
      generalize gap k0 x i (c i) β = z at *
      generalize gap k0 x i (c i) d = q at *
      have : -(s z * q * q - 0) * (G z - 0) + (g z * q - 0) ^ 2 = (g z ^ 2 - s z * G z) * q ^ 2 := by ring
      rw [this]; positivity
    · simp only [if_neg h1, if_neg h0] at *
      have hab : gap k0 x i (c i - 1) β < gap k0 x i (c i) β := L.strictMono.lt_iff_lt.1 (by linarith)
      have h := L.between _ _ (gap k0 x i (c i) d) (gap k0 x i (c i - 1) d) hab (by
        rcases hs with h | h
        · exact Or.inl h.2
        · exact Or.inr h.2)
      generalize gap k0 x i (c i) β = a at *
      generalize gap k0 x i (c i - 1) β = b at *
      generalize gap k0 x i (c i) d = p at *
      generalize gap k0 x i (c i - 1) d = q at *
      have : -(s a * p * p - s b * q * q) * (G a - G b) + (g a * p - g b * q) ^ 2 = -(s a * p ^ 2 - s b * q ^ 2) * (G a - G b) + (g a * p - g b * q) ^ 2 := by ring
      rw [this]; exact h

theorem curve_zero {i : ℕ} {β d : ℕ → ℝ} (hs : ¬ Seen J k0 x c i d) :
    second s J k0 x c i β d d / chanceAt G J k0 x c i β - first g J k0 x c i β d * first g J k0 x c i β d / chanceAt G J k0 x c i β ^ 2 = 0 := by
  unfold Seen at hs
  push Not at hs
  have h2 : second s J k0 x c i β d d = 0 := by
    unfold second
    by_cases h1 : c i = J <;> by_cases h0 : c i = 0 <;> simp [h1, h0] at hs ⊢ <;> simp_all
  have h3 : first g J k0 x c i β d = 0 := by
    unfold first
    by_cases h1 : c i = J <;> by_cases h0 : c i = 0 <;> simp [h1, h0] at hs ⊢ <;> simp_all
  rw [h2, h3]; simp

theorem hess_nonneg (L : Link G g s) (hJ : 1 ≤ J) {β : ℕ → ℝ} (d : ℕ → ℝ) (hp : ∀ i < n, 0 < chanceAt G J k0 x c i β) (hw : ∀ i < n, 0 ≤ w i) :
    0 ≤ hess G g s J k0 n w c x β d d := by
  unfold hess
  refine Finset.sum_nonneg fun i hi => ?_
  have hi := Finset.mem_range.1 hi
  by_cases hs : Seen J k0 x c i d
  · have h := curve_pos L hJ (hp i hi) hs
    have := mul_nonneg (hw i hi) h.le
    linarith
  · rw [curve_zero hs]; simp

theorem hess_pos (L : Link G g s) (hJ : 1 ≤ J) {β d : ℕ → ℝ} (hp : ∀ i < n, 0 < chanceAt G J k0 x c i β) (hw : ∀ i < n, 0 ≤ w i)
    (hd : ∃ i < n, 0 < w i ∧ Seen J k0 x c i d) : 0 < hess G g s J k0 n w c x β d d := by
  unfold hess
  obtain ⟨i, hi, hwi, hs⟩ := hd
  refine Finset.sum_pos' (fun i hi => ?_) ⟨i, Finset.mem_range.2 hi, ?_⟩
  · have hi := Finset.mem_range.1 hi
    by_cases hs : Seen J k0 x c i d
    · have h := curve_pos L hJ (hp i hi) hs
      have := mul_nonneg (hw i hi) h.le
      linarith
    · rw [curve_zero hs]; simp
  · have h := curve_pos L hJ (hp i hi) hs
    have := mul_pos hwi h
    linarith

/-! ## Where the gradient is zero -/

theorem increasing_move {β β' : ℕ → ℝ} (h : Increasing J k0 β) (h' : Increasing J k0 β') {t : ℝ} (h0 : 0 ≤ t) (h1 : t ≤ 1) :
    Increasing J k0 (move β (fun l => β' l - β l) t) := by
  intro j hj
  rw [cut_move, cut_move]
  have a := h j hj
  have b := h' j hj
  have e : ∀ j, cut k0 (fun l => β' l - β l) j = cut k0 β' j - cut k0 β j := fun j => by unfold cut; split_ifs <;> simp
  rw [e, e]
  rcases eq_or_lt_of_le h1 with rfl | h1
  · linarith
  · nlinarith

theorem move_one (β β' : ℕ → ℝ) : move β (fun l => β' l - β l) 1 = β' := by funext l; unfold move; ring

theorem move_zero (β d : ℕ → ℝ) : move β d 0 = β := by funext l; unfold move; ring

theorem minimal (L : Link G g s) (hJ : 1 ≤ J) {β β' : ℕ → ℝ} (h : Increasing J k0 β) (h' : Increasing J k0 β') (hw : ∀ i < n, 0 ≤ w i)
    (hc : ∀ i < n, c i ≤ J) (h0 : grad G g J k0 n w c x β (fun l => β' l - β l) = 0) :
    logLik G n J k0 w c x β' ≤ logLik G n J k0 w c x β ∧
      ((∃ i < n, 0 < w i ∧ Seen J k0 x c i (fun l => β' l - β l)) → logLik G n J k0 w c x β' < logLik G n J k0 w c x β) := by
  set d : ℕ → ℝ := fun l => β' l - β l with hd
  have hp : ∀ t, 0 ≤ t → t ≤ 1 → ∀ i < n, 0 < chanceAt G J k0 x c i (move β d t) := fun t ht0 ht1 i hi => by
    rw [chanceAt_eq]; exact chance_pos L (increasing_move h h' ht0 ht1) hJ _ (hc i hi)
  set f : ℝ → ℝ := fun t => -logLik G n J k0 w c x (move β d t) with hf
  set f' : ℝ → ℝ := fun t => grad G g J k0 n w c x (move β d t) d with hf'
  have df : ∀ t, 0 ≤ t → t ≤ 1 → HasDerivAt f (f' t) t := fun t a b => logLik_deriv L β d t (hp t a b)
  have df' : ∀ t, 0 ≤ t → t ≤ 1 → HasDerivAt f' (hess G g s J k0 n w c x (move β d t) d d) t := fun t a b =>
    grad_deriv L β d d t (hp t a b)
  have f00 : f' 0 = 0 := by rw [hf']; simp only [move_zero]; exact h0
  have mono : MonotoneOn f' (Icc 0 1) := monotoneOn_of_deriv_nonneg (convex_Icc 0 1)
    (fun t ht => (df' t ht.1 ht.2).continuousAt.continuousWithinAt)
    (fun t ht => by rw [interior_Icc] at ht; exact (df' t ht.1.le ht.2.le).differentiableAt.differentiableWithinAt)
    (fun t ht => by
      rw [interior_Icc] at ht
      rw [(df' t ht.1.le ht.2.le).deriv]
      exact hess_nonneg L hJ d (hp t ht.1.le ht.2.le) hw)
  have nn : ∀ t, 0 ≤ t → t ≤ 1 → 0 ≤ f' t := fun t a b => by
    rw [← f00]; exact mono ⟨le_refl 0, zero_le_one⟩ ⟨a, b⟩ a
  have mf : MonotoneOn f (Icc 0 1) := monotoneOn_of_deriv_nonneg (convex_Icc 0 1)
    (fun t ht => (df t ht.1 ht.2).continuousAt.continuousWithinAt)
    (fun t ht => by rw [interior_Icc] at ht; exact (df t ht.1.le ht.2.le).differentiableAt.differentiableWithinAt)
    (fun t ht => by
      rw [interior_Icc] at ht
      rw [(df t ht.1.le ht.2.le).deriv]
      exact nn t ht.1.le ht.2.le)
  have e0 : f 0 = -logLik G n J k0 w c x β := by rw [hf]; simp only [move_zero]
  have e1 : f 1 = -logLik G n J k0 w c x β' := by rw [hf]; simp only [hd, move_one]
  refine ⟨?_, fun hs => ?_⟩
  · have := mf (⟨le_refl 0, zero_le_one⟩ : (0 : ℝ) ∈ Icc (0 : ℝ) 1) (⟨zero_le_one, le_refl 1⟩ : (1 : ℝ) ∈ Icc (0 : ℝ) 1) zero_le_one
    linarith
  · have smono : StrictMonoOn f' (Icc 0 1) := strictMonoOn_of_deriv_pos (convex_Icc 0 1)
      (fun t ht => (df' t ht.1 ht.2).continuousAt.continuousWithinAt)
      (fun t ht => by
        rw [interior_Icc] at ht
        rw [(df' t ht.1.le ht.2.le).deriv]
        exact hess_pos L hJ (hp t ht.1.le ht.2.le) hw hs)
    have sm : StrictMonoOn f (Icc 0 1) := strictMonoOn_of_deriv_pos (convex_Icc 0 1)
      (fun t ht => (df t ht.1 ht.2).continuousAt.continuousWithinAt)
      (fun t ht => by
        rw [interior_Icc] at ht
        rw [(df t ht.1.le ht.2.le).deriv]
        have := smono (⟨le_refl 0, zero_le_one⟩ : (0 : ℝ) ∈ Icc (0 : ℝ) 1) ⟨ht.1.le, ht.2.le⟩ ht.1
        linarith)
    have := sm (⟨le_refl 0, zero_le_one⟩ : (0 : ℝ) ∈ Icc (0 : ℝ) 1) (⟨zero_le_one, le_refl 1⟩ : (1 : ℝ) ∈ Icc (0 : ℝ) 1) zero_lt_one
    linarith

/-! ## Coordinates -/

/-- The direction of coordinate `l`. -/
def unit (l : ℕ) : ℕ → ℝ := fun m => if m = l then 1 else 0

theorem cut_unit (k0 l j : ℕ) : cut k0 (unit l) j = if j ≠ 0 ∧ l = k0 + j - 1 then 1 else 0 := by
  unfold cut unit
  by_cases h : j = 0
  · simp [h]
  · rw [if_neg h]
    by_cases h2 : k0 + j - 1 = l
    · rw [if_pos h2, if_pos ⟨h, h2.symm⟩]
    · rw [if_neg h2, if_neg (fun h3 => h2 h3.2.symm)]

theorem index_unit (k0 l i : ℕ) (x : ℕ → ℕ → ℝ) : index k0 x (unit l) i = if l < k0 then x i l else 0 := by
  unfold index unit
  simp

theorem gap_sum {j : ℕ} (hj : j < J) (i : ℕ) (d : ℕ → ℝ) :
    gap k0 x i j d = ∑ l ∈ Finset.range (k0 + J - 1), d l * gap k0 x i j (unit l) := by
  unfold gap
  simp only [cut_unit, index_unit, mul_sub, Finset.sum_sub_distrib]
  congr 1
  · unfold cut
    by_cases h : j = 0
    · simp [h]
    · rw [if_neg h]
      simp only [h, ne_eq, not_false_iff, true_and, mul_ite, mul_one, mul_zero]
      rw [Finset.sum_ite_eq', if_pos (Finset.mem_range.2 (by omega))]
  · unfold index
    have : ∀ l, d l * (if l < k0 then x i l else 0) = if l ∈ Finset.range k0 then x i l * d l else 0 := fun l => by
      by_cases h : l < k0
      · rw [if_pos h, if_pos (Finset.mem_range.2 h), mul_comm]
      · rw [if_neg h, if_neg (by simpa using h), mul_zero]
    simp only [this]
    rw [Finset.sum_ite_mem]
    congr 1
    ext l
    simp only [Finset.mem_inter, Finset.mem_range]
    omega

theorem first_sum (i : ℕ) (hc : c i ≤ J) (β d : ℕ → ℝ) :
    first g J k0 x c i β d = ∑ l ∈ Finset.range (k0 + J - 1), d l * first g J k0 x c i β (unit l) := by
  unfold first
  simp only [mul_sub, Finset.sum_sub_distrib]
  congr 1
  · split_ifs with h
    · simp
    · rw [gap_sum (J := J) (by omega) i d, Finset.mul_sum]
      refine Finset.sum_congr rfl fun l _ => by ring
  · split_ifs with h
    · simp
    · rw [gap_sum (J := J) (by omega) i d, Finset.mul_sum]
      refine Finset.sum_congr rfl fun l _ => by ring

theorem second_sum (i : ℕ) (hc : c i ≤ J) (β d e : ℕ → ℝ) :
    second s J k0 x c i β d e = ∑ l ∈ Finset.range (k0 + J - 1), e l * second s J k0 x c i β d (unit l) := by
  unfold second
  simp only [mul_sub, Finset.sum_sub_distrib]
  congr 1
  · split_ifs with h
    · simp
    · rw [gap_sum (J := J) (by omega) i e, Finset.mul_sum]
      refine Finset.sum_congr rfl fun l _ => by ring
  · split_ifs with h
    · simp
    · rw [gap_sum (J := J) (by omega) i e, Finset.mul_sum]
      refine Finset.sum_congr rfl fun l _ => by ring

theorem second_comm (i : ℕ) (β d e : ℕ → ℝ) : second s J k0 x c i β d e = second s J k0 x c i β e d := by
  unfold second
  congr 1 <;> split_ifs <;> ring

theorem hess_comm (β d e : ℕ → ℝ) : hess G g s J k0 n w c x β d e = hess G g s J k0 n w c x β e d := by
  unfold hess
  refine Finset.sum_congr rfl fun i _ => ?_
  rw [second_comm, mul_comm (first g J k0 x c i β d)]

theorem grad_sum (hc : ∀ i < n, c i ≤ J) (β d : ℕ → ℝ) :
    grad G g J k0 n w c x β d = ∑ l ∈ Finset.range (k0 + J - 1), d l * grad G g J k0 n w c x β (unit l) := by
  unfold grad
  simp only [Finset.mul_sum]
  rw [Finset.sum_comm]
  refine Finset.sum_congr rfl fun i hi => ?_
  rw [first_sum i (hc i (Finset.mem_range.1 hi)), Finset.sum_div, Finset.mul_sum, ← Finset.sum_neg_distrib]
  refine Finset.sum_congr rfl fun l _ => by ring

theorem hess_sum (hc : ∀ i < n, c i ≤ J) (β d e : ℕ → ℝ) :
    hess G g s J k0 n w c x β d e = ∑ l ∈ Finset.range (k0 + J - 1), e l * hess G g s J k0 n w c x β d (unit l) := by
  unfold hess
  simp only [Finset.mul_sum]
  rw [Finset.sum_comm]
  refine Finset.sum_congr rfl fun i hi => ?_
  rw [second_sum i (hc i (Finset.mem_range.1 hi)), first_sum (d := e) i (hc i (Finset.mem_range.1 hi)), Finset.mul_sum, Finset.sum_div,
    Finset.sum_div, ← Finset.sum_sub_distrib, Finset.mul_sum, ← Finset.sum_neg_distrib]
  refine Finset.sum_congr rfl fun l _ => by ring

/-- Every direction is seen by an observation with a positive weight, if every middle choice is observed and the regressors are independent. -/
theorem seen_of_rank (hJ : 1 ≤ J) (hw : ∀ i < n, 0 ≤ w i) (hc : ∀ i < n, c i ≤ J)
    (hm : ∀ j, 1 ≤ j → j < J → ∃ i < n, 0 < w i ∧ c i = j)
    (hX : ∀ b : ℕ → ℝ, (∀ i < n, 0 < w i → index k0 x b i = 0) → ∀ l < k0, b l = 0)
    (d : ℕ → ℝ) (hd : ∃ l < k0 + J - 1, d l ≠ 0) : ∃ i < n, 0 < w i ∧ Seen J k0 x c i d := by
  by_contra hno
  push Not at hno
  have h1 : ∀ i < n, 0 < w i → (c i ≠ J → gap k0 x i (c i) d = 0) ∧ (c i ≠ 0 → gap k0 x i (c i - 1) d = 0) := fun i hi hwi => by
    have := hno i hi hwi
    unfold Seen at this
    push Not at this
    exact this
  have hcut : ∀ j < J, cut k0 d j = 0 := by
    intro j
    induction j with
    | zero => intro _; simp [cut]
    | succ j ih =>
      intro hj
      obtain ⟨i, hi, hwi, hci⟩ := hm (j + 1) (by omega) hj
      obtain ⟨a, b⟩ := h1 i hi hwi
      have a := a (by omega)
      have b := b (by omega)
      rw [hci] at a b
      rw [show j + 1 - 1 = j by omega] at b
      have := ih (by omega)
      unfold gap at a b
      linarith
  have hidx : ∀ i < n, 0 < w i → index k0 x d i = 0 := fun i hi hwi => by
    obtain ⟨a, b⟩ := h1 i hi hwi
    by_cases h : c i = J
    · have b := b (by omega)
      have := hcut (c i - 1) (by omega)
      unfold gap at b; linarith
    · have a := a h
      have := hcut (c i) (by have := hc i hi; omega)
      unfold gap at a; linarith
  obtain ⟨l, hl, hdl⟩ := hd
  by_cases hlk : l < k0
  · exact hdl (hX d hidx l hlk)
  · have := hcut (l - k0 + 1) (by omega)
    unfold cut at this
    rw [if_neg (by omega), show k0 + (l - k0 + 1) - 1 = l by omega] at this
    exact hdl this

end Dc
end LDT
