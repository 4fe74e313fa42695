import Verif.Model.VarmaMl
import Verif.Spec.VarmaMl
import Verif.Lemmas.VarmaFit
import Mathlib.Analysis.Matrix.PosDef
/-!
# Maximum likelihood of a VARMA model
-/
namespace LDT
namespace Ve
open Matrix
open Op (Dbl Ops exact)

section
variable {g n k p : ℕ} {θ : Type}

theorem left_sum (y : Matrix (Fin g) (Fin n) ℝ) (X : Matrix (Fin n) (Reg g k p) ℝ) (B : Matrix (Fin g) (Reg g k p) ℝ) (j : Fin g) (i : Fin n) :
    left y X B j i = y j i - ((∑ c, B j (.inl c) * X i (.inl c)) + ∑ c, B j (.inr c) * X i (.inr c)) := by
  unfold left
  rw [Fintype.sum_sum_type]

theorem residuals_iff (s : Sample g n k p) (hl : ∀ c, 0 < s.lag c) (B : Matrix (Fin g) (Reg g k p) ℝ) (e : Matrix (Fin g) (Fin n) ℝ) :
    Residuals s.y s.x s.lag B e ↔ e = resid s B := by
  have cell : ∀ (e : Matrix (Fin g) (Fin n) ℝ) (i : Fin n) (c : Fin p × Fin g), s.xt e i (.inr c) =
      if h : 0 < s.lag c.1 ∧ s.lag c.1 ≤ i then e c.2 ⟨i - s.lag c.1, by omega⟩ else 0 := by
    intro e i c
    change (if s.lag c.1 ≤ i then e c.2 ⟨i - s.lag c.1, _⟩ else 0) = _
    by_cases h : s.lag c.1 ≤ i
    · rw [if_pos h, dif_pos ⟨hl _, h⟩]
    · rw [if_neg h, dif_neg (fun h' => h h'.2)]
  have hself : resid s B = left s.y (s.xt (resid s B)) B := by
    funext j i
    rw [left_sum]
    change innov s B i j = _
    rw [innov]
    simp only [cell]
    rfl
  constructor
  · rintro ⟨X, hX, he⟩
    have : X = s.xt e := hX.unique (withLags_xt s e)
    subst this
    have main : ∀ i : ℕ, ∀ (hi : i < n) (j : Fin g), e j ⟨i, hi⟩ = innov s B ⟨i, hi⟩ j := by
      intro i
      induction i using Nat.strong_induction_on with
      | _ i ih =>
        intro hi j
        rw [innov]
        conv_lhs => rw [he, left_sum]
        congr 2
        refine Finset.sum_congr rfl fun c _ => ?_
        rw [cell]
        by_cases h : 0 < s.lag c.1 ∧ s.lag c.1 ≤ i
        · rw [dif_pos h, dif_pos h, ih (i - s.lag c.1) (by omega)]
        · rw [dif_neg h, dif_neg h]
    funext j i
    exact main i i.2 j
  · rintro rfl
    exact ⟨_, withLags_xt s _, hself⟩

theorem lnDet_num {S : Matrix (Fin g) (Fin g) ℝ} {v : ℝ} (h : lnDet S = .num v) : 0 < S.det ∧ v = Real.log S.det := by
  unfold lnDet at h
  by_cases hg : g = 1
  · rw [if_pos hg] at h
    by_cases hd : 0 < S.det
    · rw [if_pos hd] at h
      cases h
      exact ⟨hd, rfl⟩
    · rw [if_neg hd] at h
      split at h <;> cases h
  · rw [if_neg hg] at h
    by_cases hp : S.PosDef
    · rw [if_pos hp] at h
      cases h
      exact ⟨hp.det_pos, rfl⟩
    · rw [if_neg hp] at h
      cases h

theorem lnDet_pos {S : Matrix (Fin g) (Fin g) ℝ} (h : S.PosDef) : lnDet S = .num (Real.log S.det) := by
  unfold lnDet
  by_cases hg : g = 1
  · rw [if_pos hg, if_pos h.det_pos]
  · rw [if_neg hg, if_pos h]

theorem times_num {n : ℕ} {d : Dbl ℝ} {v : ℝ} (h : times n d = .num v) : ∃ x, d = .num x ∧ v = x * n := by
  cases d <;> simp [times] at h
  exact ⟨_, rfl, h.symm⟩

/-- The exponent of the likelihood at the mean products of the errors. -/
theorem exponent (pn : 0 < n) (e : Matrix (Fin g) (Fin n) ℝ) {W : Matrix (Fin g) (Fin g) ℝ} (hW : meanProducts e * W = 1) :
    ∑ i, ∑ j, ∑ j', e j i * W j j' * e j' i = n * g := by
  have h1 : ∑ i, ∑ j, ∑ j', e j i * W j j' * e j' i = ∑ j, ∑ j', (n * meanProducts e j' j) * W j j' := by
    rw [Finset.sum_comm]
    refine Finset.sum_congr rfl fun j _ => ?_
    rw [Finset.sum_comm]
    refine Finset.sum_congr rfl fun j' _ => ?_
    have : (n : ℝ) * meanProducts e j' j = ∑ i, e j' i * e j i := by
      unfold meanProducts
      field_simp
    rw [this, Finset.sum_mul]
    exact Finset.sum_congr rfl fun i _ => by ring
  rw [h1, Finset.sum_comm]
  have h2 : ∀ j', ∑ j, (n * meanProducts e j' j) * W j j' = n * (meanProducts e * W) j' j' := by
    intro j'
    rw [Matrix.mul_apply, Finset.mul_sum]
    exact Finset.sum_congr rfl fun j _ => by ring
  rw [Finset.sum_congr rfl fun j' _ => h2 j', hW]
  simp
  ring

/-! ## The search -/

/-- The optimiser moves only to evaluate. -/
def Keeps {σ : Type} (o : Ulb σ θ) : Prop := ∀ m x v gr,
  (o.step m x v gr).2.1 = .evaluate ∨ ((o.step m x v gr).2.2.1 = x ∧ (o.step m x v gr).2.2.2 = v)

/-- It starts with an evaluation. -/
def Starts {σ : Type} (o : Ulb σ θ) : Prop := ∀ l u x v gr, (o.step (o.init l u) x v gr).2.1 = .evaluate

theorem search_keeps {σ : Type} {o : Ulb σ θ} (ho : Keeps o) (d : Numeric θ) (f : (θ → ℝ) → Dbl ℝ) : ∀ (i : ℕ) (r : Search σ θ),
    r.value = f r.x ∧ r.last = some (d.lastPoint f r.x) →
    (search o d f i r).value = f (search o d f i r).x ∧ (search o d f i r).last = some (d.lastPoint f (search o d f i r).x)
  | 0, _, h => h
  | i + 1, r, h => by
    have hk := ho r.mem r.x r.value r.grad
    unfold search
    generalize o.step r.mem r.x r.value r.grad = z at hk ⊢
    obtain ⟨m, t, x, v⟩ := z
    cases t with
    | evaluate => exact search_keeps ho d f i _ ⟨rfl, rfl⟩
    | next =>
      rcases hk with hk | ⟨hx, hv⟩
      · cases hk
      · change x = r.x at hx
        change v = r.value at hv
        subst hx; subst hv
        exact search_keeps ho d f i _ h
    | stop =>
      rcases hk with hk | ⟨hx, hv⟩
      · cases hk
      · change x = r.x at hx
        change v = r.value at hv
        subst hx; subst hv
        exact h

theorem search_starts {σ : Type} {o : Ulb σ θ} (ho : Keeps o) (hs : Starts o) (d : Numeric θ) (f : (θ → ℝ) → Dbl ℝ) {i : ℕ} (hi : 0 < i)
    (l u : θ → Dbl ℝ) (x : θ → ℝ) (v : Dbl ℝ) (gr : θ → Dbl ℝ) :
    let r := search o d f i ⟨o.init l u, x, v, gr, none⟩
    r.value = f r.x ∧ r.last = some (d.lastPoint f r.x) := by
  obtain ⟨i, rfl⟩ : ∃ i', i = i' + 1 := ⟨i - 1, by omega⟩
  have hk := hs l u x v gr
  unfold search
  dsimp only
  generalize o.step (o.init l u) x v gr = z at hk ⊢
  obtain ⟨m, t, x', v'⟩ := z
  change t = _ at hk
  subst hk
  exact search_keeps ho d f i _ ⟨rfl, rfl⟩

end
end Ve
end LDT
