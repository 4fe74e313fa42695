import Verif.Model.Newton
import Verif.Spec.Newton
import Verif.Lemmas.Ols
import Verif.Lemmas.NelderMead
/-!
# C97: Newton's method
-/
namespace LDT
namespace Op
open Matrix

section
variable {K : Type} [Field K] [LinearOrder K] [IsStrictOrderedRing K] {n : Nat}
  (F : (Fin n → K) → Dbl K) (G : (Fin n → K) → Fin n → K) (H : (Fin n → K) → Matrix (Fin n) (Fin n) K)

theorem wolfeLoop_spec (d x0 : Fin n → K) (vf0 : Dbl K) (gd0 c1 c2 : K) : ∀ (fuel i : Nat) (alpha : K) (beta : Option K) (t : K),
    0 ≤ alpha → 0 < t → (∀ b, beta = some b → 0 < b) → ∀ l, wolfeLoop F G d x0 vf0 gd0 c1 c2 fuel i alpha beta t = .inl l →
    (∃ s, 0 < s ∧ l.x = (fun k => s * d k + x0 k) ∧ l.f = F l.x ∧ l.g = G l.x ∧ l.f ≠ .nan ∧
      ((exact : Ops K).add vf0 (.num (c1 * s * gd0))).lt l.f = false ∧ c2 * gd0 ≤ d ⬝ᵥ l.g) ∧ i ≤ l.iter ∧ l.iter < i + fuel
  | 0, i, alpha, beta, t, _, _, _, l, h => by simp [wolfeLoop] at h
  | fuel + 1, i, alpha, beta, t, ha, ht, hb, l, h => by
    rw [wolfeLoop] at h
    simp only [] at h
    split_ifs at h with h1 h2
    · obtain ⟨a, b, c⟩ := wolfeLoop_spec d x0 vf0 gd0 c1 c2 fuel (i + 1) alpha (some t) _ ha (by linarith)
        (by intro b e; cases e; exact ht) l h
      exact ⟨a, by omega, by omega⟩
    · have hpos : 0 < longer beta t := by
        unfold longer
        cases hbe : beta with
        | none => simp only []; linarith
        | some b => have := hb b hbe; simp only []; linarith
      obtain ⟨a, b, c⟩ := wolfeLoop_spec d x0 vf0 gd0 c1 c2 fuel (i + 1) t beta _ ht.le hpos hb l h
      exact ⟨a, by omega, by omega⟩
    · cases h
      rw [not_or, Bool.not_eq_true] at h1
      exact ⟨⟨t, ht, rfl, rfl, rfl, h1.1, h1.2, not_lt.1 h2⟩, le_refl _, by simp⟩

theorem solvePos_direction {chol : Matrix (Fin n) (Fin n) K → Matrix (Fin n) (Fin n) K} {x : Fin n → K}
    (h : ¬ (solvePos chol (H x) (fun i => G x i * -1)).1 ≠ 0) :
    Direction G H x (solvePos chol (H x) (fun i => G x i * -1)).2.2 := by
  unfold solvePos at h ⊢
  split_ifs at h ⊢ with hp
  · refine ⟨mirrored (H x), hp.2, fun i j hij => by simp [mirrored, hij], fun i => ?_⟩
    have u : IsUnit (mirrored (H x)).det := isUnit_iff_ne_zero.2 (Ls.PosDef.det_ne hp.2)
    have e : mirrored (H x) *ᵥ ((mirrored (H x))⁻¹ *ᵥ fun i => G x i * -1) = fun i => G x i * -1 := by
      rw [mulVec_mulVec, mul_nonsing_inv _ u, one_mulVec]
    have := congrFun e i
    simp only [mulVec, dotProduct] at this ⊢
    rw [this]; ring
  · simp at h

theorem dot_comm' (a b : Fin n → K) : a ⬝ᵥ b = ∑ i, b i * a i := by simp [dotProduct, mul_comm]

/-- The members that are the same at every point of the path. -/
def Same (s s' : NewtonState K n) : Prop := s'.x = s.x ∧ s'.f = s.f ∧ s'.g = s.g

theorem newtonLoop_spec (o : NewtonOpts K) (sqrt : K → K) (chol : Matrix (Fin n) (Fin n) K → Matrix (Fin n) (Fin n) K)
    (hls : o.useLineSearch = true) : ∀ (fuel : Nat) (pre : Dbl K) (s r : NewtonState K n), s.f = F s.x → s.g = G s.x →
    newtonLoop o sqrt chol F G H fuel pre s = .ok r →
    r.f = F r.x ∧ r.g = G r.x ∧ (∃ k ≤ fuel, Path (Wolfe F G H) k s.x r.x) ∧ s.iteration ≤ r.iteration ∧ r.iteration ≤ s.iteration + fuel ∧
      (r.iteration < s.iteration + fuel → (0 < o.tolGradient ∧ norm2 sqrt (G r.x) < o.tolGradient) ∨
        (0 < o.tolFunction ∧ r.vfDiff.lt (.num o.tolFunction) = true))
  | 0, pre, s, r, hf, hg, h => by
    cases Outcome.ok.inj h
    exact ⟨hf, hg, ⟨0, le_refl _, Path.refl _⟩, le_refl _, by simp, fun h => by simp at h⟩
  | fuel + 1, pre, s, r, hf, hg, h => by
    rw [newtonLoop] at h
    have e1 : (newtonGnorm o sqrt s).x = s.x ∧ (newtonGnorm o sqrt s).f = s.f ∧ (newtonGnorm o sqrt s).g = s.g ∧
        (newtonGnorm o sqrt s).iteration = s.iteration := by
      unfold newtonGnorm; split_ifs <;> exact ⟨rfl, rfl, rfl, rfl⟩
    dsimp only at h
    rw [if_pos hls] at h
    split_ifs at h with c1 c2 c3
    · cases Outcome.ok.inj h
      refine ⟨by rw [e1.2.1, e1.1, hf], by rw [e1.2.2.1, e1.1, hg], ⟨0, by omega, ?_⟩, by rw [e1.2.2.2], by rw [e1.2.2.2]; omega, fun _ =>
        Or.inl ?_⟩
      · rw [e1.1]; exact Path.refl _
      · rw [e1.1, ← hg]; exact c1
    · generalize newtonGnorm o sqrt s = s1 at e1 h c2
      obtain ⟨x1, x2, x3, x4⟩ := e1
      rw [x3, hg] at h c2
      simp only [x1] at h c2
      have hdir := solvePos_direction G H (chol := chol) (x := s.x) c2
      generalize solvePos chol (H s.x) (fun i => G s.x i * -1) = q at *
      cases hw : wolfe F G q.2.2 s.x s1.f (G s.x) 1 (1 / 10000) (9 / 10) 100 with
      | throws => rw [hw] at h; simp at h
      | ub => rw [hw] at h; simp at h
      | diverges => rw [hw] at h; simp at h
      | ok l =>
        rw [hw, Outcome.ok_bind] at h
        have hl : l.f = F l.x ∧ l.g = G l.x ∧ Wolfe F G H s.x l.x := by
          unfold wolfe at hw
          split at hw
          · rename_i l' he
            cases Outcome.ok.inj hw
            obtain ⟨⟨t, t0, a, b, c, d, e, f⟩, _⟩ := wolfeLoop_spec F G q.2.2 s.x s1.f _ _ _ _ _ _ _ _ (le_refl 0) (by norm_num)
              (by simp) _ he
            refine ⟨b, c, Or.inr ⟨q.2.2, t, hdir, t0, fun i => by rw [a]; ring, ?_, ?_, ?_⟩⟩
            · rw [← b]; exact d
            · rw [← b, ← hf, ← x2, ← dot_comm']; exact e
            · rw [← c, ← dot_comm', ← dot_comm']; exact f
          · cases Outcome.ok.inj hw
            exact ⟨by rw [x2, hf], rfl, Or.inl rfl⟩
          · cases hw
        unfold newtonNext at h
        dsimp only at h
        split_ifs at h with c4 c5
        · cases Outcome.ok.inj h
          exact ⟨hl.1, hl.2.1, ⟨1, by omega, Path.step hl.2.2 (Path.refl _)⟩, by simp [x4], by simp [x4], fun _ => Or.inr ⟨c4, c5⟩⟩
        · obtain ⟨r1, r2, ⟨k, hk, r3⟩, r4, r5, r6⟩ := newtonLoop_spec o sqrt chol hls fuel _ _ _ hl.1 hl.2.1 h
          simp only [x4] at r4 r5 r6
          exact ⟨r1, r2, ⟨k + 1, by omega, Path.step hl.2.2 r3⟩, by omega, by omega, fun h => r6 (by omega)⟩
        · obtain ⟨r1, r2, ⟨k, hk, r3⟩, r4, r5, r6⟩ := newtonLoop_spec o sqrt chol hls fuel _ _ _ hl.1 hl.2.1 h
          simp only [x4] at r4 r5 r6
          exact ⟨r1, r2, ⟨k + 1, by omega, Path.step hl.2.2 r3⟩, by omega, by omega, fun h => r6 (by omega)⟩

variable {F G H} {k : Nat} {o : NewtonOpts K} {sqrt : K → K} {chol : Matrix (Fin n) (Fin n) K → Matrix (Fin n) (Fin n) K}
  {x0 : Fin n → K} {h0 : Matrix (Fin n) (Fin n) K} {gnorm0 vfDiff0 : Dbl K} {r : NewtonState K n}

/-- **C97.** With line search: the reported value and gradient are those at the final point; the final point is reached from the starting
point by at most `IterationMax` steps, each of which satisfies the weak Wolfe conditions or does not move; if there were fewer
iterations, the norm of the gradient or the last change of the function is below its tolerance. -/
theorem C97_path (hls : o.useLineSearch = true)
    (h : newton k o sqrt chol F G H x0 h0 gnorm0 vfDiff0 = .ok r) :
    r.f = F r.x ∧ r.g = G r.x ∧ (∃ k ≤ o.iterationMax, Path (Wolfe F G H) k x0 r.x) ∧ r.iteration ≤ o.iterationMax ∧
      (r.iteration < o.iterationMax → (0 < o.tolGradient ∧ norm2 sqrt r.g < o.tolGradient) ∨
        (0 < o.tolFunction ∧ r.vfDiff.lt (.num o.tolFunction) = true)) := by
  unfold newton at h
  split_ifs at h
  obtain ⟨a, b, c, _, d, e⟩ := newtonLoop_spec F G H o sqrt chol hls _ _ _ _ rfl rfl h
  exact ⟨a, b, c, by simpa using d, fun h => by rw [b]; exact e (by simpa using h)⟩

theorem direction_descends {x d : Fin n → K} (h : Direction G H x d) : ∑ i, G x i * d i ≤ 0 := by
  obtain ⟨S, hS, _, e⟩ := h
  have : ∑ i, G x i * d i = -Ls.weighted S d := by
    unfold Ls.weighted
    rw [← Finset.sum_neg_distrib]
    refine Finset.sum_congr rfl fun i _ => ?_
    have h1 : G x i = -∑ j, S i j * d j := by rw [e i, neg_neg]
    rw [h1, neg_mul, Finset.sum_mul]
    congr 1
    refine Finset.sum_congr rfl fun j _ => by ring
  rw [this]
  have := Ls.PosDef.nonneg hS d
  linarith

/-- No step that satisfies the conditions makes the function larger. -/
theorem wolfe_notWorse {x y : Fin n → K} (h : Wolfe F G H x y) (hx : F x ≠ .nan) : F y ≠ .nan ∧ (F y).le (F x) = true := by
  rcases h with rfl | ⟨d, t, hd, ht, _, hy, ha, _⟩
  · exact ⟨hx, Dbl.le_refl hx⟩
  · refine ⟨hy, ?_⟩
    have hneg := direction_descends hd
    have hs : 1 / 10000 * t * ∑ i, G x i * d i ≤ 0 := mul_nonpos_of_nonneg_of_nonpos (by positivity) hneg
    generalize 1 / 10000 * t * ∑ i, G x i * d i = s at *
    cases hfx : F x <;> cases hfy : F y <;> simp_all [exact, Dbl.lt, Dbl.le]
    linarith

theorem path_notWorse {R : Nat} {x y : Fin n → K} (h : Path (Wolfe F G H) R x y) (hx : F x ≠ .nan) :
    F y ≠ .nan ∧ (F y).le (F x) = true := by
  induction h with
  | refl x => exact ⟨hx, Dbl.le_refl hx⟩
  | step h1 _ ih =>
    obtain ⟨a, b⟩ := wolfe_notWorse h1 hx
    obtain ⟨c, d⟩ := ih a
    exact ⟨c, Dbl.le_trans d b⟩

/-- **C97.** With line search the reported value is never larger than at the starting point. -/
theorem C97_descent (hls : o.useLineSearch = true) (h : newton k o sqrt chol F G H x0 h0 gnorm0 vfDiff0 = .ok r) :
    NotWorse r.f (F x0) := by
  obtain ⟨a, _, ⟨m, _, p⟩, _⟩ := C97_path hls h
  by_cases hx : F x0 = .nan
  · exact Or.inl hx
  · right; rw [a]; exact (path_notWorse p hx).2

/-- **C97.** More variables than the class was made for, and a Hessian that is not positive definite where the search starts, are
refused. -/
theorem C97_refused (h : k < n ∨ (o.iterationMax ≠ 0 ∧ ¬ (0 < o.tolGradient ∧ norm2 sqrt (G x0) < o.tolGradient) ∧
    ¬ ∃ S : Matrix (Fin n) (Fin n) K, Ls.PosDef S ∧ ∀ i j, j ≤ i → S i j = H x0 i j)) :
    newton k o sqrt chol F G H x0 h0 gnorm0 vfDiff0 = .throws := by
  unfold newton
  by_cases hk : k < n
  · rw [if_pos hk]
  · rw [if_neg hk]
    obtain ⟨h1, h2, h3⟩ := h.resolve_left hk
    obtain ⟨m, hm⟩ := Nat.exists_eq_succ_of_ne_zero h1
    rw [hm, newtonLoop, if_neg h2]
    have e1 : (newtonGnorm o sqrt (⟨x0, F x0, G x0, h0, 0, 0, gnorm0, vfDiff0⟩ : NewtonState K n)).x = x0 := by
      unfold newtonGnorm; split_ifs <;> rfl
    simp only []
    rw [e1, if_pos]
    unfold solvePos
    rw [if_neg]
    · simp
    · rintro ⟨_, hp⟩
      exact h3 ⟨_, hp, fun i j hij => by simp [mirrored, hij]⟩

/-! ## Quadratics -/

section quadratic
variable {A : Matrix (Fin n) (Fin n) K} (hA : Ls.PosDef A) (b : Fin n → K) (c : K)
include hA

theorem mirrored_symm : mirrored A = A := by
  funext i j
  unfold mirrored
  split_ifs
  · rfl
  · exact hA.1 j i

theorem quadratic_eq (x : Fin n → K) : quadratic A b c x = (x ⬝ᵥ A *ᵥ x) / 2 - b ⬝ᵥ x + c := by
  unfold quadratic
  have : ∑ i, ∑ j, x i * A i j * x j = x ⬝ᵥ A *ᵥ x := by
    simp only [dotProduct, mulVec, Finset.mul_sum, mul_assoc]
  rw [this]; rfl

/-- The value of the quadratic, seen from the point where its gradient vanishes. -/
theorem quadratic_split {z : Fin n → K} (hz : A *ᵥ z = b) (x : Fin n → K) :
    quadratic A b c x = quadratic A b c z + Ls.weighted A (x - z) / 2 := by
  rw [quadratic_eq hA, quadratic_eq hA, Ls.weighted_eq, mulVec_sub, sub_dotProduct, dotProduct_sub, dotProduct_sub, hz]
  have e : z ⬝ᵥ A *ᵥ x = b ⬝ᵥ x := by
    rw [dotProduct_mulVec, ← mulVec_transpose, Ls.PosDef.transpose hA, hz]
  rw [e, dotProduct_comm x b, dotProduct_comm z b]; ring

theorem newton_quadratic_step (pn : 0 < n) (sqrt : K → K) {o : NewtonOpts K} (hls : o.useLineSearch = true) :
    ∀ (fuel : Nat) (pre : Dbl K) (s : NewtonState K n), s.f = .num (quadratic A b c s.x) → s.g = A *ᵥ s.x - b →
    ∃ r, newtonLoop o sqrt chol (fun x => .num (quadratic A b c x)) (fun x => A *ᵥ x - b) (fun _ => A) fuel pre s = .ok r ∧
      (r.x = A⁻¹ *ᵥ b ∨ (r.x = s.x ∧ (fuel = 0 ∨ (0 < o.tolGradient ∧ norm2 sqrt (A *ᵥ s.x - b) < o.tolGradient))))
  | 0, pre, s, _, _ => ⟨s, rfl, Or.inr ⟨rfl, Or.inl rfl⟩⟩
  | fuel + 1, pre, s, hf, hg => by
    have u : IsUnit A.det := isUnit_iff_ne_zero.2 (Ls.PosDef.det_ne hA)
    have hz : A *ᵥ (A⁻¹ *ᵥ b) = b := by rw [mulVec_mulVec, mul_nonsing_inv _ u, one_mulVec]
    rw [newtonLoop]
    have e1 : (newtonGnorm o sqrt s).x = s.x ∧ (newtonGnorm o sqrt s).f = s.f ∧ (newtonGnorm o sqrt s).g = s.g := by
      unfold newtonGnorm; split_ifs <;> exact ⟨rfl, rfl, rfl⟩
    dsimp only
    rw [if_pos hls]
    split_ifs with c1 c2
    · exact ⟨_, rfl, Or.inr ⟨e1.1, Or.inr (by rw [← hg]; exact c1)⟩⟩
    · exfalso
      apply c2
      unfold solvePos
      rw [if_pos ⟨pn, by rw [mirrored_symm hA]; exact hA⟩]
    · generalize newtonGnorm o sqrt s = s1 at e1 c2 ⊢
      obtain ⟨x1, x2, x3⟩ := e1
      have hd : (solvePos chol A (fun i => s1.g i * -1)).2.2 = A⁻¹ *ᵥ b - s.x := by
        unfold solvePos
        rw [if_pos ⟨pn, by rw [mirrored_symm hA]; exact hA⟩, mirrored_symm hA]
        have : (fun i => s1.g i * -1) = b - A *ᵥ s.x := by
          funext i; rw [x3, hg]; simp
        simp only []
        rw [this, mulVec_sub, mulVec_mulVec, nonsing_inv_mul _ u, one_mulVec]
      rw [hd]
      set z := A⁻¹ *ᵥ b with hzdef
      have hw : (fun k => (1 : K) * (z - s.x) k + s.x k) = z := by funext k; simp
      have hgz : A *ᵥ z - b = 0 := by rw [hz]; simp
      have hgd : (z - s.x) ⬝ᵥ (A *ᵥ s.x - b) = -Ls.weighted A (s.x - z) := by
        rw [Ls.weighted_eq]
        have e2 : A *ᵥ s.x - b = A *ᵥ (s.x - z) := by rw [mulVec_sub, hz]
        have e3 : z - s.x = -(s.x - z) := by abel
        rw [e2, e3, neg_dotProduct]
      have hnn := Ls.PosDef.nonneg hA (s.x - z)
      have hq := quadratic_split hA b c hz s.x
      have hacc : wolfe (fun x => Dbl.num (quadratic A b c x)) (fun x => A *ᵥ x - b) (z - s.x) s1.x s1.f s1.g 1 (1 / 10000) (9 / 10) 100 =
          .ok ⟨z, .num (quadratic A b c z), 0, 1⟩ := by
        unfold wolfe
        rw [x1, x2, x3, hg, hf]
        rw [show (100 - 1 : Nat) = 98 + 1 by rfl, wolfeLoop]
        simp only [hw, hgz, hgd]
        rw [if_neg, if_neg]
        · rw [dotProduct_zero, not_lt]
          nlinarith
        · rw [not_or]
          refine ⟨by simp, ?_⟩
          simp only [exact, Dbl.lt, decide_eq_true_eq, not_lt]
          rw [hq]
          linarith
      rw [hacc, Outcome.ok_bind]
      simp only []
      unfold newtonNext
      dsimp only
      split_ifs with c4 c5
      · exact ⟨_, rfl, Or.inl rfl⟩
      · obtain ⟨r, h1, h2⟩ := newton_quadratic_step pn sqrt hls fuel (.num (quadratic A b c z)) { s1 with x := z, f := .num (quadratic A b c z), g := 0, h := (solvePos chol A (fun i => s1.g i * -1)).2.1, iterLine := s1.iterLine + 1, vfDiff := (exact : Ops K).abs ((exact : Ops K).sub pre (.num (quadratic A b c z))), iteration := s1.iteration + 1 } rfl hgz.symm
        refine ⟨r, h1, Or.inl ?_⟩
        rcases h2 with h2 | h2
        · exact h2
        · exact h2.1
      · obtain ⟨r, h1, h2⟩ := newton_quadratic_step pn sqrt hls fuel (.num (quadratic A b c z)) { s1 with x := z, f := .num (quadratic A b c z), g := 0, h := (solvePos chol A (fun i => s1.g i * -1)).2.1, iterLine := s1.iterLine + 1, iteration := s1.iteration + 1 } rfl hgz.symm
        refine ⟨r, h1, Or.inl ?_⟩
        rcases h2 with h2 | h2
        · exact h2
        · exact h2.1

/-- **C97.** For a strictly convex quadratic, one iteration with line search is enough: the final point is the only minimum (unless the
norm of the gradient is below its tolerance already at the starting point). -/
theorem C97_quadratic (pn : 0 < n) (hk : n ≤ k) (hls : o.useLineSearch = true) (hm : o.iterationMax ≠ 0) :
    ∃ r, newton k o sqrt chol (fun x => .num (quadratic A b c x)) (fun x => fun i => ∑ j, A i j * x j - b i) (fun _ => A) x0 h0
        gnorm0 vfDiff0 = .ok r ∧
      ((∀ x, x ≠ r.x → quadratic A b c r.x < quadratic A b c x) ∨
        (r.x = x0 ∧ 0 < o.tolGradient ∧ norm2 sqrt (fun i => ∑ j, A i j * x0 j - b i) < o.tolGradient)) := by
  have hG : (fun x : Fin n → K => fun i => ∑ j, A i j * x j - b i) = fun x => A *ᵥ x - b := by
    funext x i; simp [mulVec, dotProduct]
  have hG0 : (fun i => ∑ j, A i j * x0 j - b i) = A *ᵥ x0 - b := congrFun hG x0
  rw [hG, hG0]
  unfold newton
  rw [if_neg (by omega)]
  obtain ⟨r, e, h⟩ := newton_quadratic_step (chol := chol) hA b c pn sqrt hls o.iterationMax (.num (quadratic A b c x0))
    ⟨x0, .num (quadratic A b c x0), A *ᵥ x0 - b, h0, 0, 0, gnorm0, vfDiff0⟩ rfl rfl
  refine ⟨r, e, ?_⟩
  rcases h with h | ⟨h1, h2⟩
  · left
    intro x hx
    have u : IsUnit A.det := isUnit_iff_ne_zero.2 (Ls.PosDef.det_ne hA)
    have hz : A *ᵥ (A⁻¹ *ᵥ b) = b := by rw [mulVec_mulVec, mul_nonsing_inv _ u, one_mulVec]
    rw [quadratic_split hA b c hz x, h]
    have := hA.2 (x - A⁻¹ *ᵥ b) (by rw [sub_ne_zero, ← h]; exact hx)
    linarith
  · right; exact ⟨h1, h2.resolve_left hm⟩

end quadratic
end

/-! ## Without line search -/

/-- The square of a number, as a function of one variable. -/
def exSquare (x : Fin 1 → ℚ) : Dbl ℚ := .num (x 0 * x 0)

/-- A matrix of one number. -/
def one1 (a : ℚ) : Matrix (Fin 1) (Fin 1) ℚ := fun _ _ => a

theorem mirrored_one1 (a : ℚ) : mirrored (one1 a) = one1 a := by funext i j; simp [mirrored, one1]

theorem ex_posDef1 {a : ℚ} (h : 0 < a) : Ls.PosDef (one1 a) := by
  refine ⟨fun _ _ => rfl, fun v hv => ?_⟩
  simp only [Ls.weighted, Fin.sum_univ_one, one1]
  have : v 0 ≠ 0 := by intro h; exact hv (funext fun i => by rw [Subsingleton.elim i 0, h]; rfl)
  have := mul_self_pos.2 this
  nlinarith

theorem ex_direction (chol : Matrix (Fin 1) (Fin 1) ℚ → Matrix (Fin 1) (Fin 1) ℚ) (d : Fin 1 → ℚ) :
    solvePos chol (one1 2) d = (0, chol (one1 2), fun i => d i / 2) := by
  unfold solvePos
  rw [mirrored_one1, if_pos ⟨by norm_num, ex_posDef1 (by norm_num)⟩]
  have u : IsUnit (Matrix.det (one1 2)) := isUnit_iff_ne_zero.2 (Ls.PosDef.det_ne (ex_posDef1 (by norm_num)))
  refine Prod.ext rfl (Prod.ext rfl ?_)
  have e : (one1 2) *ᵥ (fun i => d i / 2) = d := by
    funext i
    simp only [mulVec, dotProduct, Fin.sum_univ_one, Subsingleton.elim i 0, one1]
    ring
  show (one1 2)⁻¹ *ᵥ d = _
  conv_lhs => rw [← e]
  rw [mulVec_mulVec, nonsing_inv_mul _ u, one_mulVec]

theorem ex_plain (sqrt : ℚ → ℚ) (chol : Matrix (Fin 1) (Fin 1) ℚ → Matrix (Fin 1) (Fin 1) ℚ) (m : Nat) : ∀ (fuel k : Nat)
    (s : NewtonState ℚ 1), s.x = (fun _ => 1 - (k : ℚ)) → s.g = (fun _ => 2) → s.f = exSquare s.x →
    ∃ r, newtonLoop ⟨m, 0, 1 / 1000000, false⟩ sqrt chol exSquare (fun x => fun _ => 2 * x 0) (fun _ => one1 2) fuel s.f s = .ok r ∧
      (∀ i, r.x i = 1 - ((k + fuel : Nat) : ℚ)) ∧ r.g = fun _ => 2
  | 0, k, s, hx, hg, _ => ⟨s, rfl, fun i => by rw [hx]; simp, hg⟩
  | fuel + 1, k, s, hx, hg, hf => by
    rw [newtonLoop]
    have hn : newtonGnorm ⟨m, (0 : ℚ), 1 / 1000000, false⟩ sqrt s = s := by unfold newtonGnorm; simp
    dsimp only
    rw [if_neg (by simp), hn, ex_direction]
    dsimp only
    rw [if_neg (by simp), if_neg (by simp)]
    have hx' : (fun i => s.x i + s.g i * -1 / 2) = fun _ : Fin 1 => 1 - ((k + 1 : Nat) : ℚ) := by
      funext i; rw [hx, hg]; push_cast; ring
    rw [hx']
    unfold newtonNext
    dsimp only
    rw [if_pos (by norm_num), if_neg]
    · obtain ⟨r, h1, h2, h3⟩ := ex_plain sqrt chol m fuel (k + 1) { s with x := fun _ : Fin 1 => 1 - ((k + 1 : Nat) : ℚ), f := exSquare fun _ : Fin 1 => 1 - ((k + 1 : Nat) : ℚ), h := chol (one1 2), vfDiff := (exact : Ops ℚ).abs ((exact : Ops ℚ).sub s.f (exSquare fun _ : Fin 1 => 1 - ((k + 1 : Nat) : ℚ))), iteration := s.iteration + 1 } rfl hg rfl
      refine ⟨r, h1, fun i => ?_, h3⟩
      rw [h2 i]; push_cast; ring
    · rw [hf, hx]
      simp only [exSquare, exact, Dbl.lt, decide_eq_true_eq, not_lt]
      rcases Nat.eq_zero_or_pos k with hk | hk
      · subst hk; norm_num
      · have : (1 : ℚ) ≤ k := by exact_mod_cast hk
        rw [if_pos (by push_cast; nlinarith)]
        push_cast
        nlinarith

/-- **C97, violated.** Without line search the gradient is never computed again: minimising `x²` from 1, where one step reaches the minimum,
every iteration moves on by one, and the reported gradient is still that of the starting point. -/
theorem C97_plain_violated (sqrt : ℚ → ℚ) (chol : Matrix (Fin 1) (Fin 1) ℚ → Matrix (Fin 1) (Fin 1) ℚ) (m : Nat)
    (h0 : Matrix (Fin 1) (Fin 1) ℚ) (gnorm0 vfDiff0 : Dbl ℚ) :
    ∃ r, newton 1 ⟨m, 0, 1 / 1000000, false⟩ sqrt chol exSquare (fun x => fun _ => 2 * x 0) (fun _ => one1 2) (fun _ => 1) h0 gnorm0
        vfDiff0 = .ok r ∧ r.x 0 = 1 - (m : ℚ) ∧ r.g 0 = 2 := by
  unfold newton
  rw [if_neg (by omega)]
  obtain ⟨r, h1, h2, h3⟩ := ex_plain sqrt chol m m 0 ⟨fun _ => 1, exSquare fun _ => 1, fun _ => 2 * 1, h0, 0, 0, gnorm0, vfDiff0⟩
    (by simp) (by norm_num) rfl
  exact ⟨r, h1, by rw [h2 0]; simp, by rw [h3]⟩

/-- **C97, violated.** The member `Hessian` is not the Hessian afterwards: solving for the direction has overwritten it with a factor (here:
a square root of the second derivative 4). -/
theorem C97_hessian_violated (sqrt : ℚ → ℚ) (chol : Matrix (Fin 1) (Fin 1) ℚ → Matrix (Fin 1) (Fin 1) ℚ)
    (hc : ∀ M : Matrix (Fin 1) (Fin 1) ℚ, 0 < M 0 0 → ∀ q, q * q = M 0 0 → 0 < q → chol M 0 0 = q)
    (h0 : Matrix (Fin 1) (Fin 1) ℚ) (gnorm0 vfDiff0 : Dbl ℚ) :
    ∃ r, newton 1 ⟨1, 0, 0, true⟩ sqrt chol (fun x => .num (quadratic (one1 4) (fun _ => 0) 0 x))
        (fun x => fun i => ∑ j, (one1 4) i j * x j - (0 : ℚ)) (fun _ => one1 4) (fun _ => 1) h0 gnorm0
        vfDiff0 = .ok r ∧ r.h 0 0 = 2 := by
  obtain ⟨r, e, _⟩ := C97_quadratic (k := 1) (o := ⟨1, 0, 0, true⟩) (sqrt := sqrt) (chol := chol) (x0 := fun _ => 1) (h0 := h0)
    (gnorm0 := gnorm0) (vfDiff0 := vfDiff0) (ex_posDef1 (a := 4) (by norm_num)) (fun _ => 0) 0 (by norm_num) (le_refl 1) rfl (by norm_num)
  refine ⟨r, e, ?_⟩
  unfold newton at e
  rw [if_neg (by omega), newtonLoop] at e
  dsimp only at e
  split_ifs at e with c1 c2
  · simp at c1
  · cases hw : wolfe (fun x : Fin 1 → ℚ => Dbl.num (quadratic (one1 4) (fun _ => 0) 0 x))
      (fun x => fun i => ∑ j, (one1 4) i j * x j - (0 : ℚ)) _ _ _ _ 1 (1 / 10000) (9 / 10) 100 with
    | throws => rw [hw] at e; simp at e
    | ub => rw [hw] at e; simp at e
    | diverges => rw [hw] at e; simp at e
    | ok l =>
      rw [hw, Outcome.ok_bind] at e
      unfold newtonNext at e
      dsimp only at e
      rw [if_neg (by norm_num), newtonLoop] at e
      cases Outcome.ok.inj e
      unfold solvePos
      dsimp only
      rw [mirrored_one1, if_pos ⟨by norm_num, ex_posDef1 (by norm_num)⟩]
      exact hc _ (by norm_num [one1]) 2 (by norm_num [one1]) (by norm_num)
  · rename_i h3
    exact absurd rfl h3

/-- The hypotheses of `C97_quadratic` are met: `x² + y²` with a line search. -/
example : ∃ r, newton 2 ⟨100, 0, 1 / 1000000, true⟩ id id (fun x => Dbl.num (quadratic (1 : Matrix (Fin 2) (Fin 2) ℚ) (fun _ => 1) 0 x))
    (fun x => fun i => ∑ j, (1 : Matrix (Fin 2) (Fin 2) ℚ) i j * x j - 1) (fun _ => 1) (fun _ => 5) 0 .nan .nan = .ok r ∧
    ∀ x, x ≠ r.x → quadratic (1 : Matrix (Fin 2) (Fin 2) ℚ) (fun _ => 1) 0 r.x < quadratic 1 (fun _ => 1) 0 x := by
  obtain ⟨r, e, h⟩ := C97_quadratic (k := 2) (o := ⟨100, 0, 1 / 1000000, true⟩) (sqrt := id) (chol := id) (x0 := fun _ => 5) (h0 := 0)
    (gnorm0 := .nan) (vfDiff0 := .nan) (Ls.PosDef.one (K := ℚ) (ι := Fin 2)) (fun _ => 1) 0 (by norm_num) (le_refl 2) rfl (by norm_num)
  exact ⟨r, e, h.resolve_right (by simp)⟩

end Op
end LDT
