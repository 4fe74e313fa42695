import Verif.Props.VarmaMlLik
/-!
# C137: examples
-/
namespace LDT
namespace Ve
open Matrix
open Op (Dbl Ops exact)

/-- Two observations, both 1, of a model with one MA lag only. -/
def pure2 : Sample 1 2 0 1 := ⟨fun _ _ => 1, fun _ c => c.elim0, fun _ => 1⟩

/-- The name of the only coefficient. -/
def only : Reg 1 0 1 × Fin 1 := (.inr (0, 0), 0)

theorem only_eq (c : Reg 1 0 1 × Fin 1) : c = only := by
  rcases c with ⟨c | ⟨c, j⟩, j'⟩
  · exact c.elim0
  · rw [show c = 0 from Subsingleton.elim _ _, show j = 0 from Subsingleton.elim _ _, show j' = 0 from Subsingleton.elim _ _]
    rfl

theorem pure2_second {B : Matrix (Fin 1) (Reg 1 0 1) ℝ} {e : Matrix (Fin 1) (Fin 2) ℝ} (h : Residuals pure2.y pure2.x pure2.lag B e) :
    e 0 0 = 1 ∧ e 0 1 = 1 - B 0 (.inr (0, 0)) := by
  obtain ⟨X, hX, he⟩ := h
  have b0 := hX.before 0 0 0 (by simp [pure2])
  have b1 := hX.lagged 1 0 0 0 (by simp [pure2])
  have e0 : e 0 0 = 1 := by
    rw [he, left_sum]
    simp [pure2, Fintype.sum_prod_type, b0]
  refine ⟨e0, ?_⟩
  have e1 : e 0 1 = left pure2.y X B 0 1 := by rw [← he]
  rw [e1, left_sum]
  simp [pure2, Fintype.sum_prod_type, b1, e0]

/-- C137: without the variances the reported residuals are not those of the reported coefficients: for these observations, whatever the optimiser finds, if the last evaluation
of a derivative is not at the point itself (it is one coordinate away, derivative.cpp:124-128). -/
theorem C137_last_point_violated {σ : Type} (o : Ulb σ (Reg 1 0 1 × Fin 1)) (ho : Keeps o) (hs : Starts o) (d : Numeric (Reg 1 0 1 × Fin 1))
    (hd : ∀ f x, d.lastPoint f x ≠ x) (u : Request) (hu : u.details = true) (hi : 0 < u.maxIter) (hv : u.calcVar = false) (grad) :
    ∃ r, estimateMa o d u pure2 grad none none = .ok r ∧ ∃ B, r.coef = some B ∧ ¬ Residuals pure2.y pure2.x pure2.lag B r.resid := by
  have hr : ∃ r, finishMl o d u pure2 (freePar 1 0 1) grad (pureMa 1 2 _) = .ok r := by
    unfold finishMl
    dsimp only
    rw [if_neg (by rw [hu]; exact Bool.false_ne_true.symm)]
    exact ⟨_, rfl⟩
  obtain ⟨r, hr⟩ := hr
  refine ⟨r, hr, ?_⟩
  obtain ⟨_, hg, hc, _⟩ := finish_ok hr
  obtain ⟨hl, _⟩ := C137_last_point o ho hs d u hi pure2 _ grad _ hv r hr
  refine ⟨_, hc, fun hres => ?_⟩
  have hres' := (residuals_iff pure2 (fun _ => one_pos) _ _).2 hl
  have h1 := (pure2_second hres).2
  have h2 := (pure2_second hres').2
  rw [h1] at h2
  apply hd (objective pure2 (freePar 1 0 1) (pureMa 1 2 (Reg 1 0 1 × Fin 1)).cols) r.gamma
  funext c
  rw [only_eq c]
  rw [← hg] at h2
  change 1 - r.gamma only = 1 - d.lastPoint _ r.gamma only at h2
  linarith

/-- An optimiser that evaluates its starting point and stops. -/
def once (θ : Type) : Ulb Bool θ := ⟨fun _ _ => false, fun m x v _ => (true, if m then .stop else .evaluate, x, v)⟩

theorem once_keeps (θ : Type) : Keeps (once θ) := by
  intro m x v gr
  cases m
  · exact .inl rfl
  · exact .inr ⟨rfl, rfl⟩

theorem once_starts (θ : Type) : Starts (once θ) := fun _ _ _ _ _ => rfl

/-- Derivatives whose last evaluation is one coordinate away. -/
noncomputable def away : Numeric (Reg 1 0 1 × Fin 1) := ⟨fun _ _ _ => .num 0, fun _ x => fun c => x c + 1, fun _ _ => 1, id⟩

theorem away_ne (f) (x) : away.lastPoint f x ≠ x := fun h => by
  have : x only + 1 = x only := congrFun h only
  linarith

/-- A request with or without the variances. -/
noncomputable def ask (var : Bool) : Request := ⟨true, var, 100, 1, 0, fun _ _ => .num 1⟩

/-- The conditions of `C137_last_point_violated` can be met. -/
theorem C137_last_point_example : ∃ r, estimateMa (once _) away (ask false) pure2 (fun _ => .num 0) none none = .ok r ∧
    ∃ B, r.coef = some B ∧ ¬ Residuals pure2.y pure2.x pure2.lag B r.resid :=
  C137_last_point_violated _ (once_keeps _) (once_starts _) away away_ne (ask false) rfl (by simp [ask]) rfl _

theorem posDef_one {S : Matrix (Fin 1) (Fin 1) ℝ} (h : 0 < S 0 0) : S.PosDef := by
  have : S = Matrix.diagonal fun _ => S 0 0 := by
    funext a b
    rw [show a = 0 from Subsingleton.elim _ _, show b = 0 from Subsingleton.elim _ _]
    simp
  rw [this]
  exact Matrix.PosDef.diagonal fun _ => h

/-- So can those of `C137_likelihood_violated`, with the residuals 1 and `1 - c`. -/
theorem C137_likelihood_example : ∃ r W z, estimateMa (once _) away (ask true) pure2 (fun _ => .num 0) none none = .ok r ∧
    meanProducts r.resid * W = 1 ∧ r.report = some z ∧ ∃ v, z.ll = .num v ∧ v < logLik r.resid (meanProducts r.resid) W := by
  have hr : ∃ r, finishMl (once _) away (ask true) pure2 (freePar 1 0 1) (fun _ => .num 0) (pureMa 1 2 _) = .ok r := ⟨_, rfl⟩
  obtain ⟨r, hr⟩ := hr
  obtain ⟨B, _, _, hres, _⟩ := C137_residuals _ away (ask true) pure2 _ _ _ (fun _ => one_pos) rfl r hr
  have h1 := (pure2_second hres).1
  have hp : 0 < meanProducts r.resid 0 0 := by
    unfold meanProducts
    rw [Fin.sum_univ_two, h1]
    have := mul_self_nonneg (r.resid 0 1)
    apply div_pos
    · linarith
    · norm_num
  have hP := posDef_one hp
  have hW : meanProducts r.resid * (meanProducts r.resid)⁻¹ = 1 := mul_nonsing_inv _ (isUnit_iff_ne_zero.2 hP.det_pos.ne')
  obtain ⟨z, hz, hl, hpos⟩ := C137_likelihood_violated _ (once_keeps _) (once_starts _) away (ask true) (by simp [ask]) rfl rfl pure2 one_pos _ _ _
    one_pos one_lt_two r hr hP _ hW
  exact ⟨r, _, z, hr, hW, hz, _, hl, by
    have e : (1 : ℕ) = (pureMa 1 2 (Reg 1 0 1 × Fin 1)).cols := rfl
    linarith⟩

/-- So can those of `C137_likelihood`: 0 and 4 with an intercept, with the residuals -2 and 2. -/
theorem C137_two_example : ∃ r z W, estimateAr (ask true) two none = .ok r ∧ r.report = some z ∧ z.ll = .num (logLik r.resid (meanProducts r.resid) W) := by
  obtain ⟨b, hb⟩ := (C136_accepted two none).1.2 ⟨two_rank, fun m h => by cases h⟩
  have hr : estimateAr (ask true) two none = .ok (finishAr (ask true) b.asModel) := by
    unfold estimateAr
    rw [hb]; rfl
  obtain ⟨hB, hres, _⟩ := C136_least_squares two none b hb
  have hp : 0 < meanProducts (finishAr (ask true) b.asModel).resid 0 0 := by
    change 0 < meanProducts b.resid 0 0
    rw [hres]
    simp only [meanProducts, left, Fin.sum_univ_two, two]
    simp
    nlinarith [sq_nonneg (b.gamma (0, 0) - 2), sq_nonneg (b.gamma (0, 0))]
  have hP := posDef_one hp
  have hW := mul_nonsing_inv _ (isUnit_iff_ne_zero.2 hP.det_pos.ne')
  obtain ⟨z, hz, hl⟩ := C137_likelihood two_pos (ask true) two none _ rfl rfl hr
  exact ⟨_, z, _, hr, hz, hl hP _ hW⟩

end Ve
end LDT
