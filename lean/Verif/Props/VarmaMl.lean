import Verif.Lemmas.VarmaMl
import Verif.Props.VarmaFit
/-!
# C137: what a VARMA estimation reports
-/
namespace LDT
namespace Ve
open Matrix
open Op (Dbl Ops exact)

section
variable {g n k p : ℕ} {θ σ : Type}

/-- A run of the last part succeeds only with the details, and then it is this. -/
theorem finish_ok [Fintype θ] [DecidableEq θ] {o : Ulb σ θ} {d : Numeric θ} {u : Request} {s : Sample g n k p} {w : Par g k p θ} {grad : θ → Dbl ℝ} {b : Start g n θ}
    {r : Fit g n k p θ} (h : finishMl o d u s w grad b = .ok r) :
    let f := objective s w b.cols
    let z := search o d f u.maxIter ⟨o.init (limits u (-1) b) (limits u 1 b), b.gamma, .num 0, grad, none⟩
    u.details = true ∧ r.gamma = z.x ∧ r.coef = some (w.pi z.x) ∧ r.sigma2 = some (sigma2 r.resid) ∧
    (u.calcVar = true → r.resid = resid s (w.pi z.x)) ∧
    (u.calcVar = false → r.gammavar = b.gammavar ∧ ∀ t, z.last = some t → r.resid = resid s (w.pi t)) ∧
    (u.calcVar = true → ∃ V, r.gammavar = some V ∧ ((d.second f z.x).det ≠ 0 → d.second f z.x * V = (2 : ℝ) • 1)) ∧
    r.report = some (report u (n + u.sampleEnd) w n (w.pi z.x) r.gammavar z.value) := by
  intro f z
  unfold finishMl at h
  by_cases hd : u.details = false
  · rw [if_pos hd] at h
    cases h
  · rw [if_neg hd] at h
    have e := Outcome.ok.inj h
    subst e
    refine ⟨by simpa using hd, rfl, rfl, rfl, fun hc => ?_, fun hc => ⟨?_, fun t ht => ?_⟩, fun hc => ⟨_, if_pos hc, fun hH => ?_⟩, rfl⟩
    · simp only [hc, if_true]; rfl
    · simp only [hc]; rfl
    · change z.last = some t at ht
      simp only [hc, Bool.false_eq_true, if_false]
      change (match z.last with | none => b.resid | some t => resid s (w.pi t)) = _
      rw [ht]
    · change (d.second f z.x) * ((2 : ℝ) • if (d.second f z.x).det = 0 then _ else (d.second f z.x)⁻¹) = _
      rw [if_neg hH, Matrix.mul_smul, mul_nonsing_inv _ (isUnit_iff_ne_zero.2 hH)]

/-- C137: when the variances are calculated, the reported residuals are those of the reported coefficients, they solve the equation of the model, and their mean products are
the reported covariance; whatever the optimiser and the derivatives are. -/
theorem C137_residuals [Fintype θ] [DecidableEq θ] (o : Ulb σ θ) (d : Numeric θ) (u : Request) (s : Sample g n k p) (w : Par g k p θ) (grad : θ → Dbl ℝ)
    (b : Start g n θ) (hl : ∀ c, 0 < s.lag c) (hv : u.calcVar = true) (r : Fit g n k p θ) (h : finishMl o d u s w grad b = .ok r) :
    ∃ B, r.coef = some B ∧ B = w.pi r.gamma ∧ Residuals s.y s.x s.lag B r.resid ∧
      (∀ e, Residuals s.y s.x s.lag B e → e = r.resid) ∧ r.sigma2 = some (meanProducts r.resid) := by
  obtain ⟨_, hg, hc, hs, hr, _⟩ := finish_ok h
  have hr := hr hv
  refine ⟨_, hc, by rw [hg], (residuals_iff s hl _ _).2 hr, fun e he => ?_, by rw [hs, sigma2_eq]⟩
  rw [hr]
  exact (residuals_iff s hl _ _).1 he

/-- C137: in every model with an MA part, with or without a restriction, and however it started. -/
theorem C137_residuals_ma (o : Ulb σ (Reg g k p × Fin g)) (d : Numeric (Reg g k p × Fin g)) (u : Request) (s : Sample g n k p) (grad) (m : Option ℝ) (current)
    (hl : ∀ c, 0 < s.lag c) (hv : u.calcVar = true) (r) (h : estimateMa o d u s grad m current = .ok r) :
    ∃ B, r.coef = some B ∧ Residuals s.y s.x s.lag B r.resid ∧ r.sigma2 = some (meanProducts r.resid) := by
  unfold estimateMa at h
  have key : ∀ b, finishMl o d u s (freePar g k p) grad b = .ok r →
      ∃ B, r.coef = some B ∧ Residuals s.y s.x s.lag B r.resid ∧ r.sigma2 = some (meanProducts r.resid) := fun b hb => by
    obtain ⟨B, h1, _, h2, _, h3⟩ := C137_residuals o d u s _ grad b hl hv r hb
    exact ⟨B, h1, h2, h3⟩
  cases current with
  | some b => exact key _ h
  | none =>
    cases e : unrestrictedMa s m with
    | ok b => simp only [e] at h; exact key b h
    | throws => simp only [e] at h; cases h
    | ub => simp only [e] at h; cases h
    | diverges => simp only [e] at h; cases h

/-- C137: the same with a restriction: the coefficients are `R` times the free ones. -/
theorem C137_residuals_restricted {q : ℕ} (o : Ulb σ (Fin q)) (d : Numeric (Fin q)) (u : Request) (s : Sample g n k p) (R : Matrix (Reg g k p × Fin g) (Fin q) ℝ) (grad)
    (m : Option ℝ) (current) (hl : ∀ c, 0 < s.lag c) (hv : u.calcVar = true) (r) (h : estimateRestricted o d u s R grad m current = .ok r) :
    r.coef = some (expand R r.gamma) ∧ Residuals s.y s.x s.lag (expand R r.gamma) r.resid ∧ r.sigma2 = some (meanProducts r.resid) := by
  unfold estimateRestricted at h
  have key : ∀ b, (if p = 0 ∧ 0 < q then Outcome.throws else finishMl o d u s (restrictedPar R) grad b) = .ok r →
      r.coef = some (expand R r.gamma) ∧ Residuals s.y s.x s.lag (expand R r.gamma) r.resid ∧ r.sigma2 = some (meanProducts r.resid) := fun b hb => by
    by_cases hp : p = 0 ∧ 0 < q
    · rw [if_pos hp] at hb; cases hb
    · rw [if_neg hp] at hb
      obtain ⟨B, h1, h0, h2, _, h3⟩ := C137_residuals o d u s _ grad b hl hv r hb
      have h0 : B = expand R r.gamma := h0
      rw [h0] at h1 h2
      exact ⟨h1, h2, h3⟩
  generalize (if p = 0 then none else current) = cur at h
  cases cur with
  | some b => exact key _ h
  | none =>
    cases e : restricted s R m with
    | ok b => simp only [e] at h; exact key b h
    | throws => simp only [e] at h; cases h
    | ub => simp only [e] at h; cases h
    | diverges => simp only [e] at h; cases h

/-- C137: when the variances are not calculated, the residuals are those of the last point at which a derivative was taken, which is not the estimate. -/
theorem C137_last_point [Fintype θ] [DecidableEq θ] (o : Ulb σ θ) (ho : Keeps o) (hs : Starts o) (d : Numeric θ) (u : Request) (hi : 0 < u.maxIter) (s : Sample g n k p)
    (w : Par g k p θ) (grad : θ → Dbl ℝ) (b : Start g n θ) (hv : u.calcVar = false) (r : Fit g n k p θ) (h : finishMl o d u s w grad b = .ok r) :
    r.resid = resid s (w.pi (d.lastPoint (objective s w b.cols) r.gamma)) ∧ r.gammavar = b.gammavar := by
  obtain ⟨_, hg, _, _, _, hr, _, _⟩ := finish_ok h
  obtain ⟨h1, h2⟩ := hr hv
  have hz := search_starts ho hs d (objective s w b.cols) hi (limits u (-1) b) (limits u 1 b) b.gamma (.num 0) grad
  rw [hg]
  exact ⟨h2 _ hz.2, h1⟩

/-- C137: if the optimiser moves only to evaluate, the reported likelihood is that of the reported coefficients: `(-(T g (1 + log 2 pi)) - v) / 2` for the value `v` of the
objective. -/
theorem C137_value [Fintype θ] [DecidableEq θ] (o : Ulb σ θ) (ho : Keeps o) (hs : Starts o) (d : Numeric θ) (u : Request) (hi : 0 < u.maxIter) (s : Sample g n k p)
    (w : Par g k p θ) (grad : θ → Dbl ℝ) (b : Start g n θ) (r : Fit g n k p θ) (h : finishMl o d u s w grad b = .ok r) :
    ∃ z, r.report = some z ∧ ∀ v, objective s w b.cols r.gamma = .num v →
      z.ll = .num ((-((n + u.sampleEnd : ℕ) * g * (1 + Real.log (2 * Real.pi))) - v) / 2) := by
  obtain ⟨_, hg, _, _, _, _, _, hr⟩ := finish_ok h
  have hz := search_starts ho hs d (objective s w b.cols) hi (limits u (-1) b) (limits u 1 b) b.gamma (.num 0) grad
  refine ⟨_, hr, fun v hv => ?_⟩
  unfold report
  dsimp only
  rw [hz.1, ← hg, hv]
  simp [exact]

end
end Ve
end LDT
