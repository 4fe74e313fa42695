import Verif.Props.VarmaMl
import Mathlib.Analysis.Real.Pi.Bounds
import Mathlib.Algebra.Order.Star.Real
/-!
# C137: likelihood, criteria and standard errors of a VARMA estimation
-/
namespace LDT
namespace Ve
open Matrix
open Op (Dbl Ops exact)

section
variable {g n k p : ℕ} {θ σ : Type}

theorem ar_ok {u : Request} {s : Sample g n k 0} {m : Option ℝ} {r : Fit g n k 0 (Reg g k 0 × Fin g)} (h : estimateAr u s m = .ok r) :
    ∃ b, unrestrictedAr s m = .ok b ∧ r = finishAr u b.asModel := by
  unfold estimateAr at h
  cases e : unrestrictedAr s m with
  | ok b => rw [e] at h; exact ⟨b, rfl, (Outcome.ok.inj h).symm⟩
  | throws => rw [e] at h; cases h
  | ub => rw [e] at h; cases h
  | diverges => rw [e] at h; cases h

/-- C137: without MA part and restriction the reported coefficients are the least squares coefficients. -/
theorem C137_least_squares (u : Request) (s : Sample g n k 0) (m : Option ℝ) (r : Fit g n k 0 (Reg g k 0 × Fin g)) (hd : u.details = true) (h : estimateAr u s m = .ok r) :
    ∃ B, r.coef = some B ∧ BestFit s.y s.x (fun j c => B j (.inl c)) ∧ Residuals s.y s.x s.lag B r.resid ∧ r.sigma2 = some (meanProducts r.resid) ∧
      ∃ V, r.gammavar = some V ∧ CovOf s.x (meanProducts r.resid) fun a b => V (.inl a.1, a.2) (.inl b.1, b.2) := by
  obtain ⟨b, hb, rfl⟩ := ar_ok h
  obtain ⟨h1, h2, h3, V, h4, h5⟩ := C136_least_squares s m b hb
  refine ⟨_, if_pos hd, h1, ⟨s.xt b.resid, withLags_xt s _, ?_⟩, h3, _, congrArg (Option.map _) h4, h5⟩
  change b.resid = _
  refine h2.trans ?_
  funext j i
  rw [left_sum]
  simp [left]
  rfl

theorem ar_report {u : Request} {s : Sample g n k 0} {m : Option ℝ} {r : Fit g n k 0 (Reg g k 0 × Fin g)} (hd : u.details = true) (h : estimateAr u s m = .ok r) :
    ∃ z, r.report = some z ∧ ((meanProducts r.resid).PosDef →
      z.ll = .num ((-((n + u.sampleEnd : ℕ) * g * (1 + Real.log (2 * Real.pi))) - Real.log (meanProducts r.resid).det * n) / 2)) := by
  obtain ⟨b, hb, rfl⟩ := ar_ok h
  obtain ⟨h1, h2, h3, _⟩ := C136_least_squares s m b hb
  refine ⟨_, if_pos hd, fun hp => ?_⟩
  have hs : b.asModel.sigma2 = some (meanProducts b.resid) := h3
  unfold report
  dsimp only
  rw [hs]
  have hp : (meanProducts b.resid).PosDef := hp
  dsimp only
  rw [lnDet_pos hp]
  simp [exact, times]
  exact Or.inl rfl

/-- C137: without MA part the reported likelihood is that of independent normal errors with the reported covariance, if the whole sample is used. -/
theorem C137_likelihood (pn : 0 < n) (u : Request) (s : Sample g n k 0) (m : Option ℝ) (r : Fit g n k 0 (Reg g k 0 × Fin g)) (hd : u.details = true)
    (h0 : u.sampleEnd = 0) (h : estimateAr u s m = .ok r) :
    ∃ z, r.report = some z ∧ ((meanProducts r.resid).PosDef → ∀ W, meanProducts r.resid * W = 1 →
      z.ll = .num (logLik r.resid (meanProducts r.resid) W)) := by
  obtain ⟨z, hz, hl⟩ := ar_report hd h
  refine ⟨z, hz, fun hp W hW => ?_⟩
  rw [hl hp, h0]
  unfold logLik
  rw [exponent pn _ hW]
  congr 1
  push_cast
  ring

/-- C137: if observations at the end of the sample are left out, they are counted nevertheless: the reported likelihood is too small. -/
theorem C137_sample_end_violated (pn : 0 < n) (pg : 0 < g) (u : Request) (s : Sample g n k 0) (m : Option ℝ) (r : Fit g n k 0 (Reg g k 0 × Fin g)) (hd : u.details = true)
    (h0 : 0 < u.sampleEnd) (h : estimateAr u s m = .ok r) (hp : (meanProducts r.resid).PosDef) (W : Matrix (Fin g) (Fin g) ℝ) (hW : meanProducts r.resid * W = 1) :
    ∃ z, r.report = some z ∧ z.ll = .num (logLik r.resid (meanProducts r.resid) W - u.sampleEnd * g * (1 + Real.log (2 * Real.pi)) / 2) ∧
      0 < u.sampleEnd * g * (1 + Real.log (2 * Real.pi)) / 2 := by
  obtain ⟨z, hz, hl⟩ := ar_report hd h
  refine ⟨z, hz, ?_, ?_⟩
  · rw [hl hp]
    unfold logLik
    rw [exponent pn _ hW]
    congr 1
    push_cast
    ring
  · have h1 : 0 < Real.log (2 * Real.pi) := Real.log_pos (by linarith [Real.pi_gt_three])
    have h2 : (0 : ℝ) < u.sampleEnd := by exact_mod_cast h0
    have h3 : (0 : ℝ) < g := by exact_mod_cast pg
    positivity

/-- C137: with an MA part or a restriction the objective divides by the number of observations less `gamma.ColsCount` (`k + p g` after a first step, 1 with a restriction), so
the reported likelihood is not that of the reported residuals and covariance: it is smaller. -/
theorem C137_likelihood_violated [Fintype θ] [DecidableEq θ] (o : Ulb σ θ) (ho : Keeps o) (hs : Starts o) (d : Numeric θ) (u : Request) (hi : 0 < u.maxIter)
    (h0 : u.sampleEnd = 0) (hv : u.calcVar = true) (s : Sample g n k p) (pg : 0 < g) (w : Par g k p θ) (grad : θ → Dbl ℝ) (b : Start g n θ) (hc : 0 < b.cols)
    (hn : b.cols < n) (r : Fit g n k p θ) (h : finishMl o d u s w grad b = .ok r) (hp : (meanProducts r.resid).PosDef) (W : Matrix (Fin g) (Fin g) ℝ)
    (hW : meanProducts r.resid * W = 1) :
    ∃ z, r.report = some z ∧ z.ll = .num (logLik r.resid (meanProducts r.resid) W - n * g * Real.log (n / (n - b.cols)) / 2) ∧
      0 < n * g * Real.log (n / ((n : ℝ) - b.cols)) / 2 := by
  obtain ⟨z, hz, hl⟩ := C137_value o ho hs d u hi s w grad b r h
  obtain ⟨_, hg, _, _, hr, _⟩ := finish_ok h
  have hr := hr hv
  rw [← hg] at hr
  have pn : (0 : ℝ) < n := by exact_mod_cast (by omega : 0 < n)
  have pc : (0 : ℝ) < b.cols := by exact_mod_cast hc
  have pd : (0 : ℝ) < (n : ℝ) - b.cols := by
    have : (b.cols : ℝ) < n := by exact_mod_cast hn
    linarith
  have pr : 0 < (n : ℝ) / (n - b.cols) := div_pos pn pd
  have hscale : (1 / ((n : ℝ) - b.cols)) • (resid s (w.pi r.gamma) * (resid s (w.pi r.gamma))ᵀ) = ((n : ℝ) / (n - b.cols)) • meanProducts r.resid := by
    rw [← hr]
    funext j j'
    simp only [Matrix.smul_apply, Matrix.mul_apply, meanProducts, transpose_apply, smul_eq_mul]
    field_simp
  have hobj : objective s w b.cols r.gamma = .num ((g * Real.log (n / (n - b.cols)) + Real.log (meanProducts r.resid).det) * n) := by
    unfold objective
    dsimp only
    rw [if_neg (by omega), hscale, lnDet_pos (hp.smul pr), det_smul, Real.log_mul (by positivity) hp.det_pos.ne', Real.log_pow]
    simp [times]
  refine ⟨z, hz, ?_, ?_⟩
  · rw [hl _ hobj, h0]
    unfold logLik
    rw [exponent (by omega) _ hW]
    congr 1
    push_cast
    ring
  · have h1 : 0 < Real.log (n / ((n : ℝ) - b.cols)) := Real.log_pos (by rw [lt_div_iff₀ pd]; linarith)
    have h3 : (0 : ℝ) < g := by exact_mod_cast pg
    positivity

/-- C137: the criteria: twice the number of coefficients of all equations (free or not), or this number times the logarithm of the number of observations (with those left out),
less twice the likelihood. -/
theorem C137_criteria (u : Request) (T : ℕ) (w : Par g k p θ) (n : ℕ) (coef) (var : Cov θ) (vf : Dbl ℝ) (v : ℝ) (h : (report u T w n coef var vf).ll = .num v) :
    (report u T w n coef var vf).aic = .num (2 * (g * (k + p * g) : ℕ) - 2 * v) ∧
    (report u T w n coef var vf).sic = .num (Real.log T * (g * (k + p * g) : ℕ) - 2 * v) := by
  have e1 : (report u T w n coef var vf).aic = (exact : Ops ℝ).sub (.num (2 * g * (k + p * g : ℕ))) ((exact : Ops ℝ).mul (.num 2) (report u T w n coef var vf).ll) := by
    unfold report; simp
  have e2 : (report u T w n coef var vf).sic = (exact : Ops ℝ).sub (.num (Real.log T * g * (k + p * g : ℕ))) ((exact : Ops ℝ).mul (.num 2) (report u T w n coef var vf).ll) := by
    unfold report; simp
  rw [e1, e2, h]
  constructor
  · simp [exact]; ring
  · simp [exact]; ring

/-- C137: with a restriction the criteria count the coefficients that are not free too. -/
theorem C137_criteria_violated {q : ℕ} (o : Ulb σ (Fin q)) (d : Numeric (Fin q)) (u : Request) (s : Sample g n k p) (R : Matrix (Reg g k p × Fin g) (Fin q) ℝ) (grad)
    (b : Start g n (Fin q)) (hq : q < g * (k + p * g)) (r) (h : finishMl o d u s (restrictedPar R) grad b = .ok r) :
    ∃ z, r.report = some z ∧ ∀ v, z.ll = .num v → ∃ a, z.aic = .num a ∧ 2 * (q : ℝ) - 2 * v < a := by
  obtain ⟨_, _, _, _, _, _, _, hr⟩ := finish_ok h
  refine ⟨_, hr, fun v hv => ⟨_, (C137_criteria u _ _ n _ _ _ v hv).1, ?_⟩⟩
  have : (q : ℝ) < (g * (k + p * g) : ℕ) := by exact_mod_cast hq
  linarith

/-- C137: without the details a model with an MA part writes to memory it does not have, whenever its first step succeeds. -/
theorem C137_no_details_violated (o : Ulb σ (Reg g k p × Fin g)) (d : Numeric (Reg g k p × Fin g)) (u : Request) (s : Sample g n k p) (grad) (m : Option ℝ)
    (hd : u.details = false) (b) (h : unrestrictedMa s m = .ok b) : estimateMa o d u s grad m none = .ub := by
  unfold estimateMa
  simp only [h]
  exact if_pos hd

/-- C137: a restricted model without an MA part is always refused. -/
theorem C137_restricted_ar_violated {q : ℕ} (hk : 0 < k) (hq : 0 < q) (o : Ulb σ (Fin q)) (d : Numeric (Fin q)) (u : Request) (s : Sample g n k 0)
    (R : Matrix (Reg g k 0 × Fin g) (Fin q) ℝ) (grad) (m : Option ℝ) (current) : estimateRestricted o d u s R grad m current = .throws := by
  unfold estimateRestricted
  rw [if_pos rfl]
  by_cases h : ∃ r, restricted s R m = .ok r
  · obtain ⟨r, h⟩ := h
    simp only [h]; exact if_pos ⟨trivial, hq⟩
  · rw [(C136_accepted_restricted hk s R m).2 h]; rfl

/-- C137: the standard error of a coefficient is the square root of its variance, and it divides the coefficient; the `p`-value is that of Student's distribution with as many
degrees of freedom as there are observations in all equations. -/
theorem C137_std (u : Request) (T n : ℕ) (coef : Matrix (Fin g) (Reg g k p) ℝ) (V : Matrix (Reg g k p × Fin g) (Reg g k p × Fin g) ℝ) (vf : Dbl ℝ) (j : Fin g) (c : Reg g k p)
    (hv : 0 < V (c, j) (c, j)) :
    let z := report u T (freePar g k p) n coef (some V) vf
    z.std j c = .num (Real.sqrt (V (c, j) (c, j))) ∧ z.t j c = .num (coef j c / Real.sqrt (V (c, j) (c, j))) ∧
    ∀ q, u.tcdf (g * n) (.num |coef j c / Real.sqrt (V (c, j) (c, j))|) = .num q → z.prob j c = .num (2 * (1 - q)) := by
  have hs : Di.sqrtD ((freePar g k p).spread (diagonal (some V)) j c) = .num (Real.sqrt (V (c, j) (c, j))) := if_pos hv.le
  have hn : Real.sqrt (V (c, j) (c, j)) ≠ 0 := (Real.sqrt_pos.2 hv).ne'
  have ht : (exact : Ops ℝ).div (.num (coef j c)) (.num (Real.sqrt (V (c, j) (c, j)))) = .num (coef j c / Real.sqrt (V (c, j) (c, j))) := by
    simp [exact, hn]
  refine ⟨hs, ?_, fun q hq => ?_⟩
  · change (exact : Ops ℝ).div (.num (coef j c)) (Di.sqrtD ((freePar g k p).spread (diagonal (some V)) j c)) = _
    rw [hs, ht]
  · change (exact : Ops ℝ).mul (.num 2) ((exact : Ops ℝ).sub (.num 1) (u.tcdf (g * n) ((exact : Ops ℝ).abs
      ((exact : Ops ℝ).div (.num (coef j c)) (Di.sqrtD ((freePar g k p).spread (diagonal (some V)) j c)))))) = _
    rw [hs, ht]
    have : (exact : Ops ℝ).abs (.num (coef j c / Real.sqrt (V (c, j) (c, j)))) = .num |coef j c / Real.sqrt (V (c, j) (c, j))| := by
      change Dbl.num _ = _
      congr 1
      split
      · rename_i hneg; exact (abs_of_neg hneg).symm
      · rename_i hneg; exact (abs_of_nonneg (not_lt.1 hneg)).symm
    rw [this, hq]
    simp [exact]

theorem spread_num {q : ℕ} (R : Matrix (Reg g k p × Fin g) (Fin q) ℝ) (V : Matrix (Fin q) (Fin q) ℝ) (j : Fin g) (c : Reg g k p) :
    (restrictedPar R).spread (diagonal (some V)) j c = .num (∑ a, R (c, j) a * V a a) := by
  have key : ∀ (l : List (Fin q)) (z : ℝ), l.foldl (fun z a => (exact : Ops ℝ).add z ((exact : Ops ℝ).mul (.num (R (c, j) a)) (diagonal (some V) a))) (.num z) =
      .num (z + (l.map fun a => R (c, j) a * V a a).sum) := by
    intro l
    induction l with
    | nil => intro z; simp
    | cons a l ih =>
      intro z
      have : (exact : Ops ℝ).add (.num z) ((exact : Ops ℝ).mul (.num (R (c, j) a)) (diagonal (some V) a)) = .num (z + R (c, j) a * V a a) := rfl
      rw [List.foldl_cons, this, ih, List.map_cons, List.sum_cons, add_assoc]
  refine (key _ 0).trans ?_
  rw [zero_add]
  rw [← List.ofFn_eq_map, List.sum_ofFn]

/-- C137: with a restriction that selects, a selected coefficient has the standard error of its free coefficient, and one that is set to zero has none. -/
theorem C137_std_restricted {q : ℕ} (u : Request) (T n : ℕ) (coef : Matrix (Fin g) (Reg g k p) ℝ) (R : Matrix (Reg g k p × Fin g) (Fin q) ℝ) (V : Matrix (Fin q) (Fin q) ℝ)
    (vf : Dbl ℝ) (j : Fin g) (c : Reg g k p) :
    let z := report u T (restrictedPar R) n coef (some V) vf
    (∀ a, R (c, j) = Pi.single a 1 → 0 ≤ V a a → z.std j c = .num (Real.sqrt (V a a))) ∧ (R (c, j) = 0 → z.std j c = .num 0) := by
  have hz : Di.sqrtD ((restrictedPar R).spread (diagonal (some V)) j c) = if 0 ≤ ∑ a, R (c, j) a * V a a then .num (Real.sqrt (∑ a, R (c, j) a * V a a)) else .nan := by
    rw [spread_num]; rfl
  refine ⟨fun a ha hv => hz.trans ?_, fun h0 => hz.trans ?_⟩
  · have : ∑ b, R (c, j) b * V b b = V a a := by rw [ha]; simp [Pi.single_apply]
    rw [this, if_pos hv]
  · rw [h0]; simp

/-- C137: with any other restriction the standard errors are wrong: a coefficient that is twice the free one has the standard error `√2 s` instead of `2 s`. -/
theorem C137_std_violated {q : ℕ} (u : Request) (T n : ℕ) (coef : Matrix (Fin g) (Reg g k p) ℝ) (R : Matrix (Reg g k p × Fin g) (Fin q) ℝ) (V : Matrix (Fin q) (Fin q) ℝ)
    (vf : Dbl ℝ) (j : Fin g) (c : Reg g k p) (a : Fin q) (ha : R (c, j) = Pi.single a 2) (hv : 0 < V a a) :
    (report u T (restrictedPar R) n coef (some V) vf).std j c = .num (Real.sqrt (2 * V a a)) ∧ Real.sqrt (2 * V a a) < 2 * Real.sqrt (V a a) := by
  have hz : Di.sqrtD ((restrictedPar R).spread (diagonal (some V)) j c) = if 0 ≤ ∑ a, R (c, j) a * V a a then .num (Real.sqrt (∑ a, R (c, j) a * V a a)) else .nan := by
    rw [spread_num]; rfl
  constructor
  · refine hz.trans ?_
    have : ∑ b, R (c, j) b * V b b = 2 * V a a := by rw [ha]; simp [Pi.single_apply]
    rw [this, if_pos (by linarith)]
  · rw [Real.sqrt_lt' (by have := Real.sqrt_pos.2 hv; linarith), mul_pow, Real.sq_sqrt hv.le]
    linarith

end
end Ve
end LDT
