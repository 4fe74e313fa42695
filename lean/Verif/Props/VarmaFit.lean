import Verif.Lemmas.VarmaFit
import Mathlib.Data.Matrix.Mul
/-!
# C136: the first step of a VARMA model is least squares
-/
namespace LDT
namespace Ve
open Matrix
open scoped Kronecker

section
variable {g n k p : ℕ}

theorem ma_eq (hk : 0 < k) (s : Sample g n k p) (m : Option ℝ) (a : Step g n (Fin k)) (e : ols s.x s.y m = .ok a) :
    unrestrictedMa s m = ols (s.xt a.resid) s.y m >>= fun b => pure (b.start (k + p * g)) := by
  unfold unrestrictedMa
  rw [if_neg (by omega), e]; rfl

theorem ma_throws (hk : 0 < k) (s : Sample g n k p) (m : Option ℝ) (e : ols s.x s.y m = .throws) : unrestrictedMa s m = .throws := by
  unfold unrestrictedMa
  rw [if_neg (by omega), e]; rfl

theorem re_eq (hk : 0 < k) {q : ℕ} (s : Sample g n k p) (R : Matrix (Reg g k p × Fin g) (Fin q) ℝ) (m : Option ℝ) (a : Step g n (Fin k))
    (e : ols s.x s.y m = .ok a) : restricted s R m = restrictedFit (s.xt a.resid) s.y R m := by
  unfold restricted
  rw [if_neg (by omega), e]; rfl

theorem re_throws (hk : 0 < k) {q : ℕ} (s : Sample g n k p) (R : Matrix (Reg g k p × Fin g) (Fin q) ℝ) (m : Option ℝ)
    (e : ols s.x s.y m = .throws) : restricted s R m = .throws := by
  unfold restricted
  rw [if_neg (by omega), e]; rfl

/-- C136: without an MA part and without restrictions the coefficients are those of the least sum of squares in every equation, the residuals are what they leave, and
the covariances are estimated from them. -/
theorem C136_least_squares (s : Sample g n k 0) (m : Option ℝ) (r : Start g n (Fin k × Fin g)) (h : unrestrictedAr s m = .ok r) :
    BestFit s.y s.x (fun j c => r.gamma (c, j)) ∧ r.resid = left s.y s.x (fun j c => r.gamma (c, j)) ∧
      r.sigma2 = some (meanProducts r.resid) ∧ ∃ V, r.gammavar = some V ∧ CovOf s.x (meanProducts r.resid) V := by
  unfold unrestrictedAr at h
  rcases ols_total s.x s.y m with e | ⟨a, e⟩ <;> rw [e] at h <;> cases h
  obtain ⟨hX, _, hg, hr, hi⟩ := ols_ok e
  refine ⟨?_, hr, congrArg some (sigma2_eq _), _, rfl, ?_⟩
  · change BestFit s.y s.x a.gamma
    rw [hg]
    exact best_of _ hX
  · change CovOf _ (meanProducts a.resid) _
    rw [hi, sigma2_eq]
    exact covOf_kron hX _

/-- C136: with an MA part the lags of the residuals of a first regression are added to the regressors, with zeros before the sample, and the coefficients are those
of the least sum of squares with these regressors. -/
theorem C136_innovations (hk : 0 < k) (s : Sample g n k p) (m : Option ℝ) (r : Start g n (Reg g k p × Fin g)) (h : unrestrictedMa s m = .ok r) :
    ∃ B X, BestFit s.y s.x B ∧ WithLags s.x s.lag (left s.y s.x B) X ∧
      BestFit s.y X (fun j c => r.gamma (c, j)) ∧ r.resid = left s.y X (fun j c => r.gamma (c, j)) ∧
      r.sigma2 = some (meanProducts r.resid) ∧ ∃ V, r.gammavar = some V ∧ CovOf X (meanProducts r.resid) V := by
  unfold unrestrictedMa at h
  rw [if_neg (by omega)] at h
  rcases ols_total s.x s.y m with e | ⟨a, e⟩
  · rw [e] at h; cases h
  · rw [e] at h
    obtain ⟨hX, _, hg, hr, _⟩ := ols_ok e
    rcases ols_total (s.xt a.resid) s.y m with e' | ⟨b, e'⟩
    · change (ols (s.xt a.resid) s.y m >>= _) = _ at h
      rw [e'] at h; cases h
    · change (ols (s.xt a.resid) s.y m >>= _) = _ at h
      rw [e'] at h; cases h
      obtain ⟨hX', _, hg', hr', hi'⟩ := ols_ok e'
      refine ⟨a.gamma, s.xt a.resid, by rw [hg]; exact best_of _ hX, hr ▸ withLags_xt s _, ?_, hr', congrArg some (sigma2_eq _), _, rfl, ?_⟩
      · change BestFit _ _ b.gamma
        rw [hg']
        exact best_of _ hX'
      · change CovOf _ (meanProducts b.resid) _
        rw [hi', sigma2_eq]
        exact covOf_kron hX' _

/-- C136: a model with MA lags only starts with coefficients and residuals of zero and with infinite variances, whatever the data. -/
theorem C136_pure (s : Sample g n 0 p) (m : Option ℝ) :
    unrestrictedMa s m = .ok ⟨0, 1, 0, none, none⟩ ∧
    ∀ q (R : Matrix (Reg g 0 p × Fin g) (Fin q) ℝ), restricted s R m = .ok ⟨0, 1, 0, none, none⟩ :=
  ⟨rfl, fun _ _ => rfl⟩

/-- C136: with a restriction the free coefficients are those of the least sum of squares over all equations, with the same regressors; the residuals and their covariances
are those of the coefficients. -/
theorem C136_restricted (hk : 0 < k) {q : ℕ} (s : Sample g n k p) (R : Matrix (Reg g k p × Fin g) (Fin q) ℝ) (m : Option ℝ) (r : Start g n (Fin q))
    (h : restricted s R m = .ok r) :
    ∃ B X, BestFit s.y s.x B ∧ WithLags s.x s.lag (left s.y s.x B) X ∧
      (∀ t, total (left s.y X (expand R r.gamma)) ≤ total (left s.y X (expand R t)) ∧
        (total (left s.y X (expand R t)) ≤ total (left s.y X (expand R r.gamma)) → t = r.gamma)) ∧
      r.resid = left s.y X (expand R r.gamma) ∧ r.sigma2 = some (meanProducts r.resid) := by
  unfold restricted at h
  rw [if_neg (by omega)] at h
  rcases ols_total s.x s.y m with e | ⟨a, e⟩
  · rw [e] at h; cases h
  · rw [e] at h
    change restrictedFit _ _ _ _ = _ at h
    obtain ⟨hX, _, hg, hr, _⟩ := ols_ok e
    obtain ⟨⟨hZ, _⟩, he⟩ := restrictedFit_ok h
    refine ⟨a.gamma, s.xt a.resid, by rw [hg]; exact best_of _ hX, hr ▸ withLags_xt s _, ?_, congrArg Start.resid he, congrArg Start.sigma2 he⟩
    have hg : r.gamma = _ := congrArg Start.gamma he
    rw [hg]
    exact design_best s.y hZ

/-- C136: the variances of the free coefficients do not depend on the observations of the variables: the inverse of the cross products of the regressors is not multiplied by a
variance. -/
theorem C136_restricted_variance (hk : 0 < k) {q : ℕ} (s : Sample g n k p) (R : Matrix (Reg g k p × Fin g) (Fin q) ℝ) (m : Option ℝ) (r : Start g n (Fin q))
    (h : restricted s R m = .ok r) :
    ∃ B X V, BestFit s.y s.x B ∧ WithLags s.x s.lag (left s.y s.x B) X ∧ r.gammavar = some V ∧
      crossR X R * V = 1 := by
  unfold restricted at h
  rw [if_neg (by omega)] at h
  rcases ols_total s.x s.y m with e | ⟨a, e⟩
  · rw [e] at h; cases h
  · rw [e] at h
    change restrictedFit _ _ _ _ = _ at h
    obtain ⟨hX, _, hg, hr, _⟩ := ols_ok e
    obtain ⟨⟨hZ, _⟩, he⟩ := restrictedFit_ok h
    refine ⟨a.gamma, s.xt a.resid, _, by rw [hg]; exact best_of _ hX, hr ▸ withLags_xt s _, congrArg Start.gammavar he, ?_⟩
    rw [← design_gram]
    exact mul_nonsing_inv _ (isUnit_iff_ne_zero.2 ((gram_iff _).2 hZ))

/-- C136: the least squares coefficients exist, or the call is refused: it is refused exactly if the regressors are linearly dependent or the condition number of their cross products
is above the limit. -/
theorem C136_accepted (s : Sample g n k 0) (m : Option ℝ) :
    ((∃ r, unrestrictedAr s m = .ok r) ↔ Ls.FullRank s.x ∧ WellConditioned (cross s.x) m) ∧
    ((¬ ∃ r, unrestrictedAr s m = .ok r) → unrestrictedAr s m = .throws) := by
  unfold unrestrictedAr
  constructor
  · constructor
    · rintro ⟨r, h⟩
      rcases ols_total s.x s.y m with e | ⟨a, e⟩
      · rw [e] at h; cases h
      · exact ⟨(ols_ok e).1, (ols_ok e).2.1⟩
    · rintro ⟨h, h'⟩
      obtain ⟨a, e⟩ := ols_run s.y h h'
      rw [e]
      exact ⟨_, rfl⟩
  · intro h
    rcases ols_total s.x s.y m with e | ⟨a, e⟩
    · rw [e]; rfl
    · rw [e] at h
      exact (h ⟨_, rfl⟩).elim

/-- C136: with an MA part this holds for both regressions. -/
theorem C136_accepted_ma (hk : 0 < k) (s : Sample g n k p) (m : Option ℝ) :
    ((∃ r, unrestrictedMa s m = .ok r) ↔ (Ls.FullRank s.x ∧ WellConditioned (cross s.x) m) ∧
      ∀ B X, BestFit s.y s.x B → WithLags s.x s.lag (left s.y s.x B) X → Ls.FullRank X ∧ WellConditioned (cross X) m) ∧
    ((¬ ∃ r, unrestrictedMa s m = .ok r) → unrestrictedMa s m = .throws) := by
  have key : ∀ a, ols s.x s.y m = .ok a → BestFit s.y s.x a.gamma := fun a e => by
    rw [(ols_ok e).2.2.1]; exact best_of _ (ols_ok e).1
  rcases ols_total s.x s.y m with e | ⟨a, e⟩
  · rw [ma_throws hk s m e]
    refine ⟨⟨fun ⟨r, h⟩ => (by cases h), fun ⟨⟨h, h'⟩, _⟩ => ?_⟩, fun _ => rfl⟩
    obtain ⟨a, e'⟩ := ols_run s.y h h'
    rw [e] at e'; cases e'
  · rw [ma_eq hk s m a e]
    have hw := withLags_xt s a.resid
    have hr := (ols_ok e).2.2.2.1
    rcases ols_total (s.xt a.resid) s.y m with e' | ⟨b, e'⟩
    · rw [e']
      refine ⟨⟨fun ⟨r, h⟩ => (by cases h), fun ⟨_, h⟩ => ?_⟩, fun _ => rfl⟩
      obtain ⟨h1, h2⟩ := h a.gamma (s.xt a.resid) (key a e) (hr ▸ hw)
      obtain ⟨b, e''⟩ := ols_run s.y h1 h2
      rw [e'] at e''; cases e''
    · rw [e']
      refine ⟨⟨fun _ => ⟨⟨(ols_ok e).1, (ols_ok e).2.1⟩, fun B X hB hX => ?_⟩, fun _ => ⟨_, rfl⟩⟩, fun h => (h ⟨_, rfl⟩).elim⟩
      have hBa : B = a.gamma := funext fun j => ((key a e j (B j)).2 (hB j (a.gamma j)).1)
      have : X = s.xt a.resid := by
        rw [hBa, ← hr] at hX
        exact hX.unique hw
      rw [this]
      exact ⟨(ols_ok e').1, (ols_ok e').2.1⟩

/-- C136: with a restriction the regression before it must be possible without the restriction, and the free coefficients must be identified. -/
theorem C136_accepted_restricted (hk : 0 < k) {q : ℕ} (s : Sample g n k p) (R : Matrix (Reg g k p × Fin g) (Fin q) ℝ) (m : Option ℝ) :
    ((∃ r, restricted s R m = .ok r) ↔ (Ls.FullRank s.x ∧ WellConditioned (cross s.x) m) ∧
      ∀ B X, BestFit s.y s.x B → WithLags s.x s.lag (left s.y s.x B) X → Identified X R ∧ WellConditioned (crossR X R) m) ∧
    ((¬ ∃ r, restricted s R m = .ok r) → restricted s R m = .throws) := by
  have key : ∀ a, ols s.x s.y m = .ok a → BestFit s.y s.x a.gamma := fun a e => by
    rw [(ols_ok e).2.2.1]; exact best_of _ (ols_ok e).1
  rcases ols_total s.x s.y m with e | ⟨a, e⟩
  · rw [re_throws hk s R m e]
    refine ⟨⟨fun ⟨r, h⟩ => (by cases h), fun ⟨⟨h, h'⟩, _⟩ => ?_⟩, fun _ => rfl⟩
    obtain ⟨a, e'⟩ := ols_run s.y h h'
    rw [e] at e'; cases e'
  · rw [re_eq hk s R m a e]
    have hw := withLags_xt s a.resid
    have hr := (ols_ok e).2.2.2.1
    rcases restrictedFit_total (s.xt a.resid) s.y R m with e' | ⟨b, e'⟩
    · rw [e']
      refine ⟨⟨fun ⟨r, h⟩ => (by cases h), fun ⟨_, h⟩ => ?_⟩, fun _ => rfl⟩
      obtain ⟨h1, h2⟩ := h a.gamma (s.xt a.resid) (key a e) (hr ▸ hw)
      obtain ⟨b, e''⟩ := restrictedFit_run s.y ((identified_iff _ _).1 h1) ((design_gram (s.xt a.resid) R).symm ▸ h2)
      rw [e'] at e''; cases e''
    · rw [e']
      refine ⟨⟨fun _ => ⟨⟨(ols_ok e).1, (ols_ok e).2.1⟩, fun B X hB hX => ?_⟩, fun _ => ⟨_, rfl⟩⟩, fun h => (h ⟨_, rfl⟩).elim⟩
      have hBa : B = a.gamma := funext fun j => ((key a e j (B j)).2 (hB j (a.gamma j)).1)
      have : X = s.xt a.resid := by
        rw [hBa, ← hr] at hX
        exact hX.unique hw
      rw [this]
      exact ⟨(identified_iff _ _).2 (restrictedFit_ok e').1.1, design_gram (s.xt a.resid) R ▸ (restrictedFit_ok e').1.2⟩

end

/-! ## Examples -/

/-- Two observations, 0 and 4, and an intercept. -/
def two : Sample 1 2 1 0 := ⟨fun _ i => if i = 0 then 0 else 4, fun _ _ => 1, fun c => c.elim0⟩

/-- No restriction: the only coefficient is free. -/
def free : Matrix (Reg 1 1 0 × Fin 1) (Fin 1) ℝ := fun _ _ => 1

theorem two_rank : Ls.FullRank two.x := by
  intro b h
  funext c
  have := h 0
  simp [two] at this
  rw [show c = 0 from Subsingleton.elim _ _]
  exact this

theorem two_lags {e : Matrix (Fin 1) (Fin 2) ℝ} {X : Matrix (Fin 2) (Reg 1 1 0) ℝ} (h : WithLags two.x two.lag e X) : X = fun _ _ => 1 := by
  funext i c
  rcases c with c | c
  · rw [h.first]; rfl
  · exact c.1.elim0

theorem two_cross (X : Matrix (Fin 2) (Reg 1 1 0) ℝ) (h : X = fun _ _ => 1) : crossR X free = fun _ _ => 2 := by
  funext a b
  subst h
  simp [crossR, free, Fin.sum_univ_two, Fintype.sum_sum_type]

theorem two_identified (X : Matrix (Fin 2) (Reg 1 1 0) ℝ) (h : X = fun _ _ => 1) : Identified X free := by
  intro t t' h'
  subst h
  have := h' 0 0
  simp [expand, free, Fintype.sum_sum_type] at this
  funext a
  rw [show a = 0 from Subsingleton.elim _ _]
  exact this

/-- C136: a restriction that restricts nothing changes the variance of the coefficient: here from 2 to 1/2. -/
theorem C136_variance_violated : (∃ r, unrestrictedAr two none = .ok r ∧ r.gammavar = some fun _ _ => 2) ∧
    ∃ r, restricted two free none = .ok r ∧ r.gammavar = some fun _ _ => 1 / 2 := by
  constructor
  · obtain ⟨r, h⟩ := (C136_accepted two none).1.2 ⟨two_rank, fun m h => by cases h⟩
    obtain ⟨hB, hr, hs, V, hv, hc⟩ := C136_least_squares two none r h
    refine ⟨r, h, ?_⟩
    rw [hv]
    have hb := (hB 0 fun _ => 2).1
    simp [Ls.squares, left, two, Fin.sum_univ_two] at hb
    have hg : r.gamma (0, 0) = 2 := by nlinarith [sq_nonneg (r.gamma (0, 0) - 2)]
    have := hc 0 0 0 0
    rw [hr] at this
    simp [two, meanProducts, left, Fin.sum_univ_two, hg] at this
    congr 1
    funext a b
    rw [show a = (0, 0) from Subsingleton.elim _ _, show b = (0, 0) from Subsingleton.elim _ _]
    linarith
  · obtain ⟨r, h⟩ := (C136_accepted_restricted one_pos two free none).1.2 ⟨⟨two_rank, fun m h => by cases h⟩,
      fun B X _ hX => ⟨two_identified X (two_lags hX), fun m h => by cases h⟩⟩
    obtain ⟨B, X, V, _, hX, hv, hc⟩ := C136_restricted_variance one_pos two free none r h
    refine ⟨r, h, ?_⟩
    have := congrFun (congrFun hc 0) 0
    rw [Matrix.mul_apply, Matrix.one_apply, if_pos rfl, Fin.sum_univ_one, two_cross X (two_lags hX)] at this
    rw [hv]
    congr 1
    funext a b
    rw [show a = 0 from Subsingleton.elim _ _, show b = 0 from Subsingleton.elim _ _]
    linarith

/-- Four observations, an intercept and the residual before: the conditions of `C136_innovations` hold. -/
def four : Sample 1 4 1 1 := ⟨fun _ => ![1, -1, 2, -2], fun _ _ => 1, fun _ => 1⟩

theorem four_accepted : ∃ r, unrestrictedMa four none = .ok r := by
  refine (C136_accepted_ma one_pos four none).1.2 ⟨⟨?_, fun m h => by cases h⟩, fun B X hB hX => ⟨?_, fun m h => by cases h⟩⟩
  · intro b h
    funext c
    have := h 0
    simp [four] at this
    rw [show c = 0 from Subsingleton.elim _ _]
    exact this
  · have hb := (hB 0 fun _ => 0).1
    simp [Ls.squares, left, four, Fin.sum_univ_four] at hb
    have hg : B 0 0 = 0 := by nlinarith [sq_nonneg (B 0 0)]
    intro b h
    have h0 := h 0
    have h1 := h 1
    have x0 := hX.before 0 0 0 (by simp [four])
    have x1 := hX.lagged 1 0 0 0 (by simp [four])
    have f0 := hX.first 0 0
    have f1 := hX.first 1 0
    simp [left, four, hg] at x1 f0 f1
    simp [Fintype.sum_sum_type, Fintype.sum_prod_type, x0, x1, f0, f1] at h0 h1
    funext c
    rcases c with c | ⟨c, j⟩
    · rw [show c = 0 from Subsingleton.elim _ _]; exact h0
    · rw [show c = 0 from Subsingleton.elim _ _, show j = 0 from Subsingleton.elim _ _]
      simp only [Pi.zero_apply]
      linarith

end Ve
end LDT
