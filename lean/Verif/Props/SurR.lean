import Verif.Props.Sur
/-!
# C89: systems of regressions with restrictions `vec B = R g`
-/
namespace LDT
namespace Su
open Mx Matrix Ls
open Co (part)
open Arr (Val)

section
variable {K : Type} [Field K] [LinearOrder K] [IsStrictOrderedRing K] {N m k q : Nat}

theorem cov_ne (pN : 0 < N) {E : Matrix (Fin N) (Fin m) K} (h : FullRank E) : (cov E).det ≠ 0 :=
  ((posDef_cov pN E).2 h).det_ne

theorem badR_false {R : Mat K} (hr : R.rows = (k : Int) * m) (hc : R.cols ≤ (k : Int) * m) (o : Opts) (ho : o.maxIter = 0) :
    badR o ((k : Int) * m) (some R) = false := by
  unfold badR
  simp only [ho, hr]
  simp only [ne_eq, not_true, decide_false, Bool.false_and, Bool.false_or, gt_iff_lt, decide_eq_false_iff_not, not_lt]
  exact hc

/-- From the restricted estimation to the object. -/
theorem Re.fitted {e : Est K} {Y : Matrix (Fin N) (Fin m) K} {X : Matrix (Fin N) (Fin k) K} {R : Matrix (Fin (m * k)) (Fin q) K}
    {W : Matrix (Fin m) (Fin m) K} (h : Re e Y X R W) : Fitted e Y X (coef R fun p => gammaR W X R Y p 0) := by
  rw [← coef_eq]
  refine ⟨h.beta, ?_, ?_, ?_⟩
  · have := h.yhat
    have e : X * unvec (R * gammaR W X R Y) = (fun i j => ∑ l, X i l * unvec (R * gammaR W X R Y) l j : Matrix (Fin N) (Fin m) K) := by
      funext i j; rw [mul_apply]
    rw [← e]; exact this
  · rw [left_eq]; exact h.resid
  · rw [left_eq, cov_eq]; exact h.residVar

/-- **C89**, the estimate: with regressors and restrictions whose columns are independent, and independent residuals of the
equation by equation regression, the free coefficients are the only ones with the least sum of squares of the whole system,
weighted with the inverse of the covariances of those residuals; all coefficients are `R` times them; the covariances of the free
coefficients are the inverse of their information; and the details use the diagonal of `R V R'`. -/
theorem C89_estimate_partial (lu : List K → List K) (f : Fns K) {N0 m0 k0 : Int} {y x Rs : Mat K} {Y : Matrix (Fin N) (Fin m) K}
    {X : Matrix (Fin N) (Fin k) K} {R : Matrix (Fin (m * k)) (Fin q) K} (hy : IsM y Y) (hx : IsM x X) (hR : IsM Rs R) (pN : 0 < N)
    (pm : 0 < m) (pk : 0 < k) (pq : 0 < q) (hN : (N : Int) ≤ N0)
    (hm : (m : Int) ≤ m0) (hk : (k : Int) ≤ k0) (det : Bool) (maxProb : K) (storage work : List K)
    (hs : storageSize (Opts.make true det 0) N0 m0 k0 ≤ storage.length)
    (hw : workSize (Opts.make true det 0) N0 m0 k0 ≤ work.length) (hX : FullRank X) (rR : FullRank R) (hq : q ≤ m * k)
    (hE : ∀ B, LeastSquares Y X B → FullRank (left Y X B)) :
    ∃ (r : Res K) (B0 : Matrix (Fin k) (Fin m) K) (W : Matrix (Fin m) (Fin m) K) (g : Fin q → K) (V : Matrix (Fin q) (Fin q) K),
      sur lu f (Opts.make true det 0) N0 m0 k0 y x (some Rs) maxProb storage work = .ok r ∧
      LeastSquares Y X B0 ∧ W * cov (left Y X B0) = 1 ∧
      (∀ g', system W (left Y X (coef R g)) ≤ system W (left Y X (coef R g'))) ∧
      (∀ g', (∀ g'', system W (left Y X (coef R g')) ≤ system W (left Y X (coef R g''))) → g' = g) ∧
      IsM r.est.gamma (fun p _ => g p : Matrix (Fin q) (Fin 1) K) ∧ Fitted r.est Y X (coef R g) ∧
      V * information W X R = 1 ∧ IsM r.est.gammaVar V ∧
      r.detS = (cov (left Y X (coef R g))).det ∧ r.iter = 0 ∧
      (det = true → ∃ d, r.details = some d ∧
        Report f N (coef R g) (spread R V) d) ∧
      (det = true → ∃ gf, r.fit = some gf ∧ GoodFit f.fcdf Y (left Y X (coef R g)) k gf) ∧
      (det = false → r.details = none ∧ r.fit = none) := by
  rw [make_zero] at hs hw ⊢
  have en := enough ⟨true, det, 0⟩ pm pk storage work
    (le_trans (storageSize_mono _ (by positivity) (by positivity) (by positivity) hN hm hk) hs)
    (le_trans (workSize_mono _ (by positivity) (by positivity) (by positivity) hN hm hk) hw)
  obtain ⟨ro, rg, rv⟩ := layout_room storage en.room
  have hd : (Xᵀ * X).det ≠ 0 := by
    have := gram_det_ne hX (PosDef.one (K := K) (ι := Fin N)); rwa [Matrix.mul_one] at this
  obtain ⟨e0, e1, u⟩ := (estimUn_core lu hy hx pN pm pk work en.un _ ro rg rv false).1 hd
  have hls : LeastSquares Y X ((Xᵀ * X)⁻¹ * (Xᵀ * Y)) := (leastSquares_iff hX _).2 rfl
  have hfr := hE _ hls
  have hfl := fullRank_left (Y := Y) hX hfr
  generalize hB : (Xᵀ * X)⁻¹ * (Xᵀ * Y) = B at u hls hfr
  have hc : covM (Y - X * B) = cov (left Y X B) := by rw [cov_eq, left_eq]
  have ures := u.residVar
  rw [hc] at ures
  have hpd := (posDef_cov pN _).2 hfr
  have hcd := hpd.det_ne
  have hW : PosDef (cov (left Y X B))⁻¹ := hpd.inv
  have hg := gramR_det_ne hW hX rR
  obtain ⟨e, e2, re⟩ := (estimR_core lu hy hx hR pN pm pk pq hq work (en.re rfl q hq) e0 u.room ures hcd).1 hg
  have best := best_system hW hX rR Y
  have fit := re.fitted
  have hinf := Matrix.nonsing_inv_mul _ (isUnit_iff_ne_zero.2 hg)
  have hWc : (cov (left Y X B))⁻¹ * cov (left Y X B) = 1 := Matrix.nonsing_inv_mul _ (isUnit_iff_ne_zero.2 hcd)
  generalize (cov (left Y X B))⁻¹ = W at *
  have e3 := (logLDet_spec fit.residVar pm work en.mm).1 (Or.inr ((posDef_cov pN _).2 (hfl _)))
  have c1 : (k : Int) * m = ((m * k : Nat) : Int) := by push_cast; ring
  have start := sur_start lu f ⟨true, det, 0⟩ (N0 := N0) (m0 := m0) (k0 := k0) ⟨hy.rows, hy.cols⟩ hx.cols pN pm pk hN hm hk
    (some Rs) maxProb (badR_false (by rw [hR.rows, c1]) (by rw [hR.cols, c1]; exact_mod_cast hq) _ rfl) (Or.inl rfl) storage work
  have es : estimate lu f ⟨true, det, 0⟩ y x (some Rs) maxProb storage work = .ok (0, some Rs, e) := by
    unfold estimate
    simp only [hy.rows, hy.cols, hx.cols, if_true, e1, e2, Outcome.ok_bind, Outcome.pure_eq]
  rw [es] at start
  simp only [Outcome.ok_bind, e3, if_true] at start
  have hgam : IsM e.gamma (fun p _ => gammaR W X R Y p 0 : Matrix (Fin q) (Fin 1) K) := by
    have : (fun p _ => gammaR W X R Y p 0 : Matrix (Fin q) (Fin 1) K) = gammaR W X R Y := by
      funext p z; rw [Subsingleton.elim z 0]
    rw [this]; exact re.gamma
  rw [← information_eq] at hinf
  have hgv := re.gammaVar
  rw [← information_eq] at hgv
  have bu : ∀ g' : Fin q → K, (∀ g'', system W (left Y X (coef R g')) ≤ system W (left Y X (coef R g''))) →
      g' = fun p => gammaR W X R Y p 0 := fun g' h => (best g').2 (h _)
  cases det with
  | true =>
    simp only [if_true] at start
    have dr := detPlaces_room (N := N) (m := m) (k := k) storage (en.det rfl)
    obtain ⟨v, e4, i4⟩ := variances_re hy.cols hx.cols pm pk pq work (en.var rfl q hq) e hR hgv re.gamma dr.place
    obtain ⟨d, e5, h5⟩ := probs_of_variances f hy.rows (some Rs) work e fit.beta dr v e4 i4
    obtain ⟨gf, e6, h6⟩ := goodness_spec f.fcdf hy fit.resid pm pk (fullRank_lt hX pm hfl)
    rw [e5] at start
    simp only [Outcome.ok_bind, e6] at start
    refine ⟨_, B, W, _, _, start, hls, hWc, fun g' => (best g').1, bu, hgam, fit, hinf, hgv, rfl, rfl, fun _ => ⟨d, rfl, ?_⟩,
      fun _ => ⟨gf, rfl, h6⟩, fun h => by simp at h⟩
    have := h5.report
    rw [spread_eq] at this
    exact this
  | false =>
    simp only [Bool.false_eq_true, if_false] at start
    exact ⟨_, B, W, _, _, start, hls, hWc, fun g' => (best g').1, bu, hgam, fit, hinf, hgv, rfl, rfl, fun h => by simp at h,
      fun h => by simp at h, fun _ => ⟨rfl, rfl⟩⟩

/-- The residuals of least squares are orthogonal to the regressors: no other coefficients are better in the whole system. -/
theorem system_least {W : Matrix (Fin m) (Fin m) K} (hW : PosDef W) {X : Matrix (Fin N) (Fin k) K} (hX : FullRank X)
    {Y : Matrix (Fin N) (Fin m) K} {B0 : Matrix (Fin k) (Fin m) K} (h : LeastSquares Y X B0) (B : Matrix (Fin k) (Fin m) K) :
    system W (left Y X B0) ≤ system W (left Y X B) := by
  have hn : Xᵀ * left Y X B0 = 0 := by rw [(leastSquares_iff hX B0).1 h]; exact normal_un hX
  have e : left Y X B = left Y X B0 + X * (B0 - B) := by
    rw [left_eq, left_eq, Matrix.mul_sub]; abel
  rw [e]
  generalize left Y X B0 = E at *
  have hs : ∀ E : Matrix (Fin N) (Fin m) K, system W E = (E * W * Eᵀ).trace := by
    intro E
    unfold system weighted Matrix.trace
    refine Finset.sum_congr rfl fun i _ => ?_
    rw [diag_apply, mul_apply, Finset.sum_comm]
    refine Finset.sum_congr rfl fun j _ => ?_
    rw [mul_apply, Finset.sum_mul]
    rfl
  have h0 : 0 ≤ system W (X * (B0 - B)) := Finset.sum_nonneg fun i _ => hW.nonneg _
  have c1 : (X * (B0 - B) * W * Eᵀ).trace = 0 := by
    rw [Matrix.mul_assoc, Matrix.mul_assoc, trace_mul_comm, Matrix.mul_assoc]
    have : Eᵀ * X = 0 := by
      have := congrArg Matrix.transpose hn
      rwa [transpose_mul, transpose_transpose, transpose_zero] at this
    rw [Matrix.mul_assoc W, this, Matrix.mul_zero, Matrix.mul_zero, trace_zero]
  generalize X * (B0 - B) = D at *
  have c2 : (E * W * Dᵀ).trace = 0 := by
    rw [← trace_transpose, transpose_mul, transpose_mul, transpose_transpose, hW.transpose, ← Matrix.mul_assoc]
    exact c1
  rw [hs (E + D), transpose_add, Matrix.add_mul, Matrix.add_mul, Matrix.mul_add, Matrix.mul_add, trace_add, trace_add, trace_add, c1, c2,
    ← hs, ← hs]
  linarith

/-- **C89**, no restrictions: if `R` is the identity, the coefficients are those of the equation by equation regression,
whatever the weights. -/
theorem C89_identity (lu : List K → List K) (f : Fns K) {N0 m0 k0 : Int} {y x Rs : Mat K} {Y : Matrix (Fin N) (Fin m) K}
    {X : Matrix (Fin N) (Fin k) K} (hy : IsM y Y) (hx : IsM x X) (hR : IsM Rs (1 : Matrix (Fin (m * k)) (Fin (m * k)) K))
    (pN : 0 < N) (pm : 0 < m) (pk : 0 < k) (hN : (N : Int) ≤ N0)
    (hm : (m : Int) ≤ m0) (hk : (k : Int) ≤ k0) (det : Bool) (maxProb : K) (storage work : List K)
    (hs : storageSize (Opts.make true det 0) N0 m0 k0 ≤ storage.length)
    (hw : workSize (Opts.make true det 0) N0 m0 k0 ≤ work.length) (hX : FullRank X)
    (hE : ∀ B, LeastSquares Y X B → FullRank (left Y X B)) :
    ∃ (r : Res K) (B : Matrix (Fin k) (Fin m) K), sur lu f (Opts.make true det 0) N0 m0 k0 y x (some Rs) maxProb storage work = .ok r ∧
      LeastSquares Y X B ∧ Fitted r.est Y X B := by
  obtain ⟨r, B0, W, g, V, e, ls, hW, b, bu, -, fit, -⟩ := C89_estimate_partial lu f hy hx hR pN pm pk (Nat.mul_pos pm pk) hN hm hk det
    maxProb storage work hs hw hX (by
      intro v h; funext i; have := h i; simpa [Matrix.one_apply] using this) le_rfl hE
  have hpd : PosDef W := by
    have : W = (cov (left Y X B0))⁻¹ := (Matrix.inv_eq_left_inv hW).symm
    rw [this]; exact ((posDef_cov pN _).2 (hE _ ls)).inv
  have hc : coef (1 : Matrix (Fin (m * k)) (Fin (m * k)) K) (fun p => B0 p.modNat p.divNat) = B0 := by
    funext l j
    unfold coef
    simp [Matrix.one_apply]
  have := bu (fun p => B0 p.modNat p.divNat) (fun g'' => by rw [hc]; exact system_least hpd hX ls _)
  rw [← this, hc] at fit
  exact ⟨r, B0, e, ls, fit⟩

/-- **C89**, what is refused: dependent regressors; dependent restrictions; restrictions for another number of coefficients; more
free coefficients than coefficients. -/
theorem C89_refused (lu : List K → List K) (f : Fns K) {a : Nat} {N0 m0 k0 : Int} {y x Rs : Mat K} {Y : Matrix (Fin N) (Fin m) K}
    {X : Matrix (Fin N) (Fin k) K} {R : Matrix (Fin a) (Fin q) K} (hy : IsM y Y) (hx : IsM x X) (hR : IsM Rs R) (pN : 0 < N)
    (pm : 0 < m) (pk : 0 < k) (pq : 0 < q) (hN : (N : Int) ≤ N0)
    (hm : (m : Int) ≤ m0) (hk : (k : Int) ≤ k0) (det : Bool) (maxProb : K) (storage work : List K)
    (hs : storageSize (Opts.make true det 0) N0 m0 k0 ≤ storage.length)
    (hw : workSize (Opts.make true det 0) N0 m0 k0 ≤ work.length)
    (h : ¬ FullRank X ∨ a ≠ m * k ∨ m * k < q ∨ ¬ FullRank R ∧ ∀ B, LeastSquares Y X B → FullRank (left Y X B)) :
    sur lu f (Opts.make true det 0) N0 m0 k0 y x (some Rs) maxProb storage work = .throws := by
  rw [make_zero] at hs hw ⊢
  have c1 : (k : Int) * m = ((m * k : Nat) : Int) := by push_cast; ring
  by_cases hb : a ≠ m * k ∨ m * k < q
  · have h1 := workSize_mono ⟨true, det, 0⟩ (by positivity) (by positivity) (by positivity) hN hm hk
    have h2 := storageSize_mono ⟨true, det, 0⟩ (by positivity) (by positivity) (by positivity) hN hm hk
    unfold sur
    simp only [hy.rows, hy.cols, hx.cols]
    rw [if_neg (by omega), if_neg (by omega), if_pos]
    unfold badR
    have : Rs.rows ≠ (k : Int) * m ∨ Rs.cols > (k : Int) * m := by
      rw [hR.rows, hR.cols, c1]
      rcases hb with hb | hb
      · left; exact_mod_cast hb
      · right; exact_mod_cast hb
    simpa using this
  · push Not at hb
    obtain ⟨ha, hq⟩ := hb
    subst ha
    have en := enough ⟨true, det, 0⟩ pm pk storage work
      (le_trans (storageSize_mono _ (by positivity) (by positivity) (by positivity) hN hm hk) hs)
      (le_trans (workSize_mono _ (by positivity) (by positivity) (by positivity) hN hm hk) hw)
    obtain ⟨ro, rg, rv⟩ := layout_room storage en.room
    have core := estimUn_core lu hy hx pN pm pk work en.un _ ro rg rv false
    have start := sur_start lu f ⟨true, det, 0⟩ (N0 := N0) (m0 := m0) (k0 := k0) ⟨hy.rows, hy.cols⟩ hx.cols pN pm pk hN hm hk
      (some Rs) maxProb (badR_false (by rw [hR.rows, c1]) (by rw [hR.cols, c1]; exact_mod_cast hq) _ rfl) (Or.inl rfl) storage work
    by_cases hX : FullRank X
    · have h' : ¬ FullRank R ∧ ∀ B, LeastSquares Y X B → FullRank (left Y X B) := by
        rcases h with h | h | h | h
        · exact absurd hX h
        · exact absurd rfl h
        · omega
        · exact h
      have hd : (Xᵀ * X).det ≠ 0 := by
        have := gram_det_ne hX (PosDef.one (K := K) (ι := Fin N)); rwa [Matrix.mul_one] at this
      obtain ⟨e0, e1, u⟩ := core.1 hd
      have hfr := h'.2 _ ((leastSquares_iff hX _).2 rfl)
      have hc : covM (Y - X * ((Xᵀ * X)⁻¹ * (Xᵀ * Y))) = cov (left Y X ((Xᵀ * X)⁻¹ * (Xᵀ * Y))) := by rw [cov_eq, left_eq]
      have ures := u.residVar
      rw [hc] at ures
      have e2 := (estimR_core lu hy hx hR pN pm pk pq hq work (en.re rfl q hq) e0 u.room ures (cov_ne pN hfr)).2
        (gramR_det_zero _ X h'.1)
      rw [start]
      unfold estimate
      simp only [hy.rows, hy.cols, hx.cols, if_true, e1, Outcome.ok_bind, e2]
      rfl
    · have hd : (Xᵀ * X).det = 0 := by
        have := gram_det_zero (X := X) 1 hX; rwa [Matrix.mul_one] at this
      rw [start]
      unfold estimate
      simp only [hy.rows, hy.cols, hx.cols, if_true, core.2 hd]
      rfl

end

/-! ## A concrete case: two equations with the same constant -/

/-- `B = (g, g)`. -/
def exR : Matrix (Fin (2 * 1)) (Fin 1) ℚ := fun _ _ => 1

theorem ex_R : IsM (⟨2, 1, some [1, 1]⟩ : Mat ℚ) exR := isM_list 2 1 _ rfl _ (by decide)

theorem ex_rankR : FullRank exR := by
  intro b h
  have h0 := h 0
  simp [exR] at h0
  funext l
  fin_cases l
  exact h0

example (lu : List ℚ → List ℚ) (f : Fns ℚ) : ∃ (r : Res ℚ) (g : Fin 1 → ℚ), sur lu f (Opts.make true true 0) 3 2 1
    ⟨3, 2, some [0, 1, 2, 1, 0, 2]⟩ ⟨3, 1, some [1, 1, 1]⟩ (some ⟨2, 1, some [1, 1]⟩) 0 (List.replicate 40 0) (List.replicate 60 0) = .ok r ∧
    Fitted r.est exY2 exX1 (coef exR g) := by
  obtain ⟨r, B0, W, g, V, e, -, -, -, -, -, h, -⟩ := C89_estimate_partial (N0 := 3) (m0 := 2) (k0 := 1) lu f ex_y2 ex_x1 ex_R
    (by decide) (by decide) (by decide) (by decide) (by decide) (by decide) (by decide)
    true 0 (List.replicate 40 0) (List.replicate 60 0) (by decide) (by decide) ex_rank1 ex_rankR (by decide) (fun B _ => ex_left B)
  exact ⟨r, g, e, h⟩

/-! ## Dependent residuals: the failed inversion is not noticed -/

/-- A constant for two observations. -/
def badX : Matrix (Fin 2) (Fin 1) ℚ := fun _ _ => 1
/-- The second equation is one more than twice the first. -/
def badY : Matrix (Fin 2) (Fin 2) ℚ := !![0, 1; 2, 5]

theorem bad_x : IsM (⟨2, 1, some [1, 1]⟩ : Mat ℚ) badX := isM_list 2 1 _ rfl _ (by decide)
theorem bad_y : IsM (⟨2, 2, some [0, 2, 1, 5]⟩ : Mat ℚ) badY := isM_list 2 2 _ rfl _ (by decide)
theorem bad_R : IsM (⟨2, 2, some [1, 0, 0, 1]⟩ : Mat ℚ) (1 : Matrix (Fin (2 * 1)) (Fin (2 * 1)) ℚ) :=
  isM_list 2 2 _ rfl _ (by decide)

theorem bad_rank : FullRank badX := by
  intro b h
  have h0 := h 0
  simp [badX] at h0
  funext l
  fin_cases l
  exact h0

theorem bad_least : LeastSquares badY badX !![1, 3] := by
  intro j b
  simp only [squares, misfit, Fin.sum_univ_two, badX, badY]
  fin_cases j <;> simp <;> nlinarith [sq_nonneg (b 0 - 1), sq_nonneg (b 0 - 3)]

theorem mem_two {A : Mat ℚ} {M : Matrix (Fin 2) (Fin 2) ℚ} (h : IsM A M) :
    ∃ rest, A.mem = [M 0 0, M 1 0, M 0 1, M 1 1] ++ rest := by
  have h1 := h.cell 0 0
  have h2 := h.cell 1 0
  have h3 := h.cell 0 1
  have h4 := h.cell 1 1
  simp only [Fin.val_zero, Fin.val_one, mul_zero, mul_one, add_zero, zero_add] at h1 h2 h3 h4
  generalize A.mem = l at *
  match l with
  | a :: b :: c :: d :: t =>
    simp at h1 h2 h3 h4
    exact ⟨t, by simp [h1, h2, h3, h4]⟩
  | [] => simp at h1
  | [_] => simp at h2
  | [_, _] => simp at h3
  | [_, _, _] => simp at h4

/-- What is in memory after the failed factorisation of `[1 2; 2 4]`. -/
def badW : Matrix (Fin 2) (Fin 2) ℚ := !![2, 4; 1 / 2, 0]

theorem bad_gram : gramR badW badX (1 : Matrix (Fin (2 * 1)) (Fin (2 * 1)) ℚ) = !![4, 8; 1, 0] := by decide +kernel

theorem bad_inv : (!![4, 8; 1, 0] : Matrix (Fin (2 * 1)) (Fin (2 * 1)) ℚ)⁻¹ = !![0, 1; 1 / 8, -1 / 2] :=
  Matrix.inv_eq_left_inv (by decide +kernel)

theorem bad_gamma : gammaR badW badX (1 : Matrix (Fin (2 * 1)) (Fin (2 * 1)) ℚ) badY = !![8; -25 / 8] := by
  unfold gammaR
  rw [bad_gram, bad_inv]
  decide +kernel

theorem bad_coef : coef (1 : Matrix (Fin (2 * 1)) (Fin (2 * 1)) ℚ)
    (fun p => (!![8; -25 / 8] : Matrix (Fin (2 * 1)) (Fin 1) ℚ) p 0) = !![8, -25 / 8] := by decide +kernel

theorem bad_left : FullRank (left badY badX !![8, -25 / 8]) := by
  intro v h
  have h0 := h 0
  have h1 := h 1
  simp [left, badX, badY, Fin.sum_univ_two] at h0 h1
  funext l
  fin_cases l
  · show v 0 = 0; linarith
  · show v 1 = 0; linarith

theorem bad_normal : (badXᵀ * badX).det ≠ 0 := by
  have := gram_det_ne bad_rank (PosDef.one (K := ℚ) (ι := Fin 2)); rwa [Matrix.mul_one] at this

theorem bad_cov : cov (left badY badX !![1, 3]) = !![1, 2; 2, 4] := by decide +kernel

/-- **C89**, violated: the residuals of the second equation are twice those of the first, so that their covariances
`[1 2; 2 4]` have no inverse; the failure is not looked at, and the leftovers `[2 4; 1/2 0]` of the factorisation are used as
weights. Although `R` is the identity, the coefficients are `8` and `-25/8` instead of the means `1` and `3`. -/
theorem C89_estimate_violated (f : Fns ℚ) (lu : List ℚ → List ℚ) (hlu : ∀ rest, lu ([1, 2, 2, 4] ++ rest) = [2, 1 / 2, 4, 0] ++ rest) :
    ∃ r : Res ℚ, sur lu f (Opts.make true false 0) 2 2 1 ⟨2, 2, some [0, 2, 1, 5]⟩ ⟨2, 1, some [1, 1]⟩
      (some ⟨2, 2, some [1, 0, 0, 1]⟩) 0 (List.replicate 40 0) (List.replicate 60 0) = .ok r ∧
      LeastSquares badY badX !![1, 3] ∧ IsM r.est.beta !![8, -25 / 8] := by
  rw [make_zero]
  have en := enough (N := 2) (m := 2) (k := 1) ⟨true, false, 0⟩ (by decide) (by decide) (List.replicate 40 (0 : ℚ)) (List.replicate 60 (0 : ℚ))
    (by decide) (by decide)
  obtain ⟨ro, rg, rv⟩ := layout_room (List.replicate 40 (0 : ℚ)) en.room
  obtain ⟨e0, e1, u⟩ := (estimUn_core lu bad_y bad_x (by decide) (by decide) (by decide) _ en.un _ ro rg rv false).1 bad_normal
  rw [← (leastSquares_iff bad_rank _).1 bad_least] at u
  have ures := u.residVar
  rw [← left_eq, ← cov_eq, bad_cov] at ures
  obtain ⟨rest, hm⟩ := mem_two ures
  have hi : inv0 lu e0.residVar = .ok (1, { e0.residVar with data := some ([2, 1 / 2, 4, 0] ++ rest) }) := by
    obtain ⟨e, sq⟩ := square_eq ures
    have hdet : (square e0.residVar).det = 0 := by
      rw [sq, det_submatrix_equiv_self]; simp [det_fin_two]; norm_num
    have hsz := ures.wf.size
    rw [ures.rows, ures.cols] at hsz
    unfold inv0
    rw [if_neg (by rw [ures.rows]; omega), if_neg (by rw [hdet]; simp), hm]
    have := hlu rest
    simp only [Matrix.of_apply, Matrix.cons_val] at this ⊢
    simp only [List.cons_append, List.nil_append] at this ⊢
    rw [this]
  have hW : IsM { e0.residVar with data := some ([2, 1 / 2, 4, 0] ++ rest) } badW := by
    refine isM_of_cells ⟨⟨ures.wf.rows_nonneg, ures.wf.cols_nonneg, rfl, ?_⟩, ures.rows, ures.cols⟩ ?_
    · simp only [ures.rows, ures.cols, Mat.mem, Option.getD_some, List.length_append, List.length_cons, List.length_nil]
      push_cast; omega
    · intro i j
      fin_cases i <;> fin_cases j <;> simp [Mat.mem, badW]
  obtain ⟨e, e2, re⟩ := (estimR_weights lu bad_y bad_x bad_R (by decide) (by decide) (by decide) (by decide) (by decide) _
    (en.re rfl 2 (by decide)) e0 u.room 1 hi hW).1 (by rw [bad_gram]; simp [det_fin_two])
  have fit := re.fitted
  rw [bad_gamma, bad_coef] at fit
  have e3 := (logLDet_spec fit.residVar (by decide) _ en.mm).1 (Or.inr ((posDef_cov (by decide) _).2 bad_left))
  have start := sur_start (N := 2) (m := 2) (k := 1) lu f ⟨true, false, 0⟩ (N0 := 2) (m0 := 2) (k0 := 1) ⟨bad_y.rows, bad_y.cols⟩ bad_x.cols
    (by decide) (by decide) (by decide) (by decide) (by decide) (by decide)
    (some ⟨2, 2, some [1, 0, 0, 1]⟩) 0 (by decide) (Or.inl rfl) (List.replicate 40 0) (List.replicate 60 0)
  have es : estimate lu f ⟨true, false, 0⟩ ⟨2, 2, some [0, 2, 1, 5]⟩ ⟨2, 1, some [1, 1]⟩ (some ⟨2, 2, some [1, 0, 0, 1]⟩) 0
      (List.replicate 40 0) (List.replicate 60 0) = .ok (0, some ⟨2, 2, some [1, 0, 0, 1]⟩, e) := by
    unfold estimate
    simp only [if_true]
    have e1' : estimUn lu false ⟨2, 2, some [0, 2, 1, 5]⟩ ⟨2, 1, some [1, 1]⟩ (List.replicate 60 0) (layout 2 2 1 (List.replicate 40 0)) =
      .ok e0 := e1
    simp only [e1', e2, Outcome.ok_bind, Outcome.pure_eq]
  rw [es] at start
  simp only [Outcome.ok_bind] at start
  rw [e3] at start
  exact ⟨_, start, bad_least, fit.beta⟩

end Su
end LDT
