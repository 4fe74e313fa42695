import Verif.Lemmas.SurSys
import Verif.Lemmas.SurFit
import Verif.Props.Ols
/-!
# C88: systems of regressions without restrictions

`sur lu f o N0 m0 k0 y x R p storage work` is `Sur(N0, m0, k0, ...)` followed by `Calculate(y, x, storage, work, R, p)`. `IsM A M`
says that the matrix `A` of the program is well formed and holds the numbers of `M`. `lu` is what a failed factorisation leaves
in memory, `f` are the square root and Student's distribution.
-/
namespace LDT
namespace Su
open Mx Matrix Ls
open Co (part)
open Arr (Val)

section
variable {K : Type} [Field K] [LinearOrder K] [IsStrictOrderedRing K] {N m k q : Nat}

/-- What the object holds about the coefficients `B`. -/
structure Fitted (e : Est K) (Y : Matrix (Fin N) (Fin m) K) (X : Matrix (Fin N) (Fin k) K) (B : Matrix (Fin k) (Fin m) K) : Prop where
  beta : IsM e.beta B
  yhat : IsM e.yhat (fun i j => ∑ l, X i l * B l j : Matrix (Fin N) (Fin m) K)
  resid : IsM e.resid (left Y X B)
  residVar : IsM e.residVar (cov (left Y X B))

/-- The checks before the estimation are passed. -/
theorem sur_start (lu : List K → List K) (f : Fns K) (o : Opts) {N0 m0 k0 : Int} {y x : Mat K} (hy : y.rows = N ∧ y.cols = m)
    (hx : x.cols = k) (pN : 0 < N) (pm : 0 < m) (pk : 0 < k) (hN : (N : Int) ≤ N0) (hm : (m : Int) ≤ m0) (hk : (k : Int) ≤ k0)
    (R : Option (Mat K)) (maxProb : K) (hR : badR o ((k : Int) * m) R = false) (hp : o.maxIter = 0 ∨ maxProb ≠ 0)
    (storage work : List K) :
    sur lu f o N0 m0 k0 y x R maxProb storage work = (do
      let (iter, R, e) ← estimate lu f o y x R maxProb storage work
      let d ← logLDet e.residVar m work
      if o.details then do
        let det ← probs f y x (if o.restricted then R else none) work e (stdPlace N m k storage) (detPlaces N m k storage)
        let g ← goodness f.fcdf y e.resid (k * m)
        pure ⟨e, R, iter, d, some det, some g⟩
      else pure ⟨e, R, iter, d, none, none⟩) := by
  have h1 := workSize_mono o (by positivity) (by positivity) (by positivity) hN hm hk
  have h2 := storageSize_mono o (by positivity) (by positivity) (by positivity) hN hm hk
  unfold sur
  simp only [hy.1, hy.2, hx]
  rw [if_neg (by omega), if_neg (by omega), hR, if_neg (by simp), if_neg]
  rintro ⟨h3, h4⟩
  rcases hp with h | h
  · exact h3 h
  · exact h h4

theorem make_zero (a b : Bool) : Opts.make a b 0 = ⟨a, b, 0⟩ := by unfold Opts.make; simp

/-- **C88**, the estimate: with regressors none of which is a combination of the others, and residuals none of which is (or
only one equation), the coefficients of each equation are the only ones with the least sum of squares; the projections, the
residuals and their covariances belong to them; the covariance of two coefficients is the covariance of the equations times the
entry of the inverse of `X'X`; and the details - to be had if there are more observations than regressors - are the square roots of the
variances, the quotients and their probabilities, and the goodness of the fit (C94). -/
theorem C88_estimate (lu : List K → List K) (f : Fns K) {N0 m0 k0 : Int} {y x : Mat K} {Y : Matrix (Fin N) (Fin m) K}
    {X : Matrix (Fin N) (Fin k) K} (hy : IsM y Y) (hx : IsM x X) (pN : 0 < N) (pm : 0 < m) (pk : 0 < k) (hN : (N : Int) ≤ N0)
    (hm : (m : Int) ≤ m0) (hk : (k : Int) ≤ k0) (det : Bool) (maxProb : K) (storage work : List K)
    (hs : storageSize (Opts.make false det 0) N0 m0 k0 ≤ storage.length)
    (hw : workSize (Opts.make false det 0) N0 m0 k0 ≤ work.length) (hX : FullRank X)
    (hE : m = 1 ∨ ∀ B, LeastSquares Y X B → FullRank (left Y X B)) (hdt : det = true → k < N) :
    ∃ (r : Res K) (B : Matrix (Fin k) (Fin m) K) (G : Matrix (Fin k) (Fin k) K),
      sur lu f (Opts.make false det 0) N0 m0 k0 y x none maxProb storage work = .ok r ∧
      (∀ B', LeastSquares Y X B' ↔ B' = B) ∧ Fitted r.est Y X B ∧
      (∃ g : Matrix (Fin (m * k)) (Fin 1) K, IsM r.est.gamma g ∧ ∀ j l, g (number j l) 0 = B l j) ∧
      G * (Xᵀ * X) = 1 ∧
      (∃ V : Matrix (Fin (m * k)) (Fin (m * k)) K, IsM r.est.gammaVar V ∧
        ∀ j l j' l', V (number j l) (number j' l') = cov (left Y X B) j j' * G l l') ∧
      r.detS = (cov (left Y X B)).det ∧ r.iter = 0 ∧
      (det = true → ∃ d, r.details = some d ∧ Report f N B (fun l j => cov (left Y X B) j j * G l l) d) ∧
      (det = true → ∃ g, r.fit = some g ∧ GoodFit f.fcdf Y (left Y X B) k g) ∧
      (det = false → r.details = none ∧ r.fit = none) := by
  rw [make_zero] at hs hw ⊢
  have en := enough ⟨false, det, 0⟩ pm pk storage work
    (le_trans (storageSize_mono _ (by positivity) (by positivity) (by positivity) hN hm hk) hs)
    (le_trans (workSize_mono _ (by positivity) (by positivity) (by positivity) hN hm hk) hw)
  obtain ⟨ro, rg, rv⟩ := layout_room storage en.room
  have hd : (Xᵀ * X).det ≠ 0 := by
    have := gram_det_ne hX (PosDef.one (K := K) (ι := Fin N)); rwa [Matrix.mul_one] at this
  obtain ⟨e, e1, u⟩ := (estimUn_core lu hy hx pN pm pk work en.un _ ro rg rv true).1 hd
  generalize hB : (Xᵀ * X)⁻¹ * (Xᵀ * Y) = B at u
  have ls : ∀ B', LeastSquares Y X B' ↔ B' = B := by intro B'; rw [leastSquares_iff hX, hB]
  have hc : covM (Y - X * B) = cov (left Y X B) := by rw [cov_eq, left_eq]
  have ures := u.residVar
  rw [hc] at ures
  have hpd : m = 1 ∨ PosDef (cov (left Y X B)) := by
    rcases hE with h | h
    · exact Or.inl h
    · exact Or.inr ((posDef_cov pN _).2 (h B ((ls B).2 rfl)))
  have e2 := (logLDet_spec ures pm work en.mm).1 hpd
  have start := sur_start lu f ⟨false, det, 0⟩ (N0 := N0) (m0 := m0) (k0 := k0) ⟨hy.rows, hy.cols⟩ hx.cols pN pm pk hN hm hk
    none maxProb (by simp [badR]) (Or.inl rfl) storage work
  have es : estimate lu f ⟨false, det, 0⟩ y x none maxProb storage work = .ok (0, none, e) := by
    unfold estimate
    simp only [hy.rows, hy.cols, hx.cols, Bool.false_eq_true, if_false, e1, Outcome.ok_bind, Outcome.pure_eq]
  rw [es] at start
  simp only [Outcome.ok_bind, e2, Bool.false_eq_true, if_false] at start
  have fit : Fitted e Y X B := by
    refine ⟨u.beta, ?_, ?_, ures⟩
    · have := u.yhat
      have e : X * B = (fun i j => ∑ l, X i l * B l j : Matrix (Fin N) (Fin m) K) := by funext i j; rw [mul_apply]
      rw [← e]; exact this
    · rw [left_eq]; exact u.resid
  have hgv := u.gammaVar rfl
  rw [hc] at hgv
  have hG : (Xᵀ * X)⁻¹ * (Xᵀ * X) = 1 := Matrix.nonsing_inv_mul _ (isUnit_iff_ne_zero.2 hd)
  have gam : ∃ g : Matrix (Fin (m * k)) (Fin 1) K, IsM e.gamma g ∧ ∀ j l, g (number j l) 0 = B l j :=
    ⟨_, u.gamma, fun j l => by unfold vecM; rw [divNat_number, modNat_number]⟩
  have vv : ∃ V : Matrix (Fin (m * k)) (Fin (m * k)) K, IsM e.gammaVar V ∧
        ∀ j l j' l', V (number j l) (number j' l') = cov (left Y X B) j j' * (Xᵀ * X)⁻¹ l l' :=
    ⟨_, hgv, fun j l j' l' => kronM_number _ _ _ _ _ _⟩
  cases det with
  | true =>
    simp only [if_true] at start
    have dr := detPlaces_room (N := N) (m := m) (k := k) storage (en.det rfl)
    obtain ⟨v, e3, i3⟩ := variances_un (y := y) (x := x) work e hgv dr.place
    obtain ⟨d, e4, h4⟩ := probs_of_variances f hy.rows none work e u.beta dr v e3 i3
    obtain ⟨gf, e5, h5⟩ := goodness_spec f.fcdf hy fit.resid pm pk (hdt rfl)
    rw [e4] at start
    simp only [Outcome.ok_bind, e5] at start
    refine ⟨_, B, _, start, ls, fit, gam, hG, vv, rfl, rfl, fun _ => ⟨d, rfl, ?_⟩, fun _ => ⟨gf, rfl, h5⟩, fun h => by simp at h⟩
    have := h4.report
    have e5 : (fun l j => kronM (cov (left Y X B)) (Xᵀ * X)⁻¹ (number j l) (number j l) : Matrix (Fin k) (Fin m) K) =
        fun l j => cov (left Y X B) j j * (Xᵀ * X)⁻¹ l l := by
      funext l j; exact kronM_number _ _ _ _ _ _
    rw [e5] at this
    exact this
  | false =>
    simp only [Bool.false_eq_true, if_false] at start
    exact ⟨_, B, _, start, ls, fit, gam, hG, vv, rfl, rfl, fun h => by simp at h, fun h => by simp at h, fun _ => ⟨rfl, rfl⟩⟩

/-- **C88**, what is refused: regressors one of which is a combination of the others; and, with more than one equation,
residuals one of which is; details without more observations than regressors. -/
theorem C88_refused (lu : List K → List K) (f : Fns K) {N0 m0 k0 : Int} {y x : Mat K} {Y : Matrix (Fin N) (Fin m) K}
    {X : Matrix (Fin N) (Fin k) K} (hy : IsM y Y) (hx : IsM x X) (pN : 0 < N) (pm : 0 < m) (pk : 0 < k) (hN : (N : Int) ≤ N0)
    (hm : (m : Int) ≤ m0) (hk : (k : Int) ≤ k0) (det : Bool) (maxProb : K) (storage work : List K)
    (hs : storageSize (Opts.make false det 0) N0 m0 k0 ≤ storage.length)
    (hw : workSize (Opts.make false det 0) N0 m0 k0 ≤ work.length)
    (h : ¬ FullRank X ∨ (m ≠ 1 ∧ ∃ B, LeastSquares Y X B ∧ ¬ FullRank (left Y X B)) ∨ (det = true ∧ N ≤ k)) :
    sur lu f (Opts.make false det 0) N0 m0 k0 y x none maxProb storage work = .throws := by
  rw [make_zero] at hs hw ⊢
  have en := enough ⟨false, det, 0⟩ pm pk storage work
    (le_trans (storageSize_mono _ (by positivity) (by positivity) (by positivity) hN hm hk) hs)
    (le_trans (workSize_mono _ (by positivity) (by positivity) (by positivity) hN hm hk) hw)
  obtain ⟨ro, rg, rv⟩ := layout_room storage en.room
  have core := estimUn_core lu hy hx pN pm pk work en.un _ ro rg rv true
  have start := sur_start lu f ⟨false, det, 0⟩ (N0 := N0) (m0 := m0) (k0 := k0) ⟨hy.rows, hy.cols⟩ hx.cols pN pm pk hN hm hk
    none maxProb (by simp [badR]) (Or.inl rfl) storage work
  by_cases hX : FullRank X
  · have hd : (Xᵀ * X).det ≠ 0 := by
      have := gram_det_ne hX (PosDef.one (K := K) (ι := Fin N)); rwa [Matrix.mul_one] at this
    obtain ⟨e, e1, u⟩ := core.1 hd
    have h' : (m ≠ 1 ∧ ∃ B, LeastSquares Y X B ∧ ¬ FullRank (left Y X B)) ∨ (det = true ∧ N = k ∧ m = 1) := by
      rcases h.resolve_left (fun h => h hX) with h | ⟨h1, h2⟩
      · exact Or.inl h
      · have heq : N = k := le_antisymm h2 (fullRank_le hX)
        by_cases hm1 : m = 1
        · exact Or.inr ⟨h1, heq, hm1⟩
        · refine Or.inl ⟨hm1, _, (leastSquares_iff hX _).2 rfl, fun hf => ?_⟩
          exact absurd (fullRank_lt hX pm (fullRank_left (Y := Y) hX hf)) (by omega)
    rcases h' with ⟨h1, B, hB, hn⟩ | ⟨h1, h2, h3⟩
    swap
    · subst h1 h2
      have hc : covM (Y - X * ((Xᵀ * X)⁻¹ * (Xᵀ * Y))) = cov (left Y X ((Xᵀ * X)⁻¹ * (Xᵀ * Y))) := by rw [cov_eq, left_eq]
      have ures := u.residVar
      rw [hc] at ures
      have e2 := (logLDet_spec ures pm work en.mm).1 (Or.inl h3)
      have hgv := u.gammaVar rfl
      have dr := detPlaces_room (N := N) (m := m) (k := N) storage (en.det rfl)
      obtain ⟨v, e3, i3⟩ := variances_un (y := y) (x := x) work e hgv dr.place
      obtain ⟨d, e4, -⟩ := probs_of_variances f hy.rows none work e u.beta dr v e3 i3
      have e5 := goodness_throws f.fcdf hy u.resid pm pN
      have es : estimate lu f ⟨false, true, 0⟩ y x none maxProb storage work = .ok (0, none, e) := by
        unfold estimate
        simp only [hy.rows, hy.cols, hx.cols, Bool.false_eq_true, if_false, e1, Outcome.ok_bind, Outcome.pure_eq]
      rw [start, es]
      simp only [Outcome.ok_bind, e2, Bool.false_eq_true, if_false, if_true, e4, e5]
      rfl
    rw [leastSquares_iff hX] at hB
    rw [← hB] at u
    have hc : covM (Y - X * B) = cov (left Y X B) := by rw [cov_eq, left_eq]
    have ures := u.residVar
    rw [hc] at ures
    have e2 := (logLDet_spec ures pm work en.mm).2 h1 (fun h => hn ((posDef_cov pN _).1 h))
    have es : estimate lu f ⟨false, det, 0⟩ y x none maxProb storage work = .ok (0, none, e) := by
      unfold estimate
      simp only [hy.rows, hy.cols, hx.cols, Bool.false_eq_true, if_false, e1, Outcome.ok_bind, Outcome.pure_eq]
    rw [start, es]
    simp only [Outcome.ok_bind, e2]
    rfl
  · have hd : (Xᵀ * X).det = 0 := by
      have := gram_det_zero (X := X) 1 hX; rwa [Matrix.mul_one] at this
    rw [start]
    unfold estimate
    simp only [hy.rows, hy.cols, hx.cols, Bool.false_eq_true, if_false, core.2 hd]
    rfl

/-- **C88**, the sizes: nothing is calculated without observations, equations or regressors, nor for data that need more room
than the object has announced. -/
theorem C88_sizes (lu : List K → List K) (f : Fns K) (o : Opts) (N0 m0 k0 : Int) (y x : Mat K) (R : Option (Mat K)) (maxProb : K)
    (storage work : List K)
    (h : y.rows < 1 ∨ y.cols < 1 ∨ x.cols < 1 ∨ storageSize o N0 m0 k0 < storageSize o y.rows y.cols x.cols ∨
      workSize o N0 m0 k0 < workSize o y.rows y.cols x.cols) :
    sur lu f o N0 m0 k0 y x R maxProb storage work = .throws := by
  unfold sur
  by_cases h1 : y.rows < 1 ∨ y.cols < 1 ∨ x.cols < 1
  · simp only [if_pos h1]
  · simp only [if_neg h1]
    rw [if_pos (by omega)]

/-- **C88**, the announced sizes, with restrictions (`a`), details (`b`) and a search or not. -/
theorem C88_announced (a b : Bool) (n N m k : Int) :
    storageSize ⟨a, b, n⟩ N m k = k * m + k * m + (k * m) * (k * m) + N * m + N * m + m * m +
      (if b then k * m + k * m + k * m else 0) ∧
    workSize ⟨false, false, n⟩ N m k = max (k * k + k * m) (m * m) ∧
    workSize ⟨false, true, n⟩ N m k = max (max (k * k + k * m) (m * m)) (2 * ((k * m) * (k * m))) ∧
    (0 ≤ N → 0 ≤ m → 0 ≤ k → workSize ⟨true, b, n⟩ N m k =
      k * k + 2 * ((k * m) * (k * m)) + 3 * ((N * m) * (k * m)) + N * m + k * m) := by
  refine ⟨?_, rfl, ?_, ?_⟩
  · unfold storageSize
    cases b <;> simp <;> ring
  · unfold workSize
    simp; ring_nf
  · intro h1 h2 h3
    have e1 : 2 * (k * m) * (k * m) = 2 * ((k * m) * (k * m)) := by ring
    have e3 : 3 * N * m * (k * m) = 3 * ((N * m) * (k * m)) := by ring
    have a1 : 0 ≤ k * m := by positivity
    have a2 : 0 ≤ N * m := by positivity
    have a3 : 0 ≤ (N * m) * (k * m) := by positivity
    have a4 : 0 ≤ k * k := by positivity
    unfold workSize
    rw [e1, e3]
    dsimp only
    rw [if_pos rfl]
    split_ifs
    · exact max_eq_left (by omega)
    · rfl

/-- **C88**, the rows: regressors with another number of observations are refused. -/
theorem C88_rows (lu : List K → List K) (f : Fns K) {N' : Nat} {N0 m0 k0 : Int} {y x : Mat K} {Y : Matrix (Fin N) (Fin m) K}
    {X : Matrix (Fin N') (Fin k) K} (hy : IsM y Y) (hx : IsM x X) (pN : 0 < N) (pN' : 0 < N') (hne : N' ≠ N) (pm : 0 < m) (pk : 0 < k)
    (hN : (N : Int) ≤ N0) (hm : (m : Int) ≤ m0) (hk : (k : Int) ≤ k0) (det : Bool) (maxProb : K) (storage work : List K)
    (hs : storageSize (Opts.make false det 0) N0 m0 k0 ≤ storage.length)
    (hw : workSize (Opts.make false det 0) N0 m0 k0 ≤ work.length) :
    sur lu f (Opts.make false det 0) N0 m0 k0 y x none maxProb storage work = .throws := by
  rw [make_zero] at hs hw ⊢
  have en := enough ⟨false, det, 0⟩ pm pk storage work
    (le_trans (storageSize_mono _ (by positivity) (by positivity) (by positivity) hN hm hk) hs)
    (le_trans (workSize_mono _ (by positivity) (by positivity) (by positivity) hN hm hk) hw)
  have p0 : (0 : Int) ≤ (k : Int) * k := by positivity
  have p1 : (0 : Int) ≤ (k : Int) * m := by positivity
  have hun := en.un
  obtain ⟨xtx, e1, i1, -⟩ := dotAtA_isM hx (sized_part work 0 k k (by omega) (by omega)) pN' pk
  have inv := inv0_isM lu i1 pk
  have start := sur_start lu f ⟨false, det, 0⟩ (N0 := N0) (m0 := m0) (k0 := k0) ⟨hy.rows, hy.cols⟩ hx.cols pN pm pk hN hm hk
    none maxProb (by simp [badR]) (Or.inl rfl) storage work
  have hu : estimUn lu true y x work (layout (N : Int) m k storage) = .throws := by
    unfold estimUn
    simp only [hx.cols, hy.cols, e1, Outcome.ok_bind]
    by_cases hd : (Xᵀ * X).det = 0
    · rw [inv.2 hd]; simp
    · obtain ⟨xi, e2, i2, -⟩ := inv.1 hd
      rw [e2]
      simp only [Outcome.ok_bind, ne_eq, not_true, if_false]
      unfold Mat.trDot
      rw [if_pos (by rw [hx.rows, hy.rows]; exact_mod_cast hne)]
      rfl
  rw [start]
  unfold estimate
  simp only [hy.rows, hy.cols, hx.cols, Bool.false_eq_true, if_false, hu]
  rfl

end

/-! ## A concrete case: two equations, one regressor -/

/-- Three ones. -/
def exX1 : Matrix (Fin 3) (Fin 1) ℚ := fun _ _ => 1
/-- Two equations. -/
def exY2 : Matrix (Fin 3) (Fin 2) ℚ := !![0, 1; 1, 0; 2, 2]

theorem ex_x1 : IsM (⟨3, 1, some [1, 1, 1]⟩ : Mat ℚ) exX1 := isM_list 3 1 _ rfl _ (by decide)
theorem ex_y2 : IsM (⟨3, 2, some [0, 1, 2, 1, 0, 2]⟩ : Mat ℚ) exY2 := isM_list 3 2 _ rfl _ (by decide)

theorem ex_rank1 : FullRank exX1 := by
  intro b h
  have h0 := h 0
  simp [exX1] at h0
  funext l
  fin_cases l
  exact h0

theorem ex_left (B : Matrix (Fin 1) (Fin 2) ℚ) : FullRank (left exY2 exX1 B) := by
  intro v h
  have h0 := h 0
  have h1 := h 1
  have h2 := h 2
  simp [left, exX1, exY2, Fin.sum_univ_two] at h0 h1 h2
  funext l
  fin_cases l
  · show v 0 = 0; linarith
  · show v 1 = 0; linarith

/-- The numbers of the concrete case: both means are one. -/
example (lu : List ℚ → List ℚ) (f : Fns ℚ) : ∃ r : Res ℚ, sur lu f (Opts.make false true 0) 5 2 3 ⟨3, 2, some [0, 1, 2, 1, 0, 2]⟩
    ⟨3, 1, some [1, 1, 1]⟩ none 0 (List.replicate 90 0) (List.replicate 80 0) = .ok r ∧ IsM r.est.beta !![1, 1] := by
  obtain ⟨r, B, G, e, ls, h, -⟩ := C88_estimate (N0 := 5) (m0 := 2) (k0 := 3) lu f ex_y2 ex_x1 (by decide) (by decide) (by decide) (by decide) (by decide) (by decide)
    true 0 (List.replicate 90 0) (List.replicate 80 0) (by decide) (by decide) ex_rank1 (Or.inr fun B _ => ex_left B) (by decide)
  refine ⟨r, e, ?_⟩
  have : LeastSquares exY2 exX1 !![1, 1] := by
    intro j b
    simp only [squares, misfit, Fin.sum_univ_three, exX1, exY2]
    fin_cases j <;> simp <;> nlinarith [sq_nonneg (b 0 - 1)]
  rw [(ls _).1 this]
  exact h.beta

end Su
end LDT
