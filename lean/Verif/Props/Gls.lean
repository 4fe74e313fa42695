import Verif.Props.Ols
/-!
# C85: generalised least squares
-/
namespace LDT
namespace Ls
open Mx Matrix
open Co (part)

section
variable {K : Type} [Field K] [DecidableEq K] {N k m : Nat}

theorem part_length (l : List K) (q n : Int) (h0 : 0 ≤ q) (hn : 0 ≤ n) (h : q + n ≤ l.length) :
    ((part l q n).length : Int) = n := by
  unfold part
  rw [List.length_take, List.length_drop]
  omega

/-- The weights: the inverse of `omega`, or `omega` itself. -/
noncomputable def weights (isOmegaInv : Bool) (O : Matrix (Fin N) (Fin N) K) : Matrix (Fin N) (Fin N) K :=
  if isOmegaInv then O else O⁻¹

/-- The estimate, for arrays of the announced sizes. -/
theorem gls_core {y x omega : Mat K} {Y : Matrix (Fin N) (Fin m) K} {X : Matrix (Fin N) (Fin k) K}
    {O : Matrix (Fin N) (Fin N) K} (hy : IsM y Y) (hx : IsM x X) (ho : IsM omega O)
    (pm : 0 < m) (pk : 0 < k) (hkN : k ≤ N) (storage work : List K) (resid sigma isInv : Bool)
    (hs : (k : Int) * m + (if resid || sigma then (N : Int) * m else 0) + (if sigma then (m : Int) * m else 0) ≤ storage.length)
    (hw : (if isInv then (k : Int) * k else (N : Int) * N) + (k : Int) * k + 2 * k * N ≤ work.length) :
    (isInv = true ∨ O.det ≠ 0 → (Xᵀ * weights isInv O * X).det ≠ 0 →
      ∃ fit omega', gls N m k resid sigma isInv y x omega storage work = .ok (fit, omega') ∧
        IsM fit.beta ((Xᵀ * weights isInv O * X)⁻¹ * (Xᵀ * weights isInv O) * Y) ∧
        Rest fit (Y - X * ((Xᵀ * weights isInv O * X)⁻¹ * (Xᵀ * weights isInv O) * Y)) resid sigma ∧
        IsM omega' (weights isInv O)) ∧
    (isInv = false ∧ O.det = 0 ∨ (Xᵀ * weights isInv O * X).det = 0 →
      gls N m k resid sigma isInv y x omega storage work = .throws) := by
  have pN : 0 < N := by omega
  have p0 : (0 : Int) ≤ (k : Int) * k := by positivity
  have p1 : (0 : Int) ≤ (k : Int) * N := by positivity
  have p2 : (0 : Int) ≤ (N : Int) * N := by positivity
  have p3 : (0 : Int) ≤ (N : Int) * m := by positivity
  have p4 : (0 : Int) ≤ (m : Int) * m := by positivity
  have hkk : (k : Int) * k ≤ (N : Int) * N := by
    have : (k : Int) ≤ N := by exact_mod_cast hkN
    exact mul_le_mul this this (by omega) (by omega)
  obtain ⟨q, hq⟩ : ∃ q : Int, q = (if isInv = true then (k : Int) else N) * (if isInv = true then (k : Int) else N) := ⟨_, rfl⟩
  have q0 : (k : Int) * k ≤ q ∧ 0 ≤ q := by
    rw [hq]; cases isInv <;> simp <;> omega
  have hw' : q + (k : Int) * N + (k : Int) * k + (k : Int) * N ≤ work.length := by
    rw [hq]
    cases isInv <;> simp at hw ⊢ <;> linarith
  have start : gls N m k resid sigma isInv y x omega storage work = (do
      let (info, omega) ← invertOmega isInv omega (part work 0 q)
      if info ≠ 0 then .throws
      else do
        let xo ← trDot0 x omega ⟨(k : Int), (N : Int), some (part work q ((k : Int) * N))⟩
        let xox ← xo.dot x ⟨(k : Int), (k : Int), some (part work (q + (k : Int) * N) ((k : Int) * k))⟩ 1 0
        let (info, xox) ← inv00 xox (part work 0 q)
        if info ≠ 0 then .throws
        else do
          let xoxxo ← xox.dot xo ⟨(k : Int), (N : Int), some (part work (q + (k : Int) * N + (k : Int) * k) ((k : Int) * N))⟩ 1 0
          let beta ← dot0 xoxxo y ⟨(k : Int), (m : Int), some (part storage 0 ((k : Int) * m))⟩
          let fit ← residuals y x beta storage resid sigma
          pure (fit, omega)) := by
    unfold gls
    simp only [hy.rows, hy.cols, hx.rows, hx.cols]
    rw [if_neg (by simp), if_neg (by omega), if_neg, ← hq]
    rintro (h | h)
    · unfold glsWork at h
      cases isInv <;> simp at h
      omega
    · omega
  have hO : (isInv = true ∨ O.det ≠ 0) → ∃ omega', invertOmega isInv omega (part work 0 q) = .ok (0, omega') ∧
      IsM omega' (weights isInv O) := by
    intro h
    unfold invertOmega weights
    cases isInv with
    | true => exact ⟨omega, by simp, by simpa using ho⟩
    | false =>
      have hd : O.det ≠ 0 := by simpa using h
      obtain ⟨B, e, i, -⟩ := (inv00_isM ho pN (part work 0 q) (by
        rw [part_length work 0 q (by omega) q0.2 (by omega), hq]; simp)).1 hd
      exact ⟨B, by simpa using e, by simpa using i⟩
  have mid : (isInv = true ∨ O.det ≠ 0) → ∃ omega' xo xox, IsM omega' (weights isInv O) ∧
      IsM xo (Xᵀ * weights isInv O) ∧ IsM xox (Xᵀ * weights isInv O * X) ∧
      gls N m k resid sigma isInv y x omega storage work = (do
        let (info, xox) ← inv00 xox (part work 0 q)
        if info ≠ 0 then .throws
        else do
          let xoxxo ← xox.dot xo ⟨(k : Int), (N : Int), some (part work (q + (k : Int) * N + (k : Int) * k) ((k : Int) * N))⟩ 1 0
          let beta ← dot0 xoxxo y ⟨(k : Int), (m : Int), some (part storage 0 ((k : Int) * m))⟩
          let fit ← residuals y x beta storage resid sigma
          pure (fit, omega')) := by
    intro h
    obtain ⟨omega', e1, i1⟩ := hO h
    obtain ⟨xo, e2, i2, -⟩ := trDot0_isM hx i1 (sized_part work q k N q0.2 (by omega)) pk pN
    have sz := sized_part work (q + (k : Int) * N) k k (by omega) (by omega)
    obtain ⟨xox, e3, i3, -⟩ := dot0_isM i2 hx sz pk pN
    refine ⟨omega', xo, xox, i1, i2, i3, ?_⟩
    rw [start, e1]
    simp only [Outcome.ok_bind, ne_eq, not_true, if_false, e2]
    rw [dot_eq (by rw [i2.cols, hx.rows]) (by rw [i2.rows]) (by rw [hx.cols]), e3]
    rfl
  have hinv : ∀ xox, IsM xox (Xᵀ * weights isInv O * X) → _ := fun xox i => inv00_isM i pk (part work 0 q) (by
    rw [part_length work 0 q (by omega) q0.2 (by omega)]; omega)
  constructor
  · intro h hd
    obtain ⟨omega', xo, xox, i1, i2, i3, e⟩ := mid h
    obtain ⟨xi, e4, i4, -⟩ := (hinv xox i3).1 hd
    have sz := sized_part work (q + (k : Int) * N + (k : Int) * k) k N (by omega) (by omega)
    obtain ⟨xxx, e5, i5, -⟩ := dot0_isM i4 i2 sz pk pk
    obtain ⟨beta, e6, i6, -⟩ := dot0_isM i5 hy (sized_part storage 0 k m (by omega) (by split_ifs at hs <;> omega)) pk pN
    obtain ⟨fit, e7, b7, r7⟩ := residuals_spec hy hx i6 pN pm pk storage resid sigma hs
    refine ⟨fit, omega', ?_, by rw [b7]; exact i6, r7, i1⟩
    rw [e, e4]
    simp only [Outcome.ok_bind, ne_eq, not_true, if_false]
    rw [dot_eq (by rw [i4.cols, i2.rows]) (by rw [i4.rows]) (by rw [i2.cols]), e5]
    simp only [Outcome.ok_bind, e6, e7, Outcome.pure_eq]
  · intro h
    by_cases h1 : isInv = true ∨ O.det ≠ 0
    · have hd : (Xᵀ * weights isInv O * X).det = 0 := by
        rcases h with ⟨ha, hb⟩ | h
        · rcases h1 with h1 | h1
          · rw [ha] at h1; simp at h1
          · exact absurd hb h1
        · exact h
      obtain ⟨omega', xo, xox, i1, i2, i3, e⟩ := mid h1
      rw [e, (hinv xox i3).2 hd]
      simp
    · push Not at h1
      have hf : isInv = false := by simpa using h1.1
      subst hf
      have := (inv00_isM ho pN (part work 0 q) (by
        rw [part_length work 0 q (by omega) q0.2 (by omega), hq]; simp)).2 h1.2
      rw [start]
      unfold invertOmega
      simp only [if_true, this]
      simp

end

section
variable {K : Type} [Field K] [LinearOrder K] [IsStrictOrderedRing K] {N k m : Nat}

theorem weights_posDef {O : Matrix (Fin N) (Fin N) K} (h : PosDef O) (isInv : Bool) : PosDef (weights isInv O) := by
  unfold weights; cases isInv
  · simpa using h.inv
  · simpa using h

/-- **C85**, the estimate: with a symmetric positive definite `omega` (or its inverse), regressors none of which is a
combination of the others, and arrays of the announced sizes, every column of `Beta` holds the coefficients with the least
weighted sum of squares, and no other coefficients reach it; `omega` is replaced by its inverse unless the inverse was given.
-/
theorem C85_estimate {y x omega : Mat K} {Y : Matrix (Fin N) (Fin m) K} {X : Matrix (Fin N) (Fin k) K}
    {O : Matrix (Fin N) (Fin N) K} (hy : IsM y Y) (hx : IsM x X) (ho : IsM omega O)
    (pm : 0 < m) (pk : 0 < k) (hkN : k ≤ N) (storage work : List K) (resid sigma isInv : Bool)
    (hs : (k : Int) * m + (if resid || sigma then (N : Int) * m else 0) + (if sigma then (m : Int) * m else 0) ≤ storage.length)
    (hw : (if isInv then (k : Int) * k else (N : Int) * N) + (k : Int) * k + 2 * k * N ≤ work.length)
    (hX : FullRank X) (hO : PosDef O) :
    ∃ fit omega' B W, gls N m k resid sigma isInv y x omega storage work = .ok (fit, omega') ∧ IsM fit.beta B ∧
      IsM omega' (W : Matrix (Fin N) (Fin N) K) ∧ (if isInv then W = O else O * W = 1) ∧
      ∀ (j : Fin m) (b : Fin k → K),
        weighted W (misfit X (fun i => Y i j) (fun l => B l j)) ≤ weighted W (misfit X (fun i => Y i j) b) ∧
        (weighted W (misfit X (fun i => Y i j) b) ≤ weighted W (misfit X (fun i => Y i j) (fun l => B l j)) →
          b = fun l => B l j) := by
  have hW := weights_posDef hO isInv
  obtain ⟨fit, omega', e, ib, -, iw⟩ := (gls_core hy hx ho pm pk hkN storage work resid sigma isInv hs hw).1
    (Or.inr hO.det_ne) (gram_det_ne hX hW)
  refine ⟨fit, omega', _, _, e, ib, iw, ?_, fun j b => best_fit hX hW j b⟩
  unfold weights
  cases isInv
  · simp only [Bool.false_eq_true, if_false]
    exact mul_nonsing_inv _ (isUnit_iff_ne_zero.2 hO.det_ne)
  · simp

/-- **C85**, the residuals: `Resid` holds the observations minus the fit, `Sigma` the (not weighted) cross products of the
residuals; the weighted residuals are orthogonal to every regressor. For all weights for which there is an estimate, also
weights that are not symmetric. -/
theorem C85_residuals {y x omega : Mat K} {Y : Matrix (Fin N) (Fin m) K} {X : Matrix (Fin N) (Fin k) K}
    {W : Matrix (Fin N) (Fin N) K} (hy : IsM y Y) (hx : IsM x X) (ho : IsM omega W)
    (pm : 0 < m) (pk : 0 < k) (hkN : k ≤ N) (storage work : List K) (resid sigma : Bool)
    (hs : (k : Int) * m + (if resid || sigma then (N : Int) * m else 0) + (if sigma then (m : Int) * m else 0) ≤ storage.length)
    (hw : (k : Int) * k + (k : Int) * k + 2 * k * N ≤ work.length) (hd : (Xᵀ * W * X).det ≠ 0) :
    ∃ fit omega' B R, gls N m k resid sigma true y x omega storage work = .ok (fit, omega') ∧ IsM fit.beta B ∧
      (∀ i j, R i j = misfit X (fun i => Y i j) (fun l => B l j) i) ∧
      (∀ l j, ∑ i, ∑ i', X i l * W i i' * R i' j = 0) ∧
      (resid = true ∨ sigma = true → ∃ r, fit.resid = some r ∧ IsM r R) ∧
      (resid = false → sigma = false → fit.resid = none) ∧
      (sigma = true → ∃ s S, fit.sigma = some s ∧ IsM s (S : Matrix (Fin m) (Fin m) K) ∧ ∀ j j', S j j' = ∑ i, R i j * R i j') ∧
      (sigma = false → fit.sigma = none) := by
  have e0 : weights true W = W := by simp [weights]
  obtain ⟨fit, omega', e, ib, r, -⟩ := (gls_core hy hx ho pm pk hkN storage work resid sigma true hs (by simpa using hw)).1
    (Or.inl rfl) (by rw [e0]; exact hd)
  rw [e0] at ib r
  refine ⟨fit, omega', _, _, e, ib, fun i j => ?_, fun l j => ?_, r.resid_some, r.resid_none, fun h => ?_, r.sigma_none⟩
  · rw [Matrix.sub_apply, Matrix.mul_apply]; rfl
  · have := congrFun (congrFun (normal_equations (X := X) (W := W) (Y := Y) hd) l) j
    rw [Matrix.mul_apply] at this
    rw [Finset.sum_comm]
    simp only [Matrix.mul_apply (M := Xᵀ), Finset.sum_mul] at this
    exact this
  · obtain ⟨s, hs', is⟩ := r.sigma_some h
    refine ⟨s, _, hs', is, fun j j' => ?_⟩
    rw [Matrix.mul_apply]; rfl

/-- **C85**, equal weights give ordinary least squares; the scale of the weights does not matter. -/
theorem C85_scalar {y x omega : Mat K} {Y : Matrix (Fin N) (Fin m) K} {X : Matrix (Fin N) (Fin k) K}
    (hy : IsM y Y) (hx : IsM x X) (a : K) (ha : a ≠ 0) (ho : IsM omega (a • (1 : Matrix (Fin N) (Fin N) K)))
    (pm : 0 < m) (pk : 0 < k) (hkN : k ≤ N) (storage work : List K) (resid sigma isInv : Bool)
    (hs : (k : Int) * m + (if resid || sigma then (N : Int) * m else 0) + (if sigma then (m : Int) * m else 0) ≤ storage.length)
    (hw : (if isInv then (k : Int) * k else (N : Int) * N) + (k : Int) * k + 2 * k * N ≤ work.length)
    (hX : FullRank X) :
    ∃ fit fit' omega', ∃ B : Matrix (Fin k) (Fin m) K, gls N m k resid sigma isInv y x omega storage work = .ok (fit, omega') ∧ IsM fit.beta B ∧
      ols N m k resid sigma y x storage work = .ok fit' ∧ IsM fit'.beta B := by
  have hd : (Xᵀ * X).det ≠ 0 := by rw [gram_one]; exact gram_det_ne hX PosDef.one
  obtain ⟨c, c0, ec⟩ : ∃ c : K, c ≠ 0 ∧ weights isInv (a • (1 : Matrix (Fin N) (Fin N) K)) = c • 1 := by
    unfold weights
    cases isInv
    · refine ⟨a⁻¹, inv_ne_zero ha, ?_⟩
      simp only [Bool.false_eq_true, if_false]
      apply inv_eq_left_inv
      rw [smul_mul_smul_comm, inv_mul_cancel₀ ha, Matrix.one_mul, one_smul]
    · exact ⟨a, ha, by simp⟩
  have e1 : Xᵀ * (c • (1 : Matrix (Fin N) (Fin N) K)) = c • Xᵀ := by rw [Matrix.mul_smul, Matrix.mul_one]
  have e2 : (c • Xᵀ) * X = c • (Xᵀ * X) := Matrix.smul_mul _ _ _
  have hdet : (c • (Xᵀ * X)).det ≠ 0 := by
    rw [det_smul]; exact mul_ne_zero (pow_ne_zero _ c0) hd
  have e3 : (c • (Xᵀ * X))⁻¹ * (c • Xᵀ) = (Xᵀ * X)⁻¹ * Xᵀ := by
    have : (c • (Xᵀ * X))⁻¹ = c⁻¹ • (Xᵀ * X)⁻¹ := by
      apply inv_eq_left_inv
      rw [smul_mul_smul_comm, inv_mul_cancel₀ c0, nonsing_inv_mul _ (isUnit_iff_ne_zero.2 hd), one_smul]
    rw [this, Matrix.smul_mul, Matrix.mul_smul, smul_smul, inv_mul_cancel₀ c0, one_smul]
  have hOd : (a • (1 : Matrix (Fin N) (Fin N) K)).det ≠ 0 := by
    rw [det_smul, det_one, mul_one]; exact pow_ne_zero _ ha
  obtain ⟨fit, omega', e, ib, -, -⟩ := (gls_core hy hx ho pm pk hkN storage work resid sigma isInv hs hw).1
    (Or.inr hOd) (by rw [ec, e1, e2]; exact hdet)
  rw [ec, e1, e2, e3] at ib
  have p2 : (0 : Int) ≤ (N : Int) * N := by positivity
  have p1 : (0 : Int) ≤ (k : Int) * N := by positivity
  have hkk : (k : Int) * k ≤ (N : Int) * N := by
    have : (k : Int) ≤ N := by exact_mod_cast hkN
    exact mul_le_mul this this (by omega) (by omega)
  obtain ⟨fit', e', ib', -⟩ := (ols_core hy hx pm pk hkN storage work resid sigma hs (by
    cases isInv <;> simp at hw <;> linarith)).1 hd
  exact ⟨fit, fit', omega', _, e, ib, e', ib'⟩

/-- **C85**, what is refused: other numbers of rows, too few observations, a singular `omega`, dependent regressors. -/
theorem C85_refused {y x omega : Mat K} (N0 m0 k0 : Int) (storage work : List K) (resid sigma isInv : Bool)
    (h : x.rows ≠ y.rows ∨ y.rows < x.cols) : gls N0 m0 k0 resid sigma isInv y x omega storage work = .throws := by
  unfold gls
  simp only
  by_cases h1 : x.rows ≠ y.rows
  · rw [if_pos h1]
  · rw [if_neg h1, if_pos (by rcases h with h | h; · exact absurd h h1
                              · exact h)]

/-- **C85**, a singular `omega` (to be inverted) or dependent regressors: the exception. -/
theorem C85_singular {y x omega : Mat K} {Y : Matrix (Fin N) (Fin m) K} {X : Matrix (Fin N) (Fin k) K}
    {O : Matrix (Fin N) (Fin N) K} (hy : IsM y Y) (hx : IsM x X) (ho : IsM omega O)
    (pm : 0 < m) (pk : 0 < k) (hkN : k ≤ N) (storage work : List K) (resid sigma isInv : Bool)
    (hs : (k : Int) * m + (if resid || sigma then (N : Int) * m else 0) + (if sigma then (m : Int) * m else 0) ≤ storage.length)
    (hw : (if isInv then (k : Int) * k else (N : Int) * N) + (k : Int) * k + 2 * k * N ≤ work.length)
    (h : isInv = false ∧ O.det = 0 ∨ ¬ FullRank X) :
    gls N m k resid sigma isInv y x omega storage work = .throws :=
  (gls_core hy hx ho pm pk hkN storage work resid sigma isInv hs hw).2 (by
    rcases h with h | h
    · exact Or.inl h
    · exact Or.inr (gram_det_zero _ h))

/-- **C85**, the announced sizes suffice, and they are the documented sums. -/
theorem C85_announced {y x omega : Mat K} {Y : Matrix (Fin N) (Fin m) K} {X : Matrix (Fin N) (Fin k) K}
    {O : Matrix (Fin N) (Fin N) K} (hy : IsM y Y) (hx : IsM x X) (ho : IsM omega O)
    (pm : 0 < m) (pk : 0 < k) (hkN : k ≤ N) (storage work : List K) (resid sigma isInv : Bool)
    (hs : (storage.length : Int) = storageSize N m k resid sigma) (hw : (work.length : Int) = glsWork N k isInv)
    (hX : FullRank X) (hO : PosDef O) :
    (∃ r, gls N m k resid sigma isInv y x omega storage work = .ok r) ∧
    storage.length = k * m + (if resid = true ∨ sigma = true then N * m else 0) + (if sigma = true then m * m else 0) ∧
    work.length = (if isInv = true then k * k else N * N) + k * k + 2 * k * N := by
  have hs' : (k : Int) * m + (if resid || sigma then (N : Int) * m else 0) + (if sigma then (m : Int) * m else 0) =
      storage.length := by rw [hs]; rfl
  have hw' : (if isInv then (k : Int) * k else (N : Int) * N) + (k : Int) * k + 2 * k * N = work.length := by
    rw [hw]; unfold glsWork; cases isInv <;> simp
  obtain ⟨fit, omega', B, W, e, -⟩ := C85_estimate hy hx ho pm pk hkN storage work resid sigma isInv hs'.le hw'.le hX hO
  refine ⟨⟨_, e⟩, ?_, ?_⟩
  · zify
    rw [← hs']
    cases resid <;> cases sigma <;> simp
  · zify; rw [← hw']

/-- **C85 is violated by fewer observations than announced** (with `omega` to be inverted): they are refused. -/
theorem C85_violated_smaller {y x omega : Mat K} {Y : Matrix (Fin N) (Fin m) K} {X : Matrix (Fin N) (Fin k) K} (hy : IsM y Y)
    (hx : IsM x X) (N0 : Nat) (h : N < N0) (storage work : List K) (resid sigma : Bool) :
    gls N0 m k resid sigma false y x omega storage work = .throws := by
  unfold gls
  simp only [hy.rows, hy.cols, hx.rows, hx.cols]
  rw [if_neg (by simp)]
  by_cases h1 : (N : Int) < k
  · rw [if_pos h1]
  rw [if_neg h1, if_pos]
  left
  unfold glsWork
  simp only [Bool.false_eq_true, if_false]
  have a1 : (k : Int) * N ≤ (k : Int) * N0 := mul_le_mul_of_nonneg_left (by exact_mod_cast h.le) (by omega)
  have hN : (N : Int) < N0 := by exact_mod_cast h
  have a2 : (N : Int) * N < (N0 : Int) * N0 := by nlinarith
  linarith

end

/-- **C85 is violated by an `omega` of another size**: it is not checked, and the end of its memory is passed. -/
theorem C85_violated_omega (storage : List ℚ) (a b c d e f : ℚ) :
    gls 2 1 1 false false true (⟨2, 1, some [3, 5]⟩ : Mat ℚ) ⟨2, 1, some [1, 1]⟩ ⟨1, 1, some [1]⟩ storage
      [a, b, c, d, e, f] = .ub := by
  have e1 : trDot0 (⟨2, 1, some [1, 1]⟩ : Mat ℚ) ⟨1, 1, some [1]⟩ ⟨1, 2, some (part [a, b, c, d, e, f] (1 * 1) (1 * 2))⟩ =
      .ub := by
    have u2 : upTo 0 2 = [0, 1] := by decide
    have u1 : upTo 0 1 = [0] := by decide
    have r0 : read ([1, 1] : List ℚ) 0 = .ok 1 := rfl
    have r1 : read ([1, 1] : List ℚ) 1 = .ok 1 := rfl
    have s0 : read ([1] : List ℚ) 0 = .ok 1 := rfl
    have s1 : read ([1] : List ℚ) 1 = .ub := rfl
    unfold trDot0 gemm dotSum opGet
    simp [u1, u2, Mat.withMem, Mat.mem, r0, r1, s0, s1, mulO, ldOk]
  unfold gls invertOmega
  simp only
  rw [if_neg (by decide), if_neg (by decide), if_neg (by decide), if_neg (by decide)]
  simp only [Outcome.ok_bind, ne_eq, not_true, if_false, if_true]
  rw [e1]; rfl

/-! ## Non-vacuity -/

def exO : Matrix (Fin 3) (Fin 3) ℚ := !![2, 1, 0; 1, 2, 0; 0, 0, 1]

theorem ex_omega : IsM (⟨3, 3, some [2, 1, 0, 1, 2, 0, 0, 0, 1]⟩ : Mat ℚ) exO :=
  isM_list 3 3 _ rfl _ (by decide)

theorem ex_posDef : PosDef exO := by
  refine ⟨fun i j => by fin_cases i <;> fin_cases j <;> rfl, fun v hv => ?_⟩
  unfold weighted
  simp [exO, Fin.sum_univ_three]
  have h : 0 < (v 0) ^ 2 + (v 1) ^ 2 + (v 0 + v 1) ^ 2 + (v 2) ^ 2 := by
    by_contra hc
    apply hv
    have h0 := sq_nonneg (v 0); have h1 := sq_nonneg (v 1); have h2 := sq_nonneg (v 0 + v 1); have h3 := sq_nonneg (v 2)
    have z0 : v 0 = 0 := pow_eq_zero_iff (two_ne_zero) |>.1 (by linarith)
    have z1 : v 1 = 0 := pow_eq_zero_iff (two_ne_zero) |>.1 (by linarith)
    have z2 : v 2 = 0 := pow_eq_zero_iff (two_ne_zero) |>.1 (by linarith)
    funext i; fin_cases i
    · exact z0
    · exact z1
    · exact z2
  nlinarith

example : ∃ fit omega' B, gls 3 1 2 true true false (⟨3, 1, some [1, 2, 6]⟩ : Mat ℚ) ⟨3, 2, some [1, 1, 1, 1, 2, 3]⟩
    ⟨3, 3, some [2, 1, 0, 1, 2, 0, 0, 0, 1]⟩ (List.replicate 6 0) (List.replicate 25 0) = .ok (fit, omega') ∧
      IsM fit.beta (B : Matrix (Fin 2) (Fin 1) ℚ) := by
  obtain ⟨fit, omega', B, W, e, i, -⟩ := C85_estimate ex_y ex_x ex_omega (by decide) (by decide) (by decide)
    (List.replicate 6 0) (List.replicate 25 0) true true false (by decide) (by decide) ex_rank ex_posDef
  exact ⟨fit, omega', B, e, i⟩

end Ls
end LDT
