import Verif.Lemmas.Dense
import Verif.Lemmas.Ols
/-!
# C84: ordinary least squares; C85: generalised least squares

`IsM A M` says that the matrix `A` of the program is well formed and holds the numbers of `M`.
-/
namespace LDT
namespace Ls
open Mx Matrix
open Co (part)

section
variable {K : Type} [Field K] [DecidableEq K] {N k m : Nat}

/-! ## The common end -/

/-- What `Resid` and `Sigma` hold. -/
structure Rest (fit : Fit K) (R : Matrix (Fin N) (Fin m) K) (resid sigma : Bool) : Prop where
  resid_some : resid = true ∨ sigma = true → ∃ r, fit.resid = some r ∧ IsM r R
  resid_none : resid = false → sigma = false → fit.resid = none
  sigma_some : sigma = true → ∃ s, fit.sigma = some s ∧ IsM s (Rᵀ * R)
  sigma_none : sigma = false → fit.sigma = none

theorem residuals_spec {y x beta : Mat K} {Y : Matrix (Fin N) (Fin m) K} {X : Matrix (Fin N) (Fin k) K}
    {B : Matrix (Fin k) (Fin m) K} (hy : IsM y Y) (hx : IsM x X) (hb : IsM beta B) (pN : 0 < N) (pm : 0 < m) (pk : 0 < k)
    (storage : List K) (resid sigma : Bool)
    (hs : (k : Int) * m + (if resid || sigma then (N : Int) * m else 0) + (if sigma then (m : Int) * m else 0) ≤ storage.length) :
    ∃ fit, residuals y x beta storage resid sigma = .ok fit ∧ fit.beta = beta ∧ Rest fit (Y - X * B) resid sigma := by
  unfold residuals
  have p1 : (0 : Int) ≤ (k : Int) * m := by positivity
  have p2 : (0 : Int) ≤ (N : Int) * m := by positivity
  have p3 : (0 : Int) ≤ (m : Int) * m := by positivity
  by_cases h : (resid || sigma) = true
  · simp only [h, if_true] at hs ⊢
    obtain ⟨yhat, e1, i1, -⟩ := dot0_isM hx hb (sized_part storage ((k : Int) * m) N m p1 (by split_ifs at hs <;> omega)) pN pk
    obtain ⟨r, e2, i2, -⟩ := subtractFrom_isM hy i1
    simp only [hy.rows, hy.cols, hx.cols, e1, e2, Outcome.ok_bind]
    cases sigma with
    | true =>
      simp only [if_true] at hs ⊢
      have sz := sized_part storage ((k : Int) * m + (N : Int) * m) m m (by omega) (by omega)
      obtain ⟨s, e3, i3, -⟩ := trDot0_isM i2 i2 sz pm pN
      rw [trDot_eq rfl (by rw [i2.cols]) (by rw [i2.cols]), e3]
      exact ⟨_, rfl, rfl, ⟨fun _ => ⟨r, rfl, i2⟩, fun _ h => by simp at h, fun _ => ⟨s, rfl, i3⟩, fun h => by simp at h⟩⟩
    | false =>
      have hr : resid = true := by simpa using h
      exact ⟨_, rfl, rfl, ⟨fun _ => ⟨r, rfl, i2⟩, fun h _ => by simp [hr] at h, fun h => by simp at h, fun _ => rfl⟩⟩
  · simp only [h, Bool.false_eq_true, if_false]
    have h1 : resid = false := by cases resid <;> simp_all
    have h2 : sigma = false := by cases sigma <;> simp_all
    refine ⟨_, rfl, rfl, ⟨fun h' => ?_, fun _ _ => rfl, fun h' => ?_, fun _ => rfl⟩⟩
    · rw [h1, h2] at h'; simp at h'
    · rw [h2] at h'; simp at h'

theorem olsWork_eq (N k : Int) : olsWork N k = k * k + k * k + k * N := by unfold olsWork; ring

/-- The estimate, for arrays of the announced sizes. -/
theorem ols_core {y x : Mat K} {Y : Matrix (Fin N) (Fin m) K} {X : Matrix (Fin N) (Fin k) K} (hy : IsM y Y) (hx : IsM x X)
    (pm : 0 < m) (pk : 0 < k) (hkN : k ≤ N) (storage work : List K) (resid sigma : Bool)
    (hs : (k : Int) * m + (if resid || sigma then (N : Int) * m else 0) + (if sigma then (m : Int) * m else 0) ≤ storage.length)
    (hw : 2 * (k : Int) * k + (k : Int) * N ≤ work.length) :
    ((Xᵀ * X).det ≠ 0 → ∃ fit, ols N m k resid sigma y x storage work = .ok fit ∧
      IsM fit.beta ((Xᵀ * X)⁻¹ * Xᵀ * Y) ∧ Rest fit (Y - X * ((Xᵀ * X)⁻¹ * Xᵀ * Y)) resid sigma) ∧
    ((Xᵀ * X).det = 0 → ols N m k resid sigma y x storage work = .throws) := by
  have pN : 0 < N := by omega
  have p0 : (0 : Int) ≤ (k : Int) * k := by positivity
  have p1 : (0 : Int) ≤ (k : Int) * N := by positivity
  have p3 : (0 : Int) ≤ (N : Int) * m := by positivity
  have p4 : (0 : Int) ≤ (m : Int) * m := by positivity
  have hw' : (k : Int) * k + (k : Int) * k + (k : Int) * N ≤ work.length := by rw [← olsWork_eq]; exact hw
  obtain ⟨xx, e1, i1, -⟩ := trDot0_isM hx hx (sized_part work 0 k k (by omega) (by omega)) pk pN
  have hl : ((part work ((k : Int) * k) ((k : Int) * k)).length : Int) = (k : Int) * k := by
    have := (sized_part work ((k : Int) * k) k k (by omega) (by omega)).wf.size
    simp only [Mat.mem, Option.getD_some] at this
    have h2 : (part work ((k : Int) * k) ((k : Int) * k)).length ≤ ((k : Int) * k).toNat := by
      unfold part; exact List.length_take_le _ _
    omega
  have inv := inv00_isM i1 pk (part work ((k : Int) * k) ((k : Int) * k)) (by rw [hl])
  have start : ols N m k resid sigma y x storage work = (do
      let (info, xx) ← inv00 xx (part work ((k : Int) * k) ((k : Int) * k))
      if info ≠ 0 then .throws
      else do
        let xxx ← dotTr0 xx x ⟨(k : Int), (N : Int), some (part work ((k : Int) * k + (k : Int) * k) ((k : Int) * N))⟩
        let beta ← dot0 xxx y ⟨(k : Int), (m : Int), some (part storage 0 ((k : Int) * m))⟩
        residuals y x beta storage resid sigma) := by
    unfold ols
    simp only [hy.rows, hy.cols, hx.rows, hx.cols]
    rw [if_neg (by simp), if_neg (by omega), if_neg (by omega), e1]
    rfl
  constructor
  · intro hd
    obtain ⟨xi, e2, i2, -⟩ := inv.1 hd
    obtain ⟨xxx, e3, i3, -⟩ := dotTr0_isM i2 hx (sized_part work ((k : Int) * k + (k : Int) * k) k N (by omega) (by omega)) pk pN
    obtain ⟨beta, e4, i4, -⟩ := dot0_isM i3 hy (sized_part storage 0 k m (by omega) (by split_ifs at hs <;> omega)) pk pN
    obtain ⟨fit, e5, b5, r5⟩ := residuals_spec hy hx i4 pN pm pk storage resid sigma hs
    refine ⟨fit, ?_, by rw [b5]; exact i4, r5⟩
    rw [start, e2]
    simp only [Outcome.ok_bind, ne_eq, not_true, if_false, e3, e4, e5]
  · intro hd
    rw [start, inv.2 hd]
    simp

end

section
variable {K : Type} [Field K] [LinearOrder K] [IsStrictOrderedRing K] {N k m : Nat}

theorem gram_one (X : Matrix (Fin N) (Fin k) K) : Xᵀ * X = Xᵀ * (1 : Matrix (Fin N) (Fin N) K) * X := by rw [Matrix.mul_one]

/-- **C84**, the estimate: for regressors none of which is a combination of the others, and arrays of the announced sizes,
every column of `Beta` holds the coefficients with the least sum of squares, and no other coefficients reach it. -/
theorem C84_estimate {y x : Mat K} {Y : Matrix (Fin N) (Fin m) K} {X : Matrix (Fin N) (Fin k) K} (hy : IsM y Y)
    (hx : IsM x X) (pm : 0 < m) (pk : 0 < k) (hkN : k ≤ N) (storage work : List K) (resid sigma : Bool)
    (hs : (k : Int) * m + (if resid || sigma then (N : Int) * m else 0) + (if sigma then (m : Int) * m else 0) ≤ storage.length)
    (hw : 2 * (k : Int) * k + (k : Int) * N ≤ work.length) (hX : FullRank X) :
    ∃ fit B, ols N m k resid sigma y x storage work = .ok fit ∧ IsM fit.beta B ∧
      ∀ (j : Fin m) (b : Fin k → K),
        squares (misfit X (fun i => Y i j) (fun l => B l j)) ≤ squares (misfit X (fun i => Y i j) b) ∧
        (squares (misfit X (fun i => Y i j) b) ≤ squares (misfit X (fun i => Y i j) (fun l => B l j)) →
          b = fun l => B l j) := by
  have hd : (Xᵀ * X).det ≠ 0 := by rw [gram_one]; exact gram_det_ne hX PosDef.one
  obtain ⟨fit, e, ib, -⟩ := (ols_core hy hx pm pk hkN storage work resid sigma hs hw).1 hd
  refine ⟨fit, _, e, ib, fun j b => ?_⟩
  have := best_fit (Y := Y) hX PosDef.one j b
  rw [Matrix.mul_one] at this
  rw [squares_eq, squares_eq]
  exact this

/-- **C84**, the residuals and their cross products: `Resid` holds the observations minus the fit, and is orthogonal to every
regressor; `Sigma` holds the cross products of the residuals. -/
theorem C84_residuals {y x : Mat K} {Y : Matrix (Fin N) (Fin m) K} {X : Matrix (Fin N) (Fin k) K} (hy : IsM y Y)
    (hx : IsM x X) (pm : 0 < m) (pk : 0 < k) (hkN : k ≤ N) (storage work : List K) (resid sigma : Bool)
    (hs : (k : Int) * m + (if resid || sigma then (N : Int) * m else 0) + (if sigma then (m : Int) * m else 0) ≤ storage.length)
    (hw : 2 * (k : Int) * k + (k : Int) * N ≤ work.length) (hX : FullRank X) :
    ∃ fit B R, ols N m k resid sigma y x storage work = .ok fit ∧ IsM fit.beta B ∧
      (∀ i j, R i j = misfit X (fun i => Y i j) (fun l => B l j) i) ∧ (∀ l j, ∑ i, X i l * R i j = 0) ∧
      (resid = true ∨ sigma = true → ∃ r, fit.resid = some r ∧ IsM r R) ∧
      (resid = false → sigma = false → fit.resid = none) ∧
      (sigma = true → ∃ s S, fit.sigma = some s ∧ IsM s (S : Matrix (Fin m) (Fin m) K) ∧ ∀ j j', S j j' = ∑ i, R i j * R i j') ∧
      (sigma = false → fit.sigma = none) := by
  have hd : (Xᵀ * X).det ≠ 0 := by rw [gram_one]; exact gram_det_ne hX PosDef.one
  obtain ⟨fit, e, ib, r⟩ := (ols_core hy hx pm pk hkN storage work resid sigma hs hw).1 hd
  refine ⟨fit, _, _, e, ib, fun i j => ?_, fun l j => ?_, r.resid_some, r.resid_none, fun h => ?_, r.sigma_none⟩
  · rw [Matrix.sub_apply, Matrix.mul_apply]; rfl
  · have := normal_equations (X := X) (W := 1) (Y := Y) (by rw [Matrix.mul_one]; exact hd)
    rw [Matrix.mul_one] at this
    have := congrFun (congrFun this l) j
    rw [Matrix.mul_apply] at this
    exact this
  · obtain ⟨s, hs', is⟩ := r.sigma_some h
    refine ⟨s, _, hs', is, fun j j' => ?_⟩
    rw [Matrix.mul_apply]; rfl

/-- **C84**, linearly dependent regressors: the exception. -/
theorem C84_singular {y x : Mat K} {Y : Matrix (Fin N) (Fin m) K} {X : Matrix (Fin N) (Fin k) K} (hy : IsM y Y)
    (hx : IsM x X) (pm : 0 < m) (pk : 0 < k) (hkN : k ≤ N) (storage work : List K) (resid sigma : Bool)
    (hs : (k : Int) * m + (if resid || sigma then (N : Int) * m else 0) + (if sigma then (m : Int) * m else 0) ≤ storage.length)
    (hw : 2 * (k : Int) * k + (k : Int) * N ≤ work.length) (hX : ¬ FullRank X) :
    ols N m k resid sigma y x storage work = .throws :=
  (ols_core hy hx pm pk hkN storage work resid sigma hs hw).2 (by rw [gram_one]; exact gram_det_zero 1 hX)

/-- **C84**, other numbers of rows, or fewer observations than regressors: the exception. -/
theorem C84_refused (y x : Mat K) (N0 m0 k0 : Int) (storage work : List K) (resid sigma : Bool)
    (h : x.rows ≠ y.rows ∨ y.rows < x.cols) : ols N0 m0 k0 resid sigma y x storage work = .throws := by
  unfold ols
  simp only
  by_cases h1 : x.rows ≠ y.rows
  · rw [if_pos h1]
  · rw [if_neg h1, if_pos (by rcases h with h | h; · exact absurd h h1
                              · exact h)]

/-- **C84**, other observations: adding a combination of the regressors and changing the scale changes the coefficients
in the same way. -/
theorem C84_equivariant {y y' x : Mat K} {Y : Matrix (Fin N) (Fin m) K} {X : Matrix (Fin N) (Fin k) K}
    (hy : IsM y Y) (a : K) (C : Matrix (Fin k) (Fin m) K) (hy' : IsM y' (a • Y + X * C)) (hx : IsM x X)
    (pm : 0 < m) (pk : 0 < k) (hkN : k ≤ N) (storage work : List K)
    (hs : (k : Int) * m ≤ storage.length) (hw : 2 * (k : Int) * k + (k : Int) * N ≤ work.length) (hX : FullRank X) :
    ∃ fit fit' B, ols N m k false false y x storage work = .ok fit ∧ IsM fit.beta B ∧
      ols N m k false false y' x storage work = .ok fit' ∧ IsM fit'.beta (a • B + C) := by
  have hd : (Xᵀ * X).det ≠ 0 := by rw [gram_one]; exact gram_det_ne hX PosDef.one
  obtain ⟨fit, e, ib, -⟩ := (ols_core hy hx pm pk hkN storage work false false (by simpa using hs) hw).1 hd
  obtain ⟨fit', e', ib', -⟩ := (ols_core hy' hx pm pk hkN storage work false false (by simpa using hs) hw).1 hd
  refine ⟨fit, fit', _, e, ib, e', ?_⟩
  have : (Xᵀ * X)⁻¹ * Xᵀ * (a • Y + X * C) = a • ((Xᵀ * X)⁻¹ * Xᵀ * Y) + C := by
    rw [Matrix.mul_add, Matrix.mul_smul, ← Matrix.mul_assoc _ X C, Matrix.mul_assoc _ Xᵀ X,
      nonsing_inv_mul _ (isUnit_iff_ne_zero.2 hd), Matrix.one_mul]
  rw [this] at ib'
  exact ib'

/-- **C84**, other regressors that span the same: the coefficients are transformed back, the fit is the same. -/
theorem C84_basis {y x x' : Mat K} {Y : Matrix (Fin N) (Fin m) K} {X : Matrix (Fin N) (Fin k) K}
    (P Q : Matrix (Fin k) (Fin k) K) (hPQ : P * Q = 1) (hy : IsM y Y) (hx : IsM x X) (hx' : IsM x' (X * P))
    (pm : 0 < m) (pk : 0 < k) (hkN : k ≤ N) (storage work : List K)
    (hs : (k : Int) * m ≤ storage.length) (hw : 2 * (k : Int) * k + (k : Int) * N ≤ work.length) (hX : FullRank X) :
    ∃ fit fit', ∃ B : Matrix (Fin k) (Fin m) K, ols N m k false false y x storage work = .ok fit ∧ IsM fit.beta B ∧
      ols N m k false false y x' storage work = .ok fit' ∧ IsM fit'.beta (Q * B) ∧ X * P * (Q * B) = X * B := by
  have hd : (Xᵀ * X).det ≠ 0 := by rw [gram_one]; exact gram_det_ne hX PosDef.one
  have hQP : Q * P = 1 := mul_eq_one_comm.1 hPQ
  have hX' : FullRank (X * P) := by
    rw [fullRank_iff] at hX ⊢
    intro b hb
    rw [← mulVec_mulVec] at hb
    have := hX _ hb
    have := congrArg (Q *ᵥ ·) this
    simpa [mulVec_mulVec, hQP] using this
  have hd' : ((X * P)ᵀ * (X * P)).det ≠ 0 := by rw [gram_one]; exact gram_det_ne hX' PosDef.one
  obtain ⟨fit, e, ib, -⟩ := (ols_core hy hx pm pk hkN storage work false false (by simpa using hs) hw).1 hd
  obtain ⟨fit', e', ib', -⟩ := (ols_core hy hx' pm pk hkN storage work false false (by simpa using hs) hw).1 hd'
  refine ⟨fit, fit', (Xᵀ * X)⁻¹ * Xᵀ * Y, e, ib, e', ?_, ?_⟩
  · have hQ : Qᵀ * Pᵀ = 1 := by rw [← transpose_mul, hPQ, transpose_one]
    have hP : Pᵀ * Qᵀ = 1 := by rw [← transpose_mul, hQP, transpose_one]
    have gi : ((X * P)ᵀ * (X * P))⁻¹ = Q * (Xᵀ * X)⁻¹ * Qᵀ := by
      apply inv_eq_left_inv
      have : (X * P)ᵀ * (X * P) = Pᵀ * (Xᵀ * X) * P := by
        rw [transpose_mul]; simp only [Matrix.mul_assoc]
      rw [this]
      calc Q * (Xᵀ * X)⁻¹ * Qᵀ * (Pᵀ * (Xᵀ * X) * P) = Q * (Xᵀ * X)⁻¹ * (Qᵀ * Pᵀ) * (Xᵀ * X) * P := by
            simp only [Matrix.mul_assoc]
        _ = Q * ((Xᵀ * X)⁻¹ * (Xᵀ * X)) * P := by rw [hQ]; simp only [Matrix.mul_assoc, Matrix.one_mul]
        _ = 1 := by rw [nonsing_inv_mul _ (isUnit_iff_ne_zero.2 hd), Matrix.mul_one, hQP]
    have : ((X * P)ᵀ * (X * P))⁻¹ * (X * P)ᵀ * Y = Q * ((Xᵀ * X)⁻¹ * Xᵀ * Y) := by
      rw [gi, transpose_mul]
      calc Q * (Xᵀ * X)⁻¹ * Qᵀ * (Pᵀ * Xᵀ) * Y = Q * (Xᵀ * X)⁻¹ * (Qᵀ * Pᵀ) * Xᵀ * Y := by simp only [Matrix.mul_assoc]
        _ = _ := by rw [hQ, Matrix.mul_one]; simp only [Matrix.mul_assoc]
    rw [this] at ib'
    exact ib'
  · rw [Matrix.mul_assoc X P, ← Matrix.mul_assoc P Q, hPQ, Matrix.one_mul]

/-- **C84 is violated by `Sigma`**: documented as the variance of the regression, it is the sum of the squared residuals and
not divided by the number of observations (nor by any other number of degrees of freedom `d > 1`). -/
theorem C84_violated_variance {y x : Mat K} {Y : Matrix (Fin N) (Fin m) K} {X : Matrix (Fin N) (Fin k) K} (hy : IsM y Y)
    (hx : IsM x X) (pm : 0 < m) (pk : 0 < k) (hkN : k ≤ N) (storage work : List K) (resid : Bool)
    (hs : (k : Int) * m + (N : Int) * m + (m : Int) * m ≤ storage.length)
    (hw : 2 * (k : Int) * k + (k : Int) * N ≤ work.length) (hX : FullRank X) (d : K) (hd1 : 1 < d) :
    ∃ fit s S R, ols N m k resid true y x storage work = .ok fit ∧ fit.sigma = some s ∧
      IsM s (S : Matrix (Fin m) (Fin m) K) ∧ (∃ r, fit.resid = some r ∧ IsM r R) ∧
      ∀ j, (∃ i : Fin N, R i j ≠ 0) → S j j ≠ (∑ i, R i j * R i j) / d := by
  obtain ⟨fit, B, R, e, -, -, -, hr, -, hsg, -⟩ := C84_residuals hy hx pm pk hkN storage work resid true
    (by simpa using hs) hw hX
  obtain ⟨s, S, hs1, is, hS⟩ := hsg rfl
  refine ⟨fit, s, S, R, e, hs1, is, hr (Or.inr rfl), fun j ⟨i, hi⟩ => ?_⟩
  rw [hS]
  have hpos : 0 < ∑ i, R i j * R i j :=
    Finset.sum_pos' (fun _ _ => mul_self_nonneg _) ⟨i, Finset.mem_univ _, mul_self_pos.2 hi⟩
  intro h
  rw [eq_div_iff (by linarith)] at h
  nlinarith

/-- **C84**, the announced sizes suffice: with arrays of `StorageSize` and `WorkSize` cells there is an estimate, with the
residuals and their cross products if asked for; and they are the documented sums. -/
theorem C84_announced {y x : Mat K} {Y : Matrix (Fin N) (Fin m) K} {X : Matrix (Fin N) (Fin k) K} (hy : IsM y Y)
    (hx : IsM x X) (pm : 0 < m) (pk : 0 < k) (hkN : k ≤ N) (storage work : List K) (resid sigma : Bool)
    (hs : (storage.length : Int) = storageSize N m k resid sigma) (hw : (work.length : Int) = olsWork N k) (hX : FullRank X) :
    (∃ fit B, ols N m k resid sigma y x storage work = .ok fit ∧ IsM fit.beta (B : Matrix (Fin k) (Fin m) K) ∧
      (resid = true ∨ sigma = true → fit.resid.isSome) ∧ (sigma = true → fit.sigma.isSome)) ∧
    storage.length = k * m + (if resid = true ∨ sigma = true then N * m else 0) + (if sigma = true then m * m else 0) ∧
    work.length = 2 * k * k + k * N := by
  have hs' : (k : Int) * m + (if resid || sigma then (N : Int) * m else 0) + (if sigma then (m : Int) * m else 0) =
      storage.length := by rw [hs]; rfl
  have hw' : 2 * (k : Int) * k + (k : Int) * N = work.length := by rw [hw]; rfl
  obtain ⟨fit, B, R, e, ib, -, -, r, -, s, -⟩ := C84_residuals hy hx pm pk hkN storage work resid sigma hs'.le hw'.le hX
  refine ⟨⟨fit, B, e, ib, fun h => ?_, fun h => ?_⟩, ?_, ?_⟩
  · obtain ⟨r', h', -⟩ := r h; rw [h']; rfl
  · obtain ⟨s', S, h', -⟩ := s h; rw [h']; rfl
  · zify
    rw [← hs']
    cases resid <;> cases sigma <;> simp
  · zify; rw [← hw']

/-- **C84 is violated by data smaller than announced**: the constructor takes the *maximum* expected sizes, but the check
is the wrong way round: fewer observations than announced are refused. -/
theorem C84_violated_smaller {y x : Mat K} {Y : Matrix (Fin N) (Fin m) K} {X : Matrix (Fin N) (Fin k) K} (hy : IsM y Y)
    (hx : IsM x X) (pk : 0 < k) (N0 : Nat) (h : N < N0) (storage work : List K) (resid sigma : Bool) :
    ols N0 m k resid sigma y x storage work = .throws := by
  unfold ols
  simp only [hy.rows, hy.cols, hx.rows, hx.cols]
  rw [if_neg (by simp)]
  split_ifs with h1 h2 <;> first | rfl | skip
  exfalso
  apply h2
  left
  unfold olsWork
  have : (k : Int) * N < (k : Int) * N0 := by
    apply mul_lt_mul_of_pos_left <;> exact_mod_cast (by assumption)
  linarith

end

/-! ### The violation by more data than announced -/

theorem det_two : (square (⟨1, 1, some [2]⟩ : Mat ℚ)).det = 2 := by
  have : (square (⟨1, 1, some [2]⟩ : Mat ℚ)) = (fun _ _ => 2 : Matrix (Fin 1) (Fin 1) ℚ) := by
    funext i j
    have hi : i = (0 : Fin 1) := Subsingleton.elim (α := Fin 1) _ _
    have hj : j = (0 : Fin 1) := Subsingleton.elim (α := Fin 1) _ _
    rw [hi, hj]; rfl
  rw [this]
  exact Matrix.det_fin_one _

theorem inv_two (w : ℚ) : ∃ v, inv00 (⟨1, 1, some [2]⟩ : Mat ℚ) [w] = .ok (0, ⟨1, 1, some [v]⟩) := by
  unfold inv00
  rw [if_neg (by simp [Mat.mem]), if_pos (by rw [det_two]; norm_num)]
  simp [squareCells, Mat.mem, List.ofFn_succ]

/-- **C84 is violated by more data than announced**: two observations where one was announced are not refused, and the end
of the work array is passed. -/
theorem C84_violated_larger (storage : List ℚ) (a b c : ℚ) :
    ols 1 1 1 false false (⟨2, 1, some [3, 5]⟩ : Mat ℚ) ⟨2, 1, some [1, 1]⟩ storage [a, b, c] = .ub := by
  obtain ⟨v, hv⟩ := inv_two b
  have e1 : trDot0 (⟨2, 1, some [1, 1]⟩ : Mat ℚ) ⟨2, 1, some [1, 1]⟩ ⟨1, 1, some (part [a, b, c] 0 (1 * 1))⟩ =
      .ok ⟨1, 1, some [2]⟩ := by
    have u2 : upTo 0 2 = [0, 1] := by decide
    have u1 : upTo 0 1 = [0] := by decide
    have r0 : read ([1, 1] : List ℚ) 0 = .ok 1 := rfl
    have r1 : read ([1, 1] : List ℚ) 1 = .ok 1 := rfl
    have w0 : ∀ x z : ℚ, write [x] 0 z = .ok [z] := by
      intro x z
      rw [write_ok_of z (by omega) (by simp)]; rfl
    unfold trDot0 gemm dotSum opGet blasWrite
    simp [u1, u2, Mat.withMem, Mat.mem, r0, r1, w0, mulO, ldOk, part]
    norm_num
  have e3 : ∀ v : ℚ, dotTr0 (⟨1, 1, some [v]⟩ : Mat ℚ) ⟨2, 1, some [1, 1]⟩
      ⟨1, 2, some (part [a, b, c] (1 * 1 + 1 * 1) (1 * 2))⟩ = .ub := by
    intro v
    have u2 : upTo 0 2 = [0, 1] := by decide
    have u1 : upTo 0 1 = [0] := by decide
    have r0 : read ([1, 1] : List ℚ) 0 = .ok 1 := rfl
    have r1 : read ([1, 1] : List ℚ) 1 = .ok 1 := rfl
    have rv : read ([v] : List ℚ) 0 = .ok v := rfl
    have w0 : ∀ x z : ℚ, write [x] 0 z = .ok [z] := by
      intro x z
      rw [write_ok_of z (by omega) (by simp)]; rfl
    have w1 : ∀ x z : ℚ, write [x] 1 z = .ub := by
      intro x z
      unfold write; simp
    unfold dotTr0 gemm dotSum opGet blasWrite
    simp [u1, u2, Mat.withMem, Mat.mem, r0, r1, rv, w0, w1, mulO, ldOk, part]
  unfold ols
  simp only
  rw [if_neg (by decide), if_neg (by decide), if_neg (by decide), e1]
  simp only [Outcome.ok_bind]
  have : part [a, b, c] (1 * 1) (1 * 1) = [b] := rfl
  rw [this, hv]
  simp only [Outcome.ok_bind, ne_eq, not_true, if_false]
  rw [e3]; rfl

/-! ## Non-vacuity: a constant and a trend, three observations -/

/-- The matrix over a list. -/
theorem isM_list {K : Type} [Field K] [DecidableEq K] (r c : Nat) (l : List K) (h : l.length = r * c)
    (M : Matrix (Fin r) (Fin c) K) (hv : ∀ (i : Fin r) (j : Fin c), l[(i : Nat) + r * j]? = some (M i j)) :
    IsM (⟨(r : Int), (c : Int), some l⟩ : Mat K) M := by
  refine ⟨⟨⟨by simp, by simp, rfl, by simp only [Mat.mem, Option.getD_some, h]; push_cast; exact le_refl _⟩, rfl, rfl⟩, ?_⟩
  intro i j
  unfold Mat.val
  simp only [Mat.mem, Option.getD_some]
  rw [show ((i : Nat) + (r : Int) * (j : Nat) : Int).toNat = (i : Nat) + r * j by norm_cast, hv]
  rfl

def exX : Matrix (Fin 3) (Fin 2) ℚ := !![1, 1; 1, 2; 1, 3]
def exY : Matrix (Fin 3) (Fin 1) ℚ := !![1; 2; 6]

theorem ex_x : IsM (⟨3, 2, some [1, 1, 1, 1, 2, 3]⟩ : Mat ℚ) exX :=
  isM_list 3 2 _ rfl _ (by decide)

theorem ex_y : IsM (⟨3, 1, some [1, 2, 6]⟩ : Mat ℚ) exY :=
  isM_list 3 1 _ rfl _ (by decide)

theorem ex_rank : FullRank exX := by
  intro b h
  have h0 := h 0
  have h1 := h 1
  simp [exX, Fin.sum_univ_two] at h0 h1
  funext l
  fin_cases l
  · show b 0 = 0; linarith
  · show b 1 = 0; linarith

example : ∃ fit B, ols 3 1 2 true true (⟨3, 1, some [1, 2, 6]⟩ : Mat ℚ) ⟨3, 2, some [1, 1, 1, 1, 2, 3]⟩
    (List.replicate 6 0) (List.replicate 14 0) = .ok fit ∧ IsM fit.beta (B : Matrix (Fin 2) (Fin 1) ℚ) := by
  obtain ⟨fit, B, e, i, -⟩ := C84_estimate ex_y ex_x (by decide) (by decide) (by decide) (List.replicate 6 0)
    (List.replicate 14 0) true true (by decide) (by decide) ex_rank
  exact ⟨fit, B, e, i⟩

end Ls
end LDT
