import Verif.Lemmas.Dense2
import Verif.Lemmas.Ols
/-!
# The two estimations of a system in terms of matrices
-/
namespace LDT
namespace Su
open Mx Matrix Ls
open Co (part)

section
variable {K : Type} [Field K] [DecidableEq K] {N m k q : Nat}

/-- Enough memory for the results. -/
structure Room (e : Est K) (N m k : Nat) : Prop where
  gamma : e.gamma.data.isSome ∧ m * k ≤ e.gamma.mem.length
  beta : Sized e.beta k m
  gammaVar : e.gammaVar.data.isSome ∧ (m * k) * (m * k) ≤ e.gammaVar.mem.length
  yhat : Sized e.yhat N m
  resid : Sized e.resid N m
  residVar : Sized e.residVar m m

theorem sized_of_mem {A : Mat K} {r c : Nat} (ha : A.data.isSome) (h : r * c ≤ A.mem.length) (R C : Int) (hR : R = r)
    (hC : C = c) : Sized { A with rows := R, cols := C } r c := by
  subst hR hC
  refine ⟨⟨by simp, by simp, ha, ?_⟩, rfl, rfl⟩
  show (r : Int) * c ≤ (A.mem.length : Int)
  exact_mod_cast h

theorem mem_of_sized {A : Mat K} {r c : Nat} (h : Sized A r c) : A.data.isSome ∧ r * c ≤ A.mem.length := by
  refine ⟨h.wf.alloc, ?_⟩
  have := h.wf.size
  rw [h.rows, h.cols] at this
  exact_mod_cast this

theorem mem_same {A B : Mat K} (s : SameShape A B) {n : Nat} (h : A.data.isSome ∧ n ≤ A.mem.length) :
    B.data.isSome ∧ n ≤ B.mem.length := ⟨by rw [s.alloc]; exact h.1, by rw [s.len]; exact h.2⟩

/-- The covariance matrix of residuals. -/
def covM (E : Matrix (Fin N) (Fin m) K) : Matrix (Fin m) (Fin m) K := fun i j => (Eᵀ * E) i j / ((N : Int) : K)

theorem fitted_isM {y x beta : Mat K} {Y : Matrix (Fin N) (Fin m) K} {X : Matrix (Fin N) (Fin k) K}
    {B : Matrix (Fin k) (Fin m) K} (hy : IsM y Y) (hx : IsM x X) (hb : IsM beta B) (pN : 0 < N) (pm : 0 < m) (pk : 0 < k)
    (e : Est K) (h1 : Sized e.yhat N m) (h2 : Sized e.resid N m) (h3 : Sized e.residVar m m) :
    ∃ yhat resid s, fitted y x beta e = .ok (yhat, resid, s) ∧ IsM yhat (X * B) ∧ IsM resid (Y - X * B) ∧
      IsM s (covM (Y - X * B)) := by
  obtain ⟨yhat, e1, i1, -⟩ := dot0_isM hx hb h1 pN pk
  obtain ⟨resid, e2, i2, -⟩ := subM_isM hy i1 h2
  obtain ⟨s, e3, i3, -⟩ := dotAtA_isM i2 h3 pN pm
  obtain ⟨s', e4, i4, -⟩ := divSIn_isM i3 ((y.rows : Int) : K)
  refine ⟨yhat, resid, s', ?_, i1, i2, ?_⟩
  · unfold fitted
    rw [dot_eq (by rw [hx.cols, hb.rows]) (by rw [hx.rows, h1.rows]) (by rw [hb.cols, h1.cols]), e1]
    simp only [Outcome.ok_bind, e2, e3, e4, Outcome.pure_eq]
  · have : (fun i j => ((Y - X * B)ᵀ * (Y - X * B)) i j / ((y.rows : Int) : K) : Matrix (Fin m) (Fin m) K) =
        covM (Y - X * B) := by rw [hy.rows]; rfl
    rw [← this]; exact i4

/-- What the estimation without restrictions leaves. -/
structure Un (e : Est K) (Y : Matrix (Fin N) (Fin m) K) (X : Matrix (Fin N) (Fin k) K) (B : Matrix (Fin k) (Fin m) K)
    (doVar : Bool) : Prop where
  room : Room e N m k
  gamma : IsM e.gamma (vecM B)
  beta : IsM e.beta B
  yhat : IsM e.yhat (X * B)
  resid : IsM e.resid (Y - X * B)
  residVar : IsM e.residVar (covM (Y - X * B))
  gammaVar : doVar = true → IsM e.gammaVar (kronM (covM (Y - X * B)) (Xᵀ * X)⁻¹)

theorem estimUn_core (lu : List K → List K) {y x : Mat K} {Y : Matrix (Fin N) (Fin m) K} {X : Matrix (Fin N) (Fin k) K}
    (hy : IsM y Y) (hx : IsM x X) (pN : 0 < N) (pm : 0 < m) (pk : 0 < k) (work : List K)
    (hw : (k : Int) * k + (k : Int) * m ≤ work.length) (e : Est K) (he : Room e N m k) (hg : Sized e.gamma (m * k) 1)
    (hv : Sized e.gammaVar (m * k) (m * k)) (doVar : Bool) :
    ((Xᵀ * X).det ≠ 0 → ∃ e', estimUn lu doVar y x work e = .ok e' ∧ Un e' Y X ((Xᵀ * X)⁻¹ * (Xᵀ * Y)) doVar) ∧
    ((Xᵀ * X).det = 0 → estimUn lu doVar y x work e = .throws) := by
  have p0 : (0 : Int) ≤ (k : Int) * k := by positivity
  have p1 : (0 : Int) ≤ (k : Int) * m := by positivity
  obtain ⟨xtx, e1, i1, -⟩ := dotAtA_isM hx (sized_part work 0 k k (by omega) (by omega)) pN pk
  have inv := inv0_isM lu i1 pk
  constructor
  · intro hd
    obtain ⟨xi, e2, i2, -⟩ := inv.1 hd
    obtain ⟨xty, e3, i3, -⟩ := trDot0_isM hx hy (sized_part work ((k : Int) * k) k m (by omega) (by omega)) pk pN
    obtain ⟨beta, e4, i4, s4⟩ := dot0_isM i2 i3 he.beta pk pk
    obtain ⟨gamma, e5, i5, s5⟩ := copyTo00_vec i4 hg
    obtain ⟨yhat, resid, s, e6, i6, i7, i8⟩ := fitted_isM hy hx i4 pN pm pk e he.yhat he.resid he.residVar
    obtain ⟨gv, e9, i9, s9⟩ := kron_isM i8 i2 hv
    have start : estimUn lu doVar y x work e = (if doVar then do
        let gv ← s.kron xi e.gammaVar
        pure ⟨gamma, beta, gv, yhat, resid, s⟩
      else pure ⟨gamma, beta, e.gammaVar, yhat, resid, s⟩) := by
      unfold estimUn
      simp only [hx.cols, hy.cols, e1, Outcome.ok_bind, e2, ne_eq, not_true, if_false]
      rw [trDot_eq (by rw [hx.rows, hy.rows]) (by rw [hx.cols]) (by rw [hy.cols]), e3]
      simp only [Outcome.ok_bind]
      rw [dot_eq (by rw [i2.cols, i3.rows]) (by rw [i2.rows, he.beta.rows]) (by rw [i3.cols, he.beta.cols]), e4]
      simp only [Outcome.ok_bind, e5, e6]
    cases doVar with
    | true =>
      refine ⟨_, by rw [start]; simp only [if_true, e9, Outcome.ok_bind]; rfl, ?_⟩
      exact ⟨⟨mem_same s5 he.gamma, i4.toSized, mem_same s9 he.gammaVar, i6.toSized, i7.toSized, i8.toSized⟩,
        i5, i4, i6, i7, i8, fun _ => i9⟩
    | false =>
      refine ⟨_, by rw [start]; simp only [Bool.false_eq_true, if_false]; rfl, ?_⟩
      exact ⟨⟨mem_same s5 he.gamma, i4.toSized, he.gammaVar, i6.toSized, i7.toSized, i8.toSized⟩,
        i5, i4, i6, i7, i8, fun h => by simp at h⟩
  · intro hd
    unfold estimUn
    simp only [hx.cols, hy.cols, e1, Outcome.ok_bind, inv.2 hd]
    simp

/-- The coefficients with the restrictions. -/
def unvec (V : Matrix (Fin (m * k)) (Fin 1) K) : Matrix (Fin k) (Fin m) K := fun l j => V (finProdFinEquiv (j, l)) 0

/-- The matrix to be inverted. -/
noncomputable def gramR (W : Matrix (Fin m) (Fin m) K) (X : Matrix (Fin N) (Fin k) K) (Rm : Matrix (Fin (m * k)) (Fin q) K) :
    Matrix (Fin q) (Fin q) K := Rmᵀ * kronM W (Xᵀ * X) * Rm

/-- The restricted estimate. -/
noncomputable def gammaR (W : Matrix (Fin m) (Fin m) K) (X : Matrix (Fin N) (Fin k) K) (Rm : Matrix (Fin (m * k)) (Fin q) K)
    (Y : Matrix (Fin N) (Fin m) K) : Matrix (Fin q) (Fin 1) K :=
  (gramR W X Rm)⁻¹ * ((kronM W X * Rm)ᵀ * vecM Y)

/-- What the estimation with restrictions leaves; `W` are the weights. -/
structure Re (e : Est K) (Y : Matrix (Fin N) (Fin m) K) (X : Matrix (Fin N) (Fin k) K) (Rm : Matrix (Fin (m * k)) (Fin q) K)
    (W : Matrix (Fin m) (Fin m) K) : Prop where
  room : Room e N m k
  gamma : IsM e.gamma (gammaR W X Rm Y)
  beta : IsM e.beta (unvec (Rm * gammaR W X Rm Y))
  yhat : IsM e.yhat (X * unvec (Rm * gammaR W X Rm Y))
  resid : IsM e.resid (Y - X * unvec (Rm * gammaR W X Rm Y))
  residVar : IsM e.residVar (covM (Y - X * unvec (Rm * gammaR W X Rm Y)))
  gammaVar : IsM e.gammaVar (gramR W X Rm)⁻¹

/-- The estimation with weights `W` that are in the memory of `resid_var` (the inverse or not). -/
theorem estimR_weights (lu : List K → List K) {y x R v : Mat K} {Y : Matrix (Fin N) (Fin m) K} {X : Matrix (Fin N) (Fin k) K}
    {Rm : Matrix (Fin (m * k)) (Fin q) K} (hy : IsM y Y) (hx : IsM x X) (hR : IsM R Rm) (pN : 0 < N) (pm : 0 < m) (pk : 0 < k)
    (pq : 0 < q) (hq : q ≤ m * k) (work : List K)
    (hw : (k : Int) * k + ((k : Int) * m) * ((k : Int) * m) + (q : Int) * ((k : Int) * m) + ((N : Int) * m) * ((k : Int) * m) +
      ((N : Int) * m) * q + (q : Int) * 1 ≤ work.length) (e : Est K) (he : Room e N m k) (info : Int)
    (hinv : inv0 lu e.residVar = .ok (info, v)) {W : Matrix (Fin m) (Fin m) K} (hW : IsM v W) :
    ((gramR W X Rm).det ≠ 0 → ∃ e', estimR lu y x R work e = .ok e' ∧ Re e' Y X Rm W) ∧
    ((gramR W X Rm).det = 0 → estimR lu y x R work e = .throws) := by
  have pmk : 0 < m * k := Nat.mul_pos pm pk
  have pNm : 0 < m * N := Nat.mul_pos pm pN
  have a0 : (0 : Int) ≤ (k : Int) * k := by positivity
  have a1 : (0 : Int) ≤ ((k : Int) * m) * ((k : Int) * m) := by positivity
  have a2 : (0 : Int) ≤ (q : Int) * ((k : Int) * m) := by positivity
  have a3 : (0 : Int) ≤ ((N : Int) * m) * ((k : Int) * m) := by positivity
  have a4 : (0 : Int) ≤ ((N : Int) * m) * q := by positivity
  have c1 : (k : Int) * m = ((m * k : Nat) : Int) := by push_cast; ring
  have c2 : (N : Int) * m = ((m * N : Nat) : Int) := by push_cast; ring
  obtain ⟨xtx, e1, i1, -⟩ := dotAtA_isM hx (sized_part work 0 k k (by omega) (by omega)) pN pk
  obtain ⟨vxx, e2, i2, -⟩ := kron_isM hW i1
    (sized_part' work ((k : Int) * k) ((k : Int) * m) ((k : Int) * m) (((k : Int) * m) * ((k : Int) * m)) (m * k) (m * k) c1 c1
      rfl (by omega) (by omega))
  have s3 := sized_part' work ((k : Int) * k + ((k : Int) * m) * ((k : Int) * m)) (q : Int) ((k : Int) * m)
    ((q : Int) * ((k : Int) * m)) q (m * k) rfl c1 rfl (by omega) (by omega)
  obtain ⟨rvx, e3, i3, -⟩ := trDot0_isM hR i2 s3 pq pmk
  have s4 : Sized { e.gammaVar with rows := (q : Int), cols := (q : Int) } q q :=
    sized_of_mem he.gammaVar.1 (le_trans (Nat.mul_le_mul hq hq) he.gammaVar.2) _ _ rfl rfl
  obtain ⟨gv, e4, i4, sh4⟩ := dot0_isM i3 hR s4 pq pmk
  have inv := inv0_isM lu i4 pq
  have start : estimR lu y x R work e = (do
    let (info, gv) ← inv0 lu gv
    if info ≠ 0 then .throws
    else do
      let vx ← v.kron x ⟨(N : Int) * m, (k : Int) * m, some (part work ((k : Int) * k + ((k : Int) * m) * ((k : Int) * m) +
        (q : Int) * ((k : Int) * m)) (((N : Int) * m) * ((k : Int) * m)))⟩
      let vxR ← vx.dot R ⟨(N : Int) * m, (q : Int), some (part work ((k : Int) * k + ((k : Int) * m) * ((k : Int) * m) +
        (q : Int) * ((k : Int) * m) + ((N : Int) * m) * ((k : Int) * m)) (((N : Int) * m) * q))⟩ 1 0
      let z ← vxR.trDot { y with rows := (N : Int) * m, cols := 1 } ⟨(q : Int), 1, some (part work ((k : Int) * k +
        ((k : Int) * m) * ((k : Int) * m) + (q : Int) * ((k : Int) * m) + ((N : Int) * m) * ((k : Int) * m) +
        ((N : Int) * m) * q) ((q : Int) * 1))⟩ 1 0
      let gamma ← gv.dot z { e.gamma with rows := (q : Int), cols := 1 } 1 0
      let beta ← dot0 R gamma e.beta
      let (yhat, resid, s) ← fitted y x beta { e with residVar := v }
      pure ⟨gamma, beta, gv, yhat, resid, s⟩) := by
    unfold estimR
    simp only [hy.rows, hy.cols, hx.cols, hR.cols, hinv, Outcome.ok_bind, e1, e2]
    rw [trDot_eq (by rw [hR.rows, i2.rows]) (by rw [hR.cols]) (by rw [i2.cols]; exact c1.symm), e3]
    simp only [Outcome.ok_bind]
    rw [dot_eq (by rw [i3.cols, hR.rows]) (by rw [i3.rows]) (by rw [hR.cols]), e4]
    rfl
  constructor
  · intro hd
    obtain ⟨gi, e5, i5, sh5⟩ := inv.1 hd
    obtain ⟨vx, e6, i6, -⟩ := kron_isM hW hx (sized_part' work ((k : Int) * k + ((k : Int) * m) * ((k : Int) * m) +
        (q : Int) * ((k : Int) * m)) ((N : Int) * m) ((k : Int) * m) (((N : Int) * m) * ((k : Int) * m)) (m * N) (m * k) c2 c1
      rfl (by omega) (by omega))
    have s7 := sized_part' work ((k : Int) * k + ((k : Int) * m) * ((k : Int) * m) +
        (q : Int) * ((k : Int) * m) + ((N : Int) * m) * ((k : Int) * m)) ((N : Int) * m) (q : Int) (((N : Int) * m) * q)
        (m * N) q c2 rfl rfl (by omega) (by omega)
    obtain ⟨vxR, e7, i7, -⟩ := dot0_isM i6 hR s7 pNm pmk
    have s8 := sized_part' work ((k : Int) * k + ((k : Int) * m) * ((k : Int) * m) +
        (q : Int) * ((k : Int) * m) + ((N : Int) * m) * ((k : Int) * m) + ((N : Int) * m) * q) (q : Int) 1 ((q : Int) * 1)
        q 1 rfl rfl rfl (by omega) (by omega)
    have hvy := hy.vec ((N : Int) * m) 1 c2 rfl
    obtain ⟨z, e8, i8, -⟩ := trDot0_isM i7 hvy s8 pq pNm
    have s9 : Sized { e.gamma with rows := (q : Int), cols := 1 } q 1 :=
      sized_of_mem he.gamma.1 (by rw [mul_one]; exact le_trans hq he.gamma.2) _ _ rfl rfl
    obtain ⟨gamma, e9, i9, sh9⟩ := dot0_isM i5 i8 s9 pq pq
    have s10 : Sized { e.beta with rows := ((m * k : Nat) : Int), cols := 1 } (m * k) 1 :=
      he.beta.reshape (by rw [mul_one, mul_comm]) _ _ rfl rfl
    obtain ⟨b', e10, i10, sh10⟩ := dot0_isM hR i9 s10 pmk pq
    have hb : ∃ beta, dot0 R gamma e.beta = .ok beta ∧ IsM beta (unvec (Rm * gammaR W X Rm Y)) := by
      refine ⟨{ e.beta with data := b'.data }, ?_, ?_⟩
      · unfold dot0 Mat.withMem at e10 ⊢
        revert e10
        simp only [Mat.mem]
        generalize gemm false false R.rows gamma.cols R.cols 1 (R.data.getD []) R.rows (gamma.data.getD []) R.cols 0
          (e.beta.data.getD []) R.rows = o
        intro e10
        cases o with
        | ok l =>
          simp only [Outcome.ok_bind, Outcome.pure_eq, Outcome.ok.injEq] at e10 ⊢
          rw [← e10]
        | throws => simp at e10
        | ub => simp at e10
        | diverges => simp at e10
      · have hsz : Sized { e.beta with data := b'.data } k m := by
          refine ⟨⟨he.beta.wf.rows_nonneg, he.beta.wf.cols_nonneg, ?_, ?_⟩, he.beta.rows, he.beta.cols⟩
          · exact i10.wf.alloc
          · have := he.beta.wf.size
            have h2 := sh10.len
            show e.beta.rows * e.beta.cols ≤ (b'.mem.length : Int)
            rw [h2]; exact this
        refine isM_unvec hsz fun p => ?_
        have := i10.cell p 0
        rw [show ((0 : Fin 1) : Nat) = 0 from rfl, mul_zero, add_zero] at this
        exact this
    obtain ⟨beta, e11, i11⟩ := hb
    obtain ⟨yhat, resid, s, e12, i12, i13, i14⟩ := fitted_isM hy hx i11 pN pm pk { e with residVar := v } he.yhat he.resid
      hW.toSized
    refine ⟨⟨gamma, beta, gi, yhat, resid, s⟩, ?_, ⟨⟨?_, i11.toSized, ?_, i12.toSized, i13.toSized, i14.toSized⟩, i9, i11, i12, i13, i14, i5⟩⟩
    · rw [start, e5]
      simp only [Outcome.ok_bind, ne_eq, not_true, if_false, e6]
      rw [dot_eq (by rw [i6.cols, hR.rows]) (by rw [i6.rows]; exact c2.symm) (by rw [hR.cols]), e7]
      simp only [Outcome.ok_bind]
      rw [trDot_eq (by rw [i7.rows]; exact c2.symm) (by rw [i7.cols]) (by rfl), e8]
      simp only [Outcome.ok_bind]
      rw [dot_eq (by rw [i5.cols, i8.rows]) (by rw [i5.rows]) (by rw [i8.cols]; rfl), e9]
      simp only [Outcome.ok_bind, e11, e12]
      rfl
    · exact mem_same sh9 he.gamma
    · exact mem_same (sh4.trans sh5) he.gammaVar
  · intro hd
    rw [start, inv.2 hd]
    simp

theorem estimR_core (lu : List K → List K) {y x R : Mat K} {Y : Matrix (Fin N) (Fin m) K} {X : Matrix (Fin N) (Fin k) K}
    {Rm : Matrix (Fin (m * k)) (Fin q) K} (hy : IsM y Y) (hx : IsM x X) (hR : IsM R Rm) (pN : 0 < N) (pm : 0 < m) (pk : 0 < k)
    (pq : 0 < q) (hq : q ≤ m * k) (work : List K)
    (hw : (k : Int) * k + ((k : Int) * m) * ((k : Int) * m) + (q : Int) * ((k : Int) * m) + ((N : Int) * m) * ((k : Int) * m) +
      ((N : Int) * m) * q + (q : Int) * 1 ≤ work.length) (e : Est K) (he : Room e N m k)
    {S : Matrix (Fin m) (Fin m) K} (hS : IsM e.residVar S) (hd : S.det ≠ 0) :
    ((gramR S⁻¹ X Rm).det ≠ 0 → ∃ e', estimR lu y x R work e = .ok e' ∧ Re e' Y X Rm S⁻¹) ∧
    ((gramR S⁻¹ X Rm).det = 0 → estimR lu y x R work e = .throws) := by
  obtain ⟨v, e1, i1, -⟩ := (inv0_isM lu hS pm).1 hd
  exact estimR_weights lu hy hx hR pN pm pk pq hq work hw e he 0 e1 i1

end
end Su
end LDT
