import Verif.Lemmas.SurProj
import Verif.Props.SurR
/-!
# C93: projections of a system of regressions

`project restricted doVar n0 m0 k0 m e R x storage work` is `SurProjection(n0, m0, k0, restricted, doVar)` followed by
`Calculate(model, x, storage, work)` for a model with `m` equations, the estimates `e` and the restrictions `R`.
-/
namespace LDT
namespace Su
open Mx Matrix Ls
open Co (part)

section
variable {K : Type} [Field K] [DecidableEq K] {n m k q : Nat}

theorem projStorage_mono (doVar : Bool) {n m n0 m0 : Int} (hn : 0 ≤ n) (hm : 0 ≤ m) (h1 : n ≤ n0) (h2 : m ≤ m0) :
    projStorage doVar n m ≤ projStorage doVar n0 m0 := by
  have a : m * n ≤ m0 * n0 := mul_le_mul h2 h1 hn (by omega)
  have b : m * m ≤ m0 * m0 := mul_le_mul h2 h2 hm (by omega)
  unfold projStorage
  cases doVar <;> simp <;> omega

theorem projWork_mono (r doVar : Bool) {m k m0 k0 : Int} (hm : 0 ≤ m) (hk : 0 ≤ k) (h2 : m ≤ m0) (h3 : k ≤ k0) :
    projWork r doVar m k ≤ projWork r doVar m0 k0 := by
  have c : k * m ≤ k0 * m0 := mul_le_mul h3 h2 hm (by omega)
  have d : m * (k * m) ≤ m0 * (k0 * m0) := mul_le_mul h2 c (mul_nonneg hk hm) (by omega)
  unfold projWork
  cases doVar <;> cases r <;> simp [mul_assoc] <;> omega

theorem layout_rows (r doVar : Bool) (X : Matrix (Fin n) (Fin k) K) (B : Matrix (Fin k) (Fin m) K) (C : Fin n → Matrix (Fin m) (Fin m) K)
    (storage work : List K) (hs : projStorage doVar n m ≤ storage.length) (hw : projWork r doVar m k ≤ work.length) (hq : q ≤ m * k)
    (hr : r = false → q = m * k) :
    Rows r doVar q X B C 0 (projLayout r doVar (n : Int) m k q storage work) := by
  have hs' : projStorage doVar (n : Int) m = m * n + (if doVar then (m : Int) * m + m * n else 0) := rfl
  have hw' : projWork r doVar (m : Int) k = m + k + (if doVar then (if r then 3 else 2) * (m : Int) * (k * m) else 0) := rfl
  rw [hs'] at hs
  rw [hw'] at hw
  have a1 : (0 : Int) ≤ (m : Int) * n := by positivity
  have a2 : (0 : Int) ≤ (m : Int) * m := by positivity
  have a3 : (0 : Int) ≤ (m : Int) * ((k : Int) * m) := by positivity
  have c1 : (k : Int) * m = ((m * k : Nat) : Int) := by push_cast; ring
  have hq' : (m : Int) * q ≤ (m : Int) * ((k : Int) * m) := by
    rw [c1]; exact mul_le_mul_of_nonneg_left (by exact_mod_cast hq) (by omega)
  have a4 : (0 : Int) ≤ (m : Int) * q := by positivity
  refine ⟨?_, fun i j h => by omega, ?_, ?_, ?_, fun _ i j h => by omega, fun _ i h => by omega⟩
  · refine sized_part' storage _ _ _ _ _ _ rfl rfl rfl le_rfl ?_
    have : (n : Int) * m = m * n := mul_comm _ _
    split_ifs at hs <;> omega
  · refine sized_part' work _ _ _ _ _ _ rfl rfl rfl (by omega) ?_
    cases doVar <;> cases r <;> simp [mul_assoc] at hw ⊢ <;> omega
  · refine sized_part' work _ _ _ _ _ _ rfl rfl rfl (by omega) ?_
    cases doVar <;> cases r <;> simp [mul_assoc] at hw ⊢ <;> omega
  · intro hd
    subst hd
    have hcomm : (n : Int) * m = m * n := mul_comm _ _
    have hc2 : (k : Int) * m * m = m * (k * m) := by ring
    have hc3 : (q : Int) * m = m * q := mul_comm _ _
    have hc4 : (k : Int) * (m * m) = m * (k * m) := by ring
    simp only [if_true] at hs hw
    refine ⟨⟨?_, ?_, ?_, ?_⟩, ?_⟩
    · exact sized_part' storage _ _ _ _ _ _ rfl rfl rfl (by omega) (by omega)
    · refine sized_part' work _ _ _ _ _ _ c1 rfl rfl (by omega) ?_
      cases r <;> simp [mul_assoc] at hw ⊢ <;> omega
    · refine sized_part' work _ _ _ _ _ _ rfl rfl rfl (by omega) ?_
      cases r <;> simp [mul_assoc] at hw ⊢ <;> omega
    · intro hr1
      subst hr1
      refine sized_part' work _ _ _ _ _ _ rfl rfl rfl (by omega) ?_
      simp [mul_assoc] at hw ⊢
      omega
    · exact sized_part' storage _ _ _ _ _ _ rfl rfl rfl (by omega) (by omega)

/-- What the object holds: for each row of `x` the projections, and - if asked for - their variances; the covariances are those of
the last row. -/
structure Projected (doVar : Bool) (s : Proj K) (X : Matrix (Fin n) (Fin k) K) (B : Matrix (Fin k) (Fin m) K)
    (C : Fin n → Matrix (Fin m) (Fin m) K) : Prop where
  means : IsM s.means (fun i j => ∑ l, X i l * B l j : Matrix (Fin n) (Fin m) K)
  variances : doVar = true → IsM s.variances (fun i j => C i j j : Matrix (Fin n) (Fin m) K)
  covariance : doVar = true → ∀ i : Fin n, (i : Nat) + 1 = n → IsM s.covariance (C i)

theorem Rows.projected {r doVar : Bool} {s : Proj K} {X : Matrix (Fin n) (Fin k) K} {B : Matrix (Fin k) (Fin m) K}
    {C : Fin n → Matrix (Fin m) (Fin m) K} (h : Rows r doVar q X B C n s) : Projected doVar s X B C :=
  ⟨⟨h.means, fun i j => h.mean i j (by have := i.2; omega)⟩,
    fun hd => ⟨(h.room hd).2, fun i j => h.variance hd i j (by have := i.2; omega)⟩,
    fun hd i hi => h.last hd i (by omega)⟩

/-- **C93**, without restrictions: for coefficients `B` with the covariances `V` and residuals with the covariances `S`, the projection
for row `x` of the new data in equation `j` is `Σ_l x_l B_lj`, and its covariances are `S + (I ⊗ x') V (I ⊗ x)`. -/
theorem C93_projection {e : Est K} {x : Mat K} {X : Matrix (Fin n) (Fin k) K} {B : Matrix (Fin k) (Fin m) K}
    {V : Matrix (Fin (m * k)) (Fin (m * k)) K} {S : Matrix (Fin m) (Fin m) K} (hx : IsM x X) (hB : IsM e.beta B) (hV : IsM e.gammaVar V)
    (hS : IsM e.residVar S) (pm : 0 < m) (pk : 0 < k) (doVar : Bool) {n0 m0 k0 : Int} (hn : (n : Int) ≤ n0) (hm : (m : Int) ≤ m0)
    (hk : (k : Int) ≤ k0) (R : Option (Mat K)) (storage work : List K)
    (hs : projStorage doVar n0 m0 ≤ storage.length) (hw : projWork false doVar m0 k0 ≤ work.length) :
    ∃ s, project false doVar n0 m0 k0 m e R x storage work = .ok s ∧
      Projected doVar s X B (fun i => projectionCov V S (fun l => X i l)) := by
  have m1 := projStorage_mono doVar (n := n) (m := m) (by omega) (by omega) hn hm
  have m2 := projWork_mono false doVar (m := m) (k := k) (by omega) (by omega) hm hk
  obtain ⟨s, e1, h1⟩ := rows_loop (q := m * k) false doVar hx hB pm pk (fun i => projectionCov V S (fun l => X i l)) none (by
      intro hd s i cr hr
      obtain ⟨iox, rg, c, e1, h1, h2, h3⟩ := projCov_un hV hS pm pk cr hr
      exact ⟨_, e1, rfl, rfl, rfl, rfl, ⟨h3.toSized, h1, h2, by simp⟩, h3⟩)
    (layout_rows false doVar X B _ storage work (by omega) (by omega) le_rfl (fun _ => rfl))
  refine ⟨s, ?_, h1.projected⟩
  unfold project
  simp only [hx.rows, hx.cols]
  rw [if_neg (by omega), if_neg (by simp), show (k : Int) * m = ((m * k : Nat) : Int) by push_cast; ring]
  exact e1

/-- **C93**, with restrictions `vec B = R g`: the same with the covariances `R V R'` of the coefficients, `V` being those of `g`. -/
theorem C93_projection_restricted {e : Est K} {x Rs : Mat K} {X : Matrix (Fin n) (Fin k) K} {B : Matrix (Fin k) (Fin m) K}
    {R : Matrix (Fin (m * k)) (Fin q) K} {V : Matrix (Fin q) (Fin q) K} {S : Matrix (Fin m) (Fin m) K} (hx : IsM x X)
    (hB : IsM e.beta B) (hR : IsM Rs R) (hV : IsM e.gammaVar V)
    (hS : IsM e.residVar S) (pm : 0 < m) (pk : 0 < k) (pq : 0 < q) (hq : q ≤ m * k) (doVar : Bool) {n0 m0 k0 : Int}
    (hn : (n : Int) ≤ n0) (hm : (m : Int) ≤ m0) (hk : (k : Int) ≤ k0) (storage work : List K)
    (hs : projStorage doVar n0 m0 ≤ storage.length) (hw : projWork true doVar m0 k0 ≤ work.length) :
    ∃ s, project true doVar n0 m0 k0 m e (some Rs) x storage work = .ok s ∧
      Projected doVar s X B (fun i => projectionCov (coefCov R V) S (fun l => X i l)) := by
  have m1 := projStorage_mono doVar (n := n) (m := m) (by omega) (by omega) hn hm
  have m2 := projWork_mono true doVar (m := m) (k := k) (by omega) (by omega) hm hk
  obtain ⟨s, e1, h1⟩ := rows_loop (q := q) true doVar hx hB pm pk (fun i => projectionCov (coefCov R V) S (fun l => X i l)) (some Rs) (by
      intro hd s i cr hr
      obtain ⟨iox, ri, rg, c, e1, h1, h2, h3, h4⟩ := projCov_r hR hV hS pm pk pq cr hr
      exact ⟨_, e1, rfl, rfl, rfl, rfl, ⟨h4.toSized, h1, h3, fun _ => h2⟩, h4⟩)
    (layout_rows true doVar X B _ storage work (by omega) (by omega) hq (by simp))
  refine ⟨s, ?_, h1.projected⟩
  unfold project
  simp only [hx.rows, hx.cols]
  rw [if_neg (by omega), if_pos trivial, hR.cols]
  exact e1

/-- **C93**, what is refused: new data with a number of columns other than the number of regressors (if it has rows). -/
theorem C93_refused {a : Nat} {e : Est K} {x : Mat K} {X : Matrix (Fin n) (Fin k) K} {B : Matrix (Fin a) (Fin m) K}
    (hx : IsM x X) (hB : IsM e.beta B) (pn : 0 < n) (hak : a ≠ k) (restricted doVar : Bool) {n0 m0 k0 : Int} (hn : (n : Int) ≤ n0)
    (hm : (m : Int) ≤ m0) (hk : (k : Int) ≤ k0) (R : Option (Mat K)) (hR : restricted = true → R ≠ none) (storage work : List K)
    (hw : projWork restricted doVar m0 k0 ≤ work.length) :
    project restricted doVar n0 m0 k0 m e R x storage work = .throws := by
  have m2 := projWork_mono restricted doVar (m := m) (k := k) (by omega) (by omega) hm hk
  have hrow : ∀ qq : Int, Sized (projLayout restricted doVar (n : Int) m k qq storage work).row k 1 := by
    intro qq
    refine sized_part' work _ _ _ _ _ _ rfl rfl rfl (by omega) ?_
    have a3 : (0 : Int) ≤ (m : Int) * ((k : Int) * m) := by positivity
    have hw' : projWork restricted doVar (m : Int) k =
      m + k + (if doVar then (if restricted then 3 else 2) * (m : Int) * (k * m) else 0) := rfl
    rw [hw'] at m2
    cases doVar <;> cases restricted <;> simp [mul_assoc] at m2 hw ⊢ <;> omega
  have key : ∀ (R : Option (Mat K)) (qq : Int),
      (upTo 0 (n : Int)).foldlM (projRow doVar m e R x) (projLayout restricted doVar (n : Int) m k qq storage work) = .throws := by
    intro R qq
    have hu : upTo 0 (n : Int) = 0 :: upTo 1 (n : Int) := by
      obtain ⟨b, rfl⟩ : ∃ b : Nat, n = b + 1 := ⟨n - 1, by omega⟩
      unfold upTo
      rw [show (((b + 1 : Nat) : Int) - 0).toNat = b + 1 by omega, show (((b + 1 : Nat) : Int) - 1).toNat = b by omega,
        List.range_succ_eq_map]
      simp only [List.map_cons, List.map_map, Nat.cast_zero, add_zero]
      congr 1
      apply List.map_congr_left
      intro a _
      simp only [Function.comp, Nat.succ_eq_add_one]
      push_cast; ring
    obtain ⟨row, e1, i1⟩ := getRow0_isM hx (hrow qq) ⟨0, pn⟩
    have e2 := (C92_t_dot_vector e.beta row (projLayout restricted doVar (n : Int) m k qq storage work).t hB.wf i1.wf)
    rw [hu, List.foldlM_cons]
    have e3 : projRow doVar m e R x (projLayout restricted doVar (n : Int) m k qq storage work) 0 = .throws := by
      unfold projRow
      have e1' : x.getRow0 0 (projLayout restricted doVar (n : Int) m k qq storage work).row = .ok row := e1
      rw [e1']
      show (e.beta.tDotVector row _ 1 0 >>= _) = _
      have : e.beta.tDotVector row (projLayout restricted doVar (n : Int) m k qq storage work).t 1 0 = .throws := by
        unfold Mat.tDotVector
        rw [hB.rows, i1.rows, i1.cols]
        rw [if_neg (by simp), if_neg (by show ¬ ¬ (1 : Int) = 1; simp), if_pos (by exact_mod_cast hak)]
      rw [this]; rfl
    rw [e3]; rfl
  unfold project
  simp only [hx.rows, hx.cols]
  split_ifs with h1 h2
  · rfl
  · cases R with
    | none => exact absurd rfl (hR h2)
    | some R => exact key _ _
  · exact key _ _

/-- **C93**, what is refused: more rows, equations or regressors than announced (the others as announced). -/
theorem C93_refused_sizes (restricted doVar : Bool) (n0 m0 k0 m : Int) (e : Est K) (R : Option (Mat K)) (x : Mat K)
    (storage work : List K) (hm0 : 0 < m0) (hn0 : 0 ≤ n0) (hk0 : 0 ≤ k0)
    (h : n0 < x.rows ∧ m = m0 ∨ m0 < m ∧ x.cols = k0 ∨ k0 < x.cols ∧ m = m0) :
    project restricted doVar n0 m0 k0 m e R x storage work = .throws := by
  have hb : projWork restricted doVar m x.cols > projWork restricted doVar m0 k0 ∨ projStorage doVar x.rows m > projStorage doVar n0 m0 := by
    rcases h with ⟨h, rfl⟩ | ⟨h, h'⟩ | ⟨h, rfl⟩
    · right
      have : m * n0 < m * x.rows := by nlinarith
      unfold projStorage
      cases doVar <;> simp <;> omega
    · left
      rw [h']
      have c : m0 * (k0 * m0) ≤ m * (k0 * m) :=
        mul_le_mul (by omega) (mul_le_mul_of_nonneg_left (by omega) hk0) (mul_nonneg hk0 (by omega)) (by omega)
      unfold projWork
      cases doVar <;> cases restricted <;> simp [mul_assoc] <;> omega
    · left
      have c : m * (k0 * m) ≤ m * (x.cols * m) :=
        mul_le_mul_of_nonneg_left (mul_le_mul_of_nonneg_right (by omega) (by omega)) (by omega)
      unfold projWork
      cases doVar <;> cases restricted <;> simp [mul_assoc] <;> omega
  unfold project
  rw [if_pos hb]

end

section
variable {K : Type} [Field K] [LinearOrder K] [IsStrictOrderedRing K] {N n m k q : Nat}

/-- **C93**, from the data: a system estimated without restrictions projects `x B` with the least squares coefficients `B`; the variance in
equation `j` is the variance of its residuals, times one plus `x (X'X)^{-1} x'`. -/
theorem C93_after_estimate (lu : List K → List K) (f : Fns K) {N0 m0 k0 n0 : Int} {y x z : Mat K} {Y : Matrix (Fin N) (Fin m) K}
    {X : Matrix (Fin N) (Fin k) K} {Z : Matrix (Fin n) (Fin k) K} (hy : IsM y Y) (hx : IsM x X) (hz : IsM z Z) (pN : 0 < N) (pm : 0 < m)
    (pk : 0 < k) (hN : (N : Int) ≤ N0) (hm : (m : Int) ≤ m0) (hk : (k : Int) ≤ k0) (hn : (n : Int) ≤ n0) (det : Bool) (maxProb : K)
    (storage work storage' work' : List K) (hs : storageSize (Opts.make false det 0) N0 m0 k0 ≤ storage.length)
    (hw : workSize (Opts.make false det 0) N0 m0 k0 ≤ work.length) (hs' : projStorage true n0 m0 ≤ storage'.length)
    (hw' : projWork false true m0 k0 ≤ work'.length) (hX : FullRank X) (hE : m = 1 ∨ ∀ B, LeastSquares Y X B → FullRank (left Y X B))
    (hdt : det = true → k < N) :
    ∃ (r : Res K) (s : Proj K) (B : Matrix (Fin k) (Fin m) K) (G : Matrix (Fin k) (Fin k) K),
      sur lu f (Opts.make false det 0) N0 m0 k0 y x none maxProb storage work = .ok r ∧
      project false true n0 m0 k0 m r.est none z storage' work' = .ok s ∧
      LeastSquares Y X B ∧ G * (Xᵀ * X) = 1 ∧
      (∀ i j, s.means.get (i : Fin n) (j : Fin m) = .ok (∑ l, Z i l * B l j)) ∧
      (∀ i j, s.variances.get (i : Fin n) (j : Fin m) =
        .ok (cov (left Y X B) j j * (1 + ∑ l, ∑ l', Z i l * G l l' * Z i l'))) := by
  obtain ⟨r, B, G, e, ls, fit, -, hG, ⟨V, hV, hVv⟩, -⟩ := C88_estimate lu f hy hx pN pm pk hN hm hk det maxProb storage work hs hw hX hE hdt
  obtain ⟨s, e2, p⟩ := C93_projection hz fit.beta hV fit.residVar pm pk true hn hm hk none storage' work' hs' hw'
  refine ⟨r, s, B, G, e, e2, (ls B).2 rfl, hG, fun i j => ?_, fun i j => ?_⟩
  · exact get_isM p.means i j
  · rw [get_isM (p.variances rfl) i j]
    congr 1
    unfold projectionCov
    rw [mul_add, mul_one, Finset.mul_sum]
    congr 1
    refine Finset.sum_congr rfl fun l _ => ?_
    rw [Finset.mul_sum]
    refine Finset.sum_congr rfl fun l' _ => ?_
    rw [hVv]; ring

/-- The example of C88, with the constant as new data: the projections are the means. -/
example (lu : List ℚ → List ℚ) (f : Fns ℚ) :
    ∃ (r : Res ℚ) (s : Proj ℚ), sur lu f (Opts.make false true 0) 3 2 1 ⟨3, 2, some [0, 1, 2, 1, 0, 2]⟩ ⟨3, 1, some [1, 1, 1]⟩ none 0
        (List.replicate 40 0) (List.replicate 60 0) = .ok r ∧
      project false true 1 2 1 2 r.est none ⟨1, 1, some [1]⟩ (List.replicate 8 0) (List.replicate 11 0) = .ok s := by
  obtain ⟨r, s, B, G, h1, h2, -⟩ := C93_after_estimate (N0 := 3) (m0 := 2) (k0 := 1) (n0 := 1) lu f ex_y2 ex_x1
    (isM_list 1 1 [1] rfl (fun _ _ => 1) (by decide) : IsM (⟨1, 1, some [1]⟩ : Mat ℚ) _)
    (by decide) (by decide) (by decide) (by decide) (by decide) (by decide) (by decide)
    true 0 (List.replicate 40 0) (List.replicate 60 0) (List.replicate 8 0) (List.replicate 11 0) (by decide) (by decide) (by decide)
    (by decide) ex_rank1 (Or.inr fun B _ => ex_left B) (by decide)
  exact ⟨r, s, h1, h2⟩

end
end Su
end LDT
