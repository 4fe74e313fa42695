import Verif.Props.VarmaMean
import Mathlib.LinearAlgebra.Matrix.PosDef
/-! # VARMA: sizes made by the constructor, forecast variances (C53) and what goes wrong -/
namespace LDT
namespace Varma
open Mx Poly
variable {K : Type}

/-- The sizes of the constructor are proper when the regular orders are below the season. -/
theorem proper_of_makeSizes {junk obs eqs exo p d q P D Q m : Int} {z : Sizes}
    (hdm : d + 1 ≤ intMax) (hDm : m + 1 ≤ intMax) (hmax : d + D * m + 1 ≤ intMax)
    (hz : makeSizes junk obs eqs exo p d q P D Q m = .ok z) (hg : 1 ≤ eqs) (hx : 0 ≤ exo)
    (hp : P ≠ 0 → p < m) (hq : Q ≠ 0 → q < m) : z.Proper := by
  unfold makeSizes at hz
  simp only at hz
  split_ifs at hz with h0 h1 h2 h3 h4 h5 h6 <;> try (simp at hz; done)
  · have hP : P = 0 ∧ D = 0 ∧ Q = 0 := by omega
    obtain ⟨rfl, rfl, rfl⟩ := hP
    obtain ⟨dp, e, -, -⟩ := C48_diffPoly junk (d := d) (D := 0) (s := 0) (by omega) (by omega) (by simp) hdm (by decide)
      (by omega)
    rw [e] at hz
    cases hz
    obtain ⟨a1, a2, a3, a4⟩ := C51_lags_sorted (p := p) (P := 0) (s := 0) (by omega) (by omega) (by simp)
    obtain ⟨b1, b2, b3, b4⟩ := C51_lags_sorted (p := q) (P := 0) (s := 0) (by omega) (by omega) (by simp)
    exact ⟨(C48_diffPoly_annihilates junk (by omega) (by omega) (by simp) hdm (by decide) (by omega) e).1, hg, hx, a3,
      fun l h => (b3 l h).1, b1.imp (fun h => by omega)⟩
  · obtain ⟨dp, e, -, -⟩ := C48_diffPoly junk (d := d) (D := D) (s := m) (by omega) (by omega) (by omega) hdm hDm hmax
    rw [e] at hz
    cases hz
    obtain ⟨a1, a2, a3, a4⟩ := C51_lags_sorted (p := p) (P := P) (s := m) (by omega) (by omega) hp
    obtain ⟨b1, b2, b3, b4⟩ := C51_lags_sorted (p := q) (P := Q) (s := m) (by omega) (by omega) hq
    exact ⟨(C48_diffPoly_annihilates junk (by omega) (by omega) (by omega) hdm hDm hmax e).1, hg, hx, a3,
      fun l h => (b3 l h).1, b1.imp (fun h => by omega)⟩

theorem setColumnFromDiag0_spec [Zero K] {g : Nat} {m : Mat K} (w : m.Wf) (hr : m.rows = g) {j : Int} (hj0 : 0 ≤ j)
    (hj : j < m.cols) (v : Matrix (Fin g) (Fin g) K) :
    ∃ m', setColumnFromDiag0 m j v = .ok m' ∧ SameShape m m' ∧ m'.Wf ∧
      (∀ r : Fin g, m'.val (r : Nat) j = v r r) ∧ ∀ i c, m.InR i c → c ≠ j → m'.val i c = m.val i c := by
  have key : ∀ (l : List (Fin g)) (m : Mat K), m.Wf → m.rows = g → j < m.cols → l.Nodup →
      ∃ m', l.foldlM (fun m (r : Fin g) => m.set0 (r : Nat) j (v r r)) m = .ok m' ∧ SameShape m m' ∧ m'.Wf ∧
      (∀ r ∈ l, m'.val (r : Nat) j = v r r) ∧
      ∀ i c, m.InR i c → (c ≠ j ∨ ∀ r ∈ l, ((r : Nat) : Int) ≠ i) → m'.val i c = m.val i c := by
    intro l
    induction l with
    | nil => intro m w _ _ _; exact ⟨m, rfl, SameShape.refl _, w, by simp, fun _ _ _ _ => rfl⟩
    | cons a l ih =>
      intro m w hr hj hnd
      have hin : m.InR ((a : Nat) : Int) j := ⟨by omega, by have := a.2; omega, hj0, hj⟩
      obtain ⟨m1, e1, s1, w1, c1⟩ := set0_val w hin (v a a)
      obtain ⟨m2, e2, s2, w2, c2, c2'⟩ := ih m1 w1 (by rw [s1.rows, hr]) (by rw [s1.cols]; exact hj) (List.nodup_cons.1 hnd).2
      refine ⟨m2, by rw [List.foldlM_cons, e1]; exact e2, s1.trans s2, w2, ?_, ?_⟩
      · intro r hrl
        rcases List.mem_cons.1 hrl with rfl | h
        · rw [c2' _ _ (s1.inR.2 hin) (Or.inr (fun r' hr' => by
            intro heq
            have : r' = r := Fin.ext (by omega)
            subst this
            exact (List.nodup_cons.1 hnd).1 hr')), c1 _ _ hin, if_pos ⟨rfl, rfl⟩]
        · exact c2 r h
      · intro i c hic hor
        rw [c2' i c (s1.inR.2 hic) (by
          rcases hor with h | h
          · exact Or.inl h
          · exact Or.inr (fun r hr => h r (by simp [hr]))), c1 i c hic, if_neg]
        rintro ⟨h1, h2⟩
        rcases hor with h | h
        · exact h h2
        · exact h a (by simp) h1.symm
  obtain ⟨m', e, s, w', c, c'⟩ := key (List.finRange g) m w hr hj (List.nodup_finRange g)
  exact ⟨m', e, s, w', fun r => c r (List.mem_finRange r), fun i k hin hk => c' i k hin (Or.inl hk)⟩

/-- Forecast variances: zero before the origin; at `h` steps ahead (`h = i + 1`) the diagonal of
`Σ_{k ≤ i} Ψ_k Σ Ψ_kᵀ`, `Ψ` being the coefficients of the MA(∞) polynomial (C50). -/
theorem C53_variance [CommRing K] {g : Nat} {z : Sizes} {psi : List (Matrix (Fin g) (Fin g) K)}
    {sigma : Matrix (Fin g) (Fin g) K} {storage : List K} {horizon : Int} (hz : z.Proper) (hgz : z.eqsCount = g)
    (hh : 0 ≤ horizon) (hpsi : horizon ≤ psi.length) (hst : z.eqsCount * (horizon + z.arMaxD) ≤ storage.length) :
    ∃ V, forecastVariance z psi sigma storage horizon = .ok V ∧ V.Wf ∧ V.rows = z.eqsCount ∧
      V.cols = horizon + z.arMaxD ∧
      (∀ (r : Fin g) i, 0 ≤ i → i < z.arMaxD → V.val (r : Nat) i = 0) ∧
      (∀ (r : Fin g) (i : Nat), (i : Int) < horizon → V.val (r : Nat) (i + z.arMaxD) =
        (∑ k ∈ Finset.range (i + 1), (psi.getD k 0) * sigma * (psi.getD k 0).transpose) r r) := by
  have hg := hz.eqs_pos
  have hdeg := hz.degree_eq
  have ham := hz.arMax_nonneg
  have hd : z.arMaxD = z.arMax + z.diffDegree := rfl
  unfold forecastVariance
  have w0 : ({ rows := z.eqsCount, cols := horizon + z.arMaxD, data := some storage } : Mat K).Wf :=
    ⟨by simp; omega, by simp; omega, rfl, by simpa [Mat.mem] using hst⟩
  simp only
  generalize hv0 : ({ rows := z.eqsCount, cols := horizon + z.arMaxD, data := some storage } : Mat K) = v0 at *
  have hr0 : v0.rows = z.eqsCount := by rw [← hv0]
  have hc0 : v0.cols = horizon + z.arMaxD := by rw [← hv0]
  obtain ⟨v1, e1, s1, w1, c1⟩ := loop_inv (a := 0) (b := z.arMaxD) (by omega) (fun v i => setColumn0 v i (0 : K))
    (fun k v => SameShape v0 v ∧ v.Wf ∧ ∀ i c, v0.InR i c → c < k → v.val i c = 0) (s := v0)
    ⟨SameShape.refl _, w0, fun i c hin h => by have := hin.2.2.1; omega⟩ (by
      intro k hk0 hk v ⟨s, w, c⟩
      obtain ⟨v', e', s', w', c'⟩ := setColumn0_spec w hk0 (by rw [s.cols]; omega) (0 : K)
      refine ⟨v', e', s.trans s', w', fun i j hin hj => ?_⟩
      rw [c' i j (s.inR.2 hin)]
      split_ifs with h
      · rfl
      · exact c i j hin (by omega))
  rw [e1, Outcome.ok_bind]
  obtain ⟨⟨vp, V⟩, e2, ep, s2, w2, c2, c2'⟩ := loop_inv (a := 0) (b := horizon) hh (varianceStep z psi sigma)
    (fun k st => st.1 = ∑ j ∈ Finset.range k.toNat, (psi.getD j 0) * sigma * (psi.getD j 0).transpose ∧
      SameShape v1 st.2 ∧ st.2.Wf ∧
      (∀ i c, v1.InR i c → c < z.arMaxD → st.2.val i c = v1.val i c) ∧
      ∀ (r : Fin g) (i : Nat), (i : Int) < k → st.2.val (r : Nat) (i + z.arMaxD) =
        (∑ j ∈ Finset.range (i + 1), (psi.getD j 0) * sigma * (psi.getD j 0).transpose) r r)
    (s := (0, v1)) ⟨by simp, SameShape.refl _, w1, fun _ _ _ _ => rfl, fun r i h => by omega⟩ (by
      intro k hk0 hk ⟨vp, V⟩ ⟨ep, s2, w2, c2, c2'⟩
      simp only at ep s2 w2 c2 c2' ⊢
      obtain ⟨n, rfl⟩ : ∃ n : Nat, k = n := ⟨k.toNat, by omega⟩
      have hn : n < psi.length := by omega
      unfold varianceStep
      rw [Int.toNat_natCast, List.getElem?_eq_getElem hn]
      simp only
      obtain ⟨V', e', s', w', a1, a2⟩ := setColumnFromDiag0_spec (j := (n : Int) + z.arMaxD) w2
        (by rw [s2.rows, s1.rows, hr0, hgz]) (by omega) (by rw [s2.cols, s1.cols, hc0]; omega)
        (vp + psi[n] * sigma * psi[n].transpose)
      rw [e', Outcome.ok_bind]
      have hvp : vp + psi[n] * sigma * psi[n].transpose
          = ∑ j ∈ Finset.range (n + 1), (psi.getD j 0) * sigma * (psi.getD j 0).transpose := by
        rw [Finset.sum_range_succ, ep, Int.toNat_natCast, List.getD_eq_getElem?_getD, List.getElem?_eq_getElem hn]; rfl
      refine ⟨_, rfl, ?_, s2.trans s', w', ?_, ?_⟩
      · rw [show ((n : Int) + 1).toNat = n + 1 by omega]; exact hvp
      · intro i c hin hc
        simp only
        rw [a2 i c (s2.inR.2 hin) (by omega), c2 i c hin hc]
      · intro r i hi
        simp only
        by_cases h : i = n
        · subst h; rw [a1 r, hvp]
        · rw [a2 _ _ (s2.inR.2 ⟨by omega, by rw [s1.rows, hr0, hgz]; have := r.2; omega, by omega, by
            rw [s1.cols, hc0]; omega⟩) (by omega), c2' r i (by omega)])
  rw [e2, Outcome.ok_bind]
  refine ⟨V, rfl, w2, by rw [s2.rows, s1.rows, hr0], by rw [s2.cols, s1.cols, hc0], ?_, c2'⟩
  intro r i h0 h1
  have hin : v0.InR ((r : Nat) : Int) i := ⟨by omega, by rw [hr0, hgz]; have := r.2; omega, h0, by omega⟩
  simp only at c2
  rw [c2 _ _ (s1.inR.2 hin) h1, c1 _ _ hin h1]

/-- With a positive semidefinite error covariance the forecast variances are non-negative and do not decrease with
the horizon. -/
theorem C53_variance_monotone {g : Nat} {z : Sizes} {psi : List (Matrix (Fin g) (Fin g) ℝ)}
    {sigma : Matrix (Fin g) (Fin g) ℝ} {storage : List ℝ} {horizon : Int} (hz : z.Proper) (hgz : z.eqsCount = g)
    (hh : 0 ≤ horizon) (hpsi : horizon ≤ psi.length) (hst : z.eqsCount * (horizon + z.arMaxD) ≤ storage.length)
    (hs : sigma.PosSemidef) {V : Mat ℝ} (hV : forecastVariance z psi sigma storage horizon = .ok V) :
    ∀ (r : Fin g) (i : Nat), (i : Int) < horizon → 0 ≤ V.val (r : Nat) (i + z.arMaxD) ∧
      ∀ j : Nat, j ≤ i → V.val (r : Nat) (j + z.arMaxD) ≤ V.val (r : Nat) (i + z.arMaxD) := by
  obtain ⟨V', e, w, r', c', b0, b1⟩ := C53_variance (sigma := sigma) hz hgz hh hpsi hst
  rw [hV] at e; cases e
  have hterm : ∀ (r : Fin g) k, 0 ≤ ((psi.getD k 0) * sigma * (psi.getD k 0).transpose) r r := by
    intro r k
    have := (hs.mul_mul_conjTranspose_same (psi.getD k 0)).diag_nonneg (i := r)
    simpa [Matrix.conjTranspose_eq_transpose_of_trivial] using this
  intro r i hi
  refine ⟨?_, fun j hj => ?_⟩
  · rw [b1 r i hi, Matrix.sum_apply]
    exact Finset.sum_nonneg (fun k _ => hterm r k)
  · rw [b1 r i hi, b1 r j (by omega), Matrix.sum_apply, Matrix.sum_apply]
    exact Finset.sum_le_sum_of_subset_of_nonneg (Finset.range_mono (by omega)) (fun k _ _ => hterm r k)

/-! ## Concrete cases -/

/-- ARIMA(1,1,1) with one exogenous variable: the constructor accepts it and the sizes are proper. -/
def exampleSizes : Sizes :=
  { obsCount := 8, eqsCount := 1, exoCount := 1, arLags := [1], maLags := [1], diffPoly := [1, -1] }

example : makeSizes 9 8 1 1 1 1 1 0 0 0 0 = .ok exampleSizes := by decide +kernel
example : exampleSizes.Proper :=
  proper_of_makeSizes (junk := 9) (obs := 8) (eqs := 1) (exo := 1) (p := 1) (d := 1) (q := 1) (P := 0) (D := 0)
    (Q := 0) (m := 0) (by decide) (by decide) (by decide) (by decide +kernel) (by decide) (by decide) (by decide)
    (by decide)

/-- The regression sample of that model for the data 1, 3, 6, 10, 15, 21, 28, 36 (differences 2, 3, …, 8). -/
example : (do
    let yX ← prepare (K := Int) exampleSizes ⟨1, 8, some [1, 3, 6, 10, 15, 21, 28, 36]⟩
      (some ⟨1, 12, some [0, 10, 20, 30, 40, 50, 60, 70, 80, 90, 100, 110]⟩) 0 (List.replicate 7 9)
      (List.replicate 6 9) (List.replicate 18 9)
    pure (yX.1.mem, yX.2.mem)) =
  .ok ([3, 4, 5, 6, 7, 8], [2, 3, 4, 5, 6, 7, 20, 30, 40, 50, 60, 70, 0, 0, 0, 0, 0, 0]) := by decide +kernel

/-- Two forecasts: `Δy = 2 Δy₋₁ + x - 3 e₋₁` from `Δy = 8`, `e = 5`, `x = 80, 90`. -/
example : (do
    let F ← forecastMean (K := Int)
      { z := exampleSizes, sampleEnd := 0, y := ⟨1, 6, some [3, 4, 5, 6, 7, 8]⟩,
        resid := ⟨1, 6, some [0, 0, 0, 0, 0, 5]⟩, coef := ⟨1, 3, some [2, 1, -3]⟩ }
      (some ⟨1, 12, some [0, 10, 20, 30, 40, 50, 60, 70, 80, 90, 100, 110]⟩)
      ⟨1, 8, some [1, 3, 6, 10, 15, 21, 28, 36]⟩ (List.replicate 4 9) (List.replicate 3 9) 2 (-1) false
    pure F.mem) = .ok [28, 36, 117, 369] := by decide +kernel

/-- Variances 2, 20, 22 for one equation with `Ψ = 1, 3, 1` and error variance 2, behind two pre-sample columns. -/
example : (do
    let V ← forecastVariance (K := Int) (g := 1) exampleSizes [1, !![3], !![1]] !![2] (List.replicate 5 9) 3
    pure V.mem) = .ok [0, 0, 2, 20, 22] := by decide +kernel

/-- A regular order above the largest seasonal lag: the sample is read before the first column. -/
theorem C55_sample_violated_lag :
    (makeSizes 9 9 1 0 3 0 0 1 0 0 2).bind (fun z => prepare (K := Int) z
      ⟨1, 9, some [1, 2, 3, 4, 5, 6, 7, 8, 9]⟩ none 0 [] (List.replicate 9 0) (List.replicate 40 0)) = .ub := by
  decide +kernel

/-- A regular MA order above the season: the lag list is not sorted, and the update of the regressors stops early, so
a residual is not what the model equation says (`e₃ = y₃ - e₁ = -1` here, but the code finds 0). -/
theorem C56_residuals_violated_order :
    ∃ z, makeSizes 9 4 1 0 0 0 3 0 0 1 2 = .ok z ∧ z.maLags = [1, 2, 3, 2] ∧
      (mlResid (K := Int) z 4 ⟨1, 4, some [0, 0, 0, 1]⟩ ⟨1, 4, some [0, 1, 0, 0]⟩
        ⟨4, 4, some (List.replicate 16 0)⟩ ⟨1, 4, some [0, 0, 0, 0]⟩).bind (fun r => .ok r.2.mem) = .ok [0, 1, 0, 0] ∧
      modelRhs (K := Int) z ⟨1, 4, some [0, 0, 0, 1]⟩ (fun _ _ => 0) (fun _ => 0)
        (fun _ l => if l = 2 then 1 else 0) 0 = 1 := by
  refine ⟨_, rfl, ?_, ?_, ?_⟩ <;> decide +kernel

/-- A sample shorter than the largest MA lag: the forecast reads residuals before the first column. -/
theorem C57_forecast_violated_short :
    ∃ z, makeSizes 9 3 1 0 0 0 0 0 0 1 4 = .ok z ∧
      forecastMean (K := Int)
        { z := z, sampleEnd := 0, y := ⟨1, 3, some [1, 2, 3]⟩, resid := ⟨1, 3, some [1, 1, 1]⟩,
          coef := ⟨1, 1, some [2]⟩ } none ⟨1, 3, some [1, 2, 3]⟩ [0] [0] 1 (-1) false = .ub := by
  refine ⟨_, rfl, ?_⟩
  decide +kernel

end Varma
end LDT
