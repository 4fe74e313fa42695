import Verif.Props.SurSearch
/-!
# C94: the goodness of the fit of a system of regressions
-/
namespace LDT
namespace Su
open Mx Matrix Ls
open Arr (Val)

section
variable {K : Type} [Field K] [LinearOrder K] [IsStrictOrderedRing K] {N m k q : Nat}

theorem unexplained_zero {E : Matrix (Fin N) (Fin m) K} : unexplained E = 0 ↔ ∀ i j, E i j = 0 := by
  unfold unexplained
  rw [Finset.sum_eq_zero_iff_of_nonneg fun _ _ => Finset.sum_nonneg fun _ _ => sq_nonneg _]
  constructor
  · intro h i j
    have := h j (Finset.mem_univ _)
    rw [Finset.sum_eq_zero_iff_of_nonneg fun _ _ => sq_nonneg _] at this
    exact pow_eq_zero_iff (two_ne_zero) |>.1 (this i (Finset.mem_univ _))
  · intro h j _
    exact Finset.sum_eq_zero fun i _ => by rw [h]; ring

theorem total_zero (pN : 0 < N) {Y : Matrix (Fin N) (Fin m) K} : total Y = 0 ↔ ∀ i i' j, Y i j = Y i' j := by
  have hN : (N : K) ≠ 0 := by exact_mod_cast pN.ne'
  constructor
  · intro h i i' j
    have e := (unexplained_zero (E := fun i j => Y i j - average Y j)).1 h
    have a := e i j
    have b := e i' j
    simp only [sub_eq_zero] at a b
    rw [a, b]
  · intro h
    refine (unexplained_zero (E := fun i j => Y i j - average Y j)).2 fun i j => ?_
    have : ∑ i', Y i' j = N * Y i j := by
      rw [Finset.sum_congr rfl fun i' _ => h i' i j]; simp
    show Y i j - (∑ i', Y i' j) / N = 0
    rw [this, mul_div_cancel_left₀ _ hN, sub_self]

/-- The number reported as coefficient of determination. -/
theorem GoodFit.number {cdf : Int → Int → Ext K → K} {Y E : Matrix (Fin N) (Fin m) K} {g : Fit K} (h : GoodFit cdf Y E k g)
    (ht : total Y ≠ 0) : g.r2 = .num (1 - unexplained E / total Y) := by
  by_cases hu : unexplained E = 0
  · rw [(h.exact_fit ht hu).1, hu, zero_div, sub_zero]
  · obtain ⟨R, F, h1, h2, h3, -⟩ := h.regular ht hu
    rw [h1, h3]

theorem least_unexplained {Y : Matrix (Fin N) (Fin m) K} {X : Matrix (Fin N) (Fin k) K} {B : Matrix (Fin k) (Fin m) K}
    (h : LeastSquares Y X B) (B' : Matrix (Fin k) (Fin m) K) : unexplained (left Y X B) ≤ unexplained (left Y X B') :=
  Finset.sum_le_sum fun j _ => h j fun l => B' l j

/-- **C94**, the coefficient of determination of a system without restrictions (with variables that are not all constant): it is
`1 - Σ residuals² / Σ (y - mean)²`, at most one, and one exactly if there are no residuals; if the constant is among the regressors or a
combination of them, it is not negative, and zero exactly if the means alone fit as well. The `F` statistic has the sign of the
coefficient, and its probability is reported if it is not negative. -/
theorem C94_r2 (lu : List K → List K) (f : Fns K) {N0 m0 k0 : Int} {y x : Mat K} {Y : Matrix (Fin N) (Fin m) K}
    {X : Matrix (Fin N) (Fin k) K} (hy : IsM y Y) (hx : IsM x X) (pN : 0 < N) (pm : 0 < m) (pk : 0 < k) (hN : (N : Int) ≤ N0)
    (hm : (m : Int) ≤ m0) (hk : (k : Int) ≤ k0) (maxProb : K) (storage work : List K)
    (hs : storageSize (Opts.make false true 0) N0 m0 k0 ≤ storage.length)
    (hw : workSize (Opts.make false true 0) N0 m0 k0 ≤ work.length) (hX : FullRank X)
    (hE : m = 1 ∨ ∀ B, LeastSquares Y X B → FullRank (left Y X B)) (hdt : k < N) (hY : ∃ i i' j, Y i j ≠ Y i' j) :
    ∃ (r : Res K) (g : Fit K) (B : Matrix (Fin k) (Fin m) K) (R : K),
      sur lu f (Opts.make false true 0) N0 m0 k0 y x none maxProb storage work = .ok r ∧ r.fit = some g ∧ g.r2 = .num R ∧
      LeastSquares Y X B ∧ R = 1 - unexplained (left Y X B) / total Y ∧ R ≤ 1 ∧ (R = 1 ↔ left Y X B = 0) ∧
      ((∃ c : Fin k → K, ∀ i, ∑ l, X i l * c l = 1) → 0 ≤ R ∧ (R = 0 ↔ left Y X B = fun i j => Y i j - average Y j)) ∧
      (R ≠ 1 → ∃ F, g.f = .num F ∧ (F < 0 ↔ R < 0) ∧ (F = 0 ↔ R = 0)) ∧
      (g.prob = none ↔ R < 0) := by
  obtain ⟨r, B, G, e, ls, fit, -, -, -, -, -, -, hg, -⟩ := C88_estimate lu f hy hx pN pm pk hN hm hk true maxProb storage work hs hw hX hE
    (fun _ => hdt)
  obtain ⟨g, hr, hg⟩ := hg rfl
  have ht : total Y ≠ 0 := by
    obtain ⟨i, i', j, h⟩ := hY
    intro h0
    exact h ((total_zero pN).1 h0 i i' j)
  have tp : 0 < total Y := lt_of_le_of_ne (total_nonneg Y) (Ne.symm ht)
  have un := unexplained_nonneg (left Y X B)
  have num := hg.number ht
  have hls := (ls B).2 rfl
  have zero_iff : unexplained (left Y X B) = 0 ↔ left Y X B = 0 := by
    rw [unexplained_zero]
    exact ⟨fun h => by funext i j; exact h i j, fun h i j => by rw [h]; rfl⟩
  have one_iff : (1 - unexplained (left Y X B) / total Y = 1) ↔ unexplained (left Y X B) = 0 := by
    constructor
    · intro h
      have : unexplained (left Y X B) / total Y = 0 := by linarith
      exact (div_eq_zero_iff.1 this).resolve_right ht
    · intro h; rw [h]; simp
  have cm : (0 : K) < m * (N - 1) := by
    have : (1 : K) < N := by exact_mod_cast (by omega : 1 < N)
    have : (0 : K) < m := by exact_mod_cast pm
    nlinarith
  have ck : (0 : K) < m * (N - k) := by
    have h1 : (k : K) < N := by exact_mod_cast hdt
    have : (0 : K) < m := by exact_mod_cast pm
    nlinarith
  -- the F statistic
  have fs : 1 - unexplained (left Y X B) / total Y ≠ 1 → ∃ F, g.f = .num F ∧ (F < 0 ↔ 1 - unexplained (left Y X B) / total Y < 0) ∧
      (F = 0 ↔ 1 - unexplained (left Y X B) / total Y = 0) ∧ (g.prob = none ↔ F < 0) := by
    intro hne
    have hu : unexplained (left Y X B) ≠ 0 := fun h => hne (one_iff.2 h)
    obtain ⟨R, F, h1, h2, h3, h4, h5, h6⟩ := hg.regular ht hu
    rw [← h3]
    have pos : 0 < (1 - R) / (m * (N - k) : K) := by
      refine div_pos ?_ ck
      rw [h3, sub_sub_cancel]
      exact div_pos (lt_of_le_of_ne un (Ne.symm hu)) tp
    refine ⟨F, h2, ?_, ?_, ?_⟩
    · rw [h4, div_neg_iff]
      constructor
      · rintro (⟨_, h⟩ | ⟨h, _⟩)
        · exact absurd pos (not_lt.2 h.le)
        · rcases div_neg_iff.1 h with ⟨_, h⟩ | ⟨h, _⟩
          · exact absurd cm (not_lt.2 h.le)
          · exact h
      · intro h
        exact Or.inr ⟨div_neg_of_neg_of_pos h cm, pos⟩
    · rw [h4, div_eq_zero_iff, div_eq_zero_iff]
      constructor
      · rintro ((h | h) | h)
        · exact h
        · exact absurd h cm.ne'
        · exact absurd h pos.ne'
      · exact fun h => Or.inl (Or.inl h)
    · constructor
      · intro h
        by_contra hF
        rw [h5 (not_lt.1 hF)] at h
        simp at h
      · exact h6
  refine ⟨r, g, B, _, e, hr, num, hls, rfl, ?_, ?_, ?_, ?_, ?_⟩
  · have : 0 ≤ unexplained (left Y X B) / total Y := div_nonneg un tp.le
    linarith
  · rw [one_iff, zero_iff]
  · rintro ⟨c, hc⟩
    -- the means are among the competitors
    have hB' : left Y X (fun l j => c l * average Y j) = fun i j => Y i j - average Y j := by
      funext i j
      unfold left
      congr 1
      have : ∑ l, X i l * (c l * average Y j) = (∑ l, X i l * c l) * average Y j := by
        rw [Finset.sum_mul]; exact Finset.sum_congr rfl fun l _ => by ring
      rw [this, hc, one_mul]
    have le := least_unexplained hls (fun l j => c l * average Y j)
    rw [hB'] at le
    have le' : unexplained (left Y X B) ≤ total Y := le
    refine ⟨by rw [sub_nonneg, div_le_one tp]; exact le', ?_, ?_⟩
    · intro h0
      have eq : unexplained (left Y X B) = total Y := by
        rw [sub_eq_zero] at h0
        exact ((div_eq_one_iff_eq ht).1 h0.symm)
      have : LeastSquares Y X (fun l j => c l * average Y j) := by
        intro j b
        refine le_trans ?_ (hls j b)
        by_contra hlt
        rw [not_le] at hlt
        have : unexplained (left Y X B) < unexplained (left Y X (fun l j => c l * average Y j)) := by
          unfold unexplained
          refine Finset.sum_lt_sum (fun j _ => hls j fun l => c l * average Y j) ⟨j, Finset.mem_univ _, hlt⟩
        rw [hB', eq] at this
        exact lt_irrefl _ this
      rw [← (ls _).1 this, hB']
    · intro h
      have : unexplained (left Y X B) = total Y := by rw [h]; rfl
      rw [this, div_self ht, sub_self]
  · intro h
    obtain ⟨F, h1, h2, h3, -⟩ := fs h
    exact ⟨F, h1, h2, h3⟩
  · by_cases h : 1 - unexplained (left Y X B) / total Y = 1
    · rw [(hg.exact_fit ht (one_iff.1 h)).2.2, h]
      simp
    · obtain ⟨F, h1, h2, -, h4⟩ := fs h
      rw [h4, h2]

/-- **C94**: a coefficient of determination is never smaller with more regressors: if every column of `X` is a combination of those of
`Z`, the one of `Z` is at least as great. -/
theorem C94_r2_nested {k' : Nat} {Y : Matrix (Fin N) (Fin m) K} {X : Matrix (Fin N) (Fin k) K} {Z : Matrix (Fin N) (Fin k') K}
    (C : Matrix (Fin k') (Fin k) K) (hC : X = Z * C) {B : Matrix (Fin k) (Fin m) K} {D : Matrix (Fin k') (Fin m) K}
    (hB : LeastSquares Y X B) (hD : LeastSquares Y Z D) {cdf : Int → Int → Ext K → K} {g g' : Fit K}
    (hg : GoodFit cdf Y (left Y X B) k g) (hg' : GoodFit cdf Y (left Y Z D) k' g') (pN : 0 < N) (hY : ∃ i i' j, Y i j ≠ Y i' j) :
    ∃ R R', g.r2 = .num R ∧ g'.r2 = .num R' ∧ R ≤ R' := by
  have ht : total Y ≠ 0 := by
    obtain ⟨i, i', j, h⟩ := hY
    intro h0
    exact h ((total_zero pN).1 h0 i i' j)
  have tp : 0 < total Y := lt_of_le_of_ne (total_nonneg Y) (Ne.symm ht)
  refine ⟨_, _, hg.number ht, hg'.number ht, ?_⟩
  have le := least_unexplained hD (C * B)
  have e : left Y Z (C * B) = left Y X B := by rw [left_eq, left_eq, hC, Matrix.mul_assoc]
  rw [e] at le
  have := (div_le_div_iff_of_pos_right tp).2 le
  linarith

/-- **C94**: nor is it greater with restrictions than without. -/
theorem C94_r2_restricted {Y : Matrix (Fin N) (Fin m) K} {X : Matrix (Fin N) (Fin k) K} {B B' : Matrix (Fin k) (Fin m) K}
    (hB : LeastSquares Y X B) {cdf : Int → Int → Ext K → K} {g g' : Fit K}
    (hg : GoodFit cdf Y (left Y X B) k g) (hg' : GoodFit cdf Y (left Y X B') k g') (pN : 0 < N) (hY : ∃ i i' j, Y i j ≠ Y i' j) :
    ∃ R R', g.r2 = .num R ∧ g'.r2 = .num R' ∧ R' ≤ R ∧ R' ≤ 1 := by
  have ht : total Y ≠ 0 := by
    obtain ⟨i, i', j, h⟩ := hY
    intro h0
    exact h ((total_zero pN).1 h0 i i' j)
  have tp : 0 < total Y := lt_of_le_of_ne (total_nonneg Y) (Ne.symm ht)
  refine ⟨_, _, hg.number ht, hg'.number ht, ?_, ?_⟩
  · have := (div_le_div_iff_of_pos_right tp).2 (least_unexplained hB B')
    linarith
  · have : 0 ≤ unexplained (left Y X B') / total Y := div_nonneg (unexplained_nonneg _) tp.le
    linarith

/-- **C94**, variables that are all constant: no coefficient of determination. -/
theorem C94_r2_constant {Y E : Matrix (Fin N) (Fin m) K} {cdf : Int → Int → Ext K → K} {g : Fit K} (pN : 0 < N)
    (hg : GoodFit cdf Y E k g) (h : ∀ i i' j, Y i j = Y i' j) : ∀ R, g.r2 ≠ .num R := by
  obtain ⟨-, -, h1, h2⟩ := hg.constant ((total_zero pN).2 h)
  intro R
  by_cases hu : unexplained E = 0
  · rw [h1 hu]; simp
  · rw [h2 hu]; simp

/-- **C94**, violated: the first degrees of freedom of the `F` statistic are never those of the test that all slopes are zero,
`m (k - 1)`. -/
theorem C94_f_degrees_violated {Y E : Matrix (Fin N) (Fin m) K} {cdf : Int → Int → Ext K → K} {g : Fit K} (pm : 0 < m) (hk : k < N)
    (hg : GoodFit cdf Y E k g) : g.d1 ≠ m * (k - 1) := by
  rw [hg.degrees.1]
  intro h
  have := mul_left_cancel₀ (by omega : (m : Int) ≠ 0) h
  omega

/-- The example of C88, with means only: the coefficient of determination is zero. -/
example (lu : List ℚ → List ℚ) (f : Fns ℚ) : ∃ (r : Res ℚ) (g : Fit ℚ),
    sur lu f (Opts.make false true 0) 5 2 3 ⟨3, 2, some [0, 1, 2, 1, 0, 2]⟩ ⟨3, 1, some [1, 1, 1]⟩ none 0 (List.replicate 90 0)
      (List.replicate 80 0) = .ok r ∧ r.fit = some g ∧ g.r2 = .num 0 := by
  obtain ⟨r, g, B, R, e, hg, hR, ls, -, -, -, h, -⟩ := C94_r2 (N0 := 5) (m0 := 2) (k0 := 3) lu f ex_y2 ex_x1 (by decide) (by decide)
    (by decide) (by decide) (by decide) (by decide) 0 (List.replicate 90 0) (List.replicate 80 0) (by decide) (by decide) ex_rank1
    (Or.inr fun B _ => ex_left B) (by decide) ⟨0, 1, 0, by decide⟩
  refine ⟨r, g, e, hg, ?_⟩
  rw [hR]
  congr 1
  rw [(h ⟨fun _ => 1, fun i => by simp [exX1]⟩).2]
  have h1 : LeastSquares exY2 exX1 !![1, 1] := by
    intro j b
    simp only [squares, misfit, Fin.sum_univ_three, exX1, exY2]
    fin_cases j <;> simp <;> nlinarith [sq_nonneg (b 0 - 1)]
  have : B = !![1, 1] := by rw [(leastSquares_iff ex_rank1 _).1 ls, (leastSquares_iff ex_rank1 _).1 h1]
  subst this
  funext i j
  fin_cases i <;> fin_cases j <;> simp [left, average, exY2, exX1, Fin.sum_univ_three] <;> norm_num

end
end Su
end LDT
