import Verif.Lemmas.PcaAll
/-!
# C130: principal component analysis
-/
namespace LDT
namespace Pc
open Mx Sd
open Arr (Val)
open Co (part)
open Ls (dotTr0 IsM Sized isM_of_cells dotTr0_isM sized_part get_isM)

variable {r c k n f : ℕ}

/-- The results of the analysis of the table `X` with `r` rows and `k` columns: all directions, the standard deviations of the first
`min r k` components, their shares, and the components. -/
structure Analysis (X : Fin r → Fin k → ℝ) (doPCs : Bool) (D : Fin k → Fin k → ℝ) (sd : Fin (min r k) → ℝ) (res : PcaRes) : Prop where
  directions : Table res.directions D
  isPca : IsPca X (fun (a : Fin (min r k)) => D ⟨a, lt_of_lt_of_le a.2 (min_le_right _ _)⟩) sd
  stds : res.stds = List.ofFn fun a => some (sd a)
  ratios : res.ratios = List.ofFn (share sd)
  pcs : if doPCs = true then ∃ P, res.pcs = some P ∧ Table P (scores X D) else res.pcs = none

theorem made_of {R C F : ℕ} {doPCs remove center scale : Bool} {o : Pca} (hR : 0 < R) (hC : 0 < C)
    (ho : Pca.make (R : Int) (C : Int) (F : Int) doPCs remove center scale = .ok o) : Made o R C F doPCs remove center scale := by
  obtain ⟨o', e, m⟩ := make_ok R C F hR hC doPCs remove center scale
  rw [ho] at e
  cases e
  exact m

/-- `Calculate` for a table of numbers that is not larger than the object was made for: if the routine for the singular values fails, an
exception; otherwise the principal components of the standardized table, and for the rows to be forecast, standardized by the means and
the variances of the data, the scores in the same directions. -/
theorem C130_calculate (L : Lapack) (hL : L.Correct) {R C F : ℕ} {doPCs remove center scale : Bool} {o : Pca}
    (ho : Pca.make (R : Int) (C : Int) (F : Int) doPCs remove center scale = .ok o)
    (h2 : 2 ≤ r) (hc : 0 < c) (hrR : r ≤ R) (hcC : c ≤ C) (hfF : f ≤ F) {A : Mat (Val ℝ)} {M : Fin r → Fin c → ℝ} (hA : Holds A M)
    (hok : Scalable remove scale M) {xf : Option (Mat (Val ℝ))} {N : Fin f → Fin c → ℝ} (hB : Given xf N)
    (hk : 0 < width remove scale M) (work storage : List ℝ) (hst : (storage.length : Int) = o.storageSize)
    (hwk : (work.length : Int) = o.workSize) :
    ((L.gesvd r (width remove scale M) (analysed remove center scale M M)).1 ≠ 0 → o.calculate L A work storage xf = .throws) ∧
    ((L.gesvd r (width remove scale M) (analysed remove center scale M M)).1 = 0 →
      ∃ D sd res, o.calculate L A work storage xf = .ok res ∧ Analysis (analysed remove center scale M M) doPCs D sd res ∧
        Forecasted (analysed remove center scale M N) D res.forecasts ∧
        (∀ a j : Fin (width remove scale M), ¬ (a : ℕ) < min r (width remove scale M) → D a j ∈ storage) ∧
        ∀ t, t ∈ res.removed ↔ (scale = true ∧ remove = true) ∧ ∃ j : Fin c, t = ((j : ℕ) : Int) ∧ colVar true M j = 0) := by
  have h := made_of (by omega) (by omega) ho
  obtain ⟨h1, h3⟩ := calculate_ok L h h2 hc hrR hcC hfF hA hok hB hk work storage hst hwk
  refine ⟨h1, fun hi => ?_⟩
  obtain ⟨D, res, e, d1, d2, t, s1, s2, p, g, hrep⟩ := h3 hi
  have hrm : ∀ t, t ∈ res.removed ↔ (scale = true ∧ remove = true) ∧ ∃ j : Fin c, t = ((j : ℕ) : Int) ∧ colVar true M j = 0 := by
    intro t
    unfold PcaRes.removed
    by_cases hcs : (center || scale) = true
    · have hs := h.std
      rw [if_pos hcs] at hrep hs
      obtain ⟨d, z, e1, ez, rep⟩ := hrep
      obtain ⟨d', e1', -, q3, q4, q5, -⟩ := hs
      rw [e1] at e1'
      cases e1'
      rw [ez]
      dsimp only
      rw [rep.removed, q3, q4, q5]
      have : (scale && (scale && remove)) = true ↔ scale = true ∧ remove = true := by cases scale <;> cases remove <;> simp
      rw [this]; rfl
    · rw [if_neg hcs] at hrep
      have hsc : scale = false := by cases scale <;> simp_all
      rw [hrep]
      simp [hsc]
  have hsvd := hL r (width remove scale M) (analysed remove center scale M M) (by omega) hk hi
  have hp := isPca_of_svd hsvd h2
  refine ⟨D, _, res, e, ⟨t, ?_, s1, ?_, p⟩, g, d2, hrm⟩
  · have e : (fun (a : Fin (min r (width remove scale M))) => D ⟨a, lt_of_lt_of_le a.2 (min_le_right _ _)⟩) =
        fun (a : Fin (min r (width remove scale M))) (j : Fin (width remove scale M)) =>
          (L.gesvd r (width remove scale M) (analysed remove center scale M M)).2.2 a j := by
      funext a j
      exact d1 ⟨a, lt_of_lt_of_le a.2 (min_le_right _ _)⟩ j a.2
    rw [e]
    exact hp
  · rw [s2, s1, ratios_ok]

/-- The constructor refuses an empty table and nothing else. -/
theorem C130_sizes (rows cols num : Int) (doPCs remove center scale : Bool) :
    (Pca.make rows cols num doPCs remove center scale = .throws ↔ (rows ≤ 0 ∨ cols ≤ 0)) ∧
    (0 < rows → 0 < cols → ∃ o, Pca.make rows cols num doPCs remove center scale = .ok o) := by
  have hpos : 0 < rows → 0 < cols → ∃ o, Pca.make rows cols num doPCs remove center scale = .ok o := by
    intro h1 h2
    obtain ⟨R, rfl⟩ := Int.eq_ofNat_of_zero_le h1.le
    obtain ⟨C, rfl⟩ := Int.eq_ofNat_of_zero_le h2.le
    by_cases hn : 0 ≤ num
    · obtain ⟨F, rfl⟩ := Int.eq_ofNat_of_zero_le hn
      obtain ⟨o, e, -⟩ := make_ok R C F (by omega) (by omega) doPCs remove center scale
      exact ⟨o, e⟩
    · have e : ∀ z w, forecastWork num (C : Int) z center scale w = pure w := fun z w => if_neg (by omega)
      have hsv : ∃ s, Svd.make (R : Int) (C : Int) = .ok s := ⟨_, if_neg (by omega)⟩
      obtain ⟨s, hs⟩ := hsv
      unfold Pca.make
      simp only [e]
      rw [hs, Outcome.ok_bind]
      by_cases hcs : (center || scale) = true
      · have hst : ∀ z, ∃ d, Std.make (R : Int) (C : Int) z center scale = .ok d := fun z => ⟨_, if_neg (by omega)⟩
        obtain ⟨d, hd⟩ := hst (if scale then remove else false)
        rw [if_pos hcs, hd]; exact ⟨_, rfl⟩
      · rw [if_neg hcs]; exact ⟨_, rfl⟩
  refine ⟨⟨fun h => ?_, fun h => ?_⟩, hpos⟩
  · by_contra hn
    obtain ⟨o, e⟩ := hpos (by omega) (by omega)
    rw [h] at e; cases e
  · have hsv : Svd.make rows cols = .throws := if_pos (by omega)
    unfold Pca.make
    rw [hsv]; rfl

theorem analysed_mean (h2 : 2 ≤ r) (remove scale : Bool) (M : Fin r → Fin c → ℝ) (b : Fin (width remove scale M)) :
    ∑ i, analysed remove true scale M M i b = 0 := by
  have hr0 : (r : ℝ) ≠ 0 := by have : (2 : ℝ) ≤ r := by exact_mod_cast h2
                               linarith
  unfold analysed
  dsimp only
  generalize (keptColumns (scale && remove) (colVar true M))[(b : ℕ)]'b.2 = j
  rw [← Finset.sum_div, if_pos rfl, Finset.sum_sub_distrib, Finset.sum_const, Finset.card_univ, Fintype.card_fin, nsmul_eq_mul]
  unfold colMean
  rw [mul_div_cancel₀ _ hr0, sub_self, zero_div]

theorem colVar_centered (X : Fin r → Fin k → ℝ) (j : Fin k) (h : ∑ i, X i j = 0) : colVar true X j = (∑ i, X i j ^ 2) / ((r : ℝ) - 1) := by
  unfold colVar colMean
  rw [h, zero_div, if_pos rfl]
  simp

/-- Of centred data every component has mean 0, and its variance is the square of the reported standard deviation. -/
theorem C130_variances (h2 : 2 ≤ r) (remove scale doPCs : Bool) (M : Fin r → Fin c → ℝ)
    {D : Fin (width remove scale M) → Fin (width remove scale M) → ℝ} {sd : Fin (min r (width remove scale M)) → ℝ} {res : PcaRes}
    (h : Analysis (analysed remove true scale M M) doPCs D sd res) :
    (∀ a, colMean (scores (analysed remove true scale M M) D) a = 0) ∧
    ∀ a : Fin (min r (width remove scale M)),
      colVar true (scores (analysed remove true scale M M) D) ⟨a, lt_of_lt_of_le a.2 (min_le_right _ _)⟩ = sd a ^ 2 := by
  have hm : ∀ a, ∑ i, scores (analysed remove true scale M M) D i a = 0 := fun a =>
    score_mean (fun j => analysed_mean h2 remove scale M j) (D a)
  refine ⟨fun a => ?_, fun a => ?_⟩
  · unfold colMean; rw [hm, zero_div]
  · rw [colVar_centered _ _ (hm _)]
    have := h.isPca.moments a a
    rw [if_pos rfl] at this
    rw [← this]
    congr 1
    refine Finset.sum_congr rfl fun i _ => ?_
    unfold scores
    rw [sq]

/-- The components together have the total variance of the analysed (centred) columns; scaled columns have the total `number of columns`. -/
theorem C130_total (h2 : 2 ≤ r) (remove scale doPCs : Bool) (M : Fin r → Fin c → ℝ) (hok : Scalable remove scale M)
    {D : Fin (width remove scale M) → Fin (width remove scale M) → ℝ} {sd : Fin (min r (width remove scale M)) → ℝ} {res : PcaRes}
    (h : Analysis (analysed remove true scale M M) doPCs D sd res) :
    ∑ a, sd a ^ 2 = ∑ j, colVar true (analysed remove true scale M M) j ∧
    (scale = true → ∑ a, sd a ^ 2 = width remove scale M) := by
  have hr1 : (r : ℝ) - 1 ≠ 0 := by have : (2 : ℝ) ≤ r := by exact_mod_cast h2
                                   linarith
  have e1 : ∑ a, sd a ^ 2 = ∑ j, colVar true (analysed remove true scale M M) j := by
    rw [← h.isPca.total, Finset.sum_div]
    exact Finset.sum_congr rfl fun j _ => (colVar_centered _ _ (analysed_mean h2 remove scale M j)).symm
  refine ⟨e1, fun hs => ?_⟩
  rw [e1]
  have : ∀ j, colVar true (analysed remove true scale M M) j = 1 := by
    intro b
    rw [colVar_centered _ _ (analysed_mean h2 remove scale M b)]
    unfold analysed
    dsimp only
    have hpos := kept_pos h2 hok hs ((keptColumns (scale && remove) (colVar true M))[(b : ℕ)]'b.2) (List.getElem_mem _)
    generalize (keptColumns (scale && remove) (colVar true M))[(b : ℕ)]'b.2 = j at *
    simp only [if_pos hs, if_true, div_pow, Real.sq_sqrt hpos.le]
    rw [← Finset.sum_div]
    have e : (∑ i, (M i j - colMean M j) ^ 2) = colVar true M j * ((r : ℝ) - 1) := by
      unfold colVar; rw [if_pos rfl, div_mul_cancel₀ _ hr1]
    rw [e, mul_div_cancel_left₀ _ hpos.ne', div_self hr1]
  rw [Finset.sum_congr rfl (fun j _ => this j)]
  simp

/-- The shares are numbers from 0 to 1 in descending order with the sum 1 - or all NaN, which happens exactly if every number of the
analysed table is 0. -/
theorem C130_shares (h2 : 2 ≤ r) {X : Fin r → Fin k → ℝ} {doPCs : Bool} {D : Fin k → Fin k → ℝ} {sd : Fin (min r k) → ℝ} {res : PcaRes}
    (h : Analysis X doPCs D sd res) :
    ((∃ i j, X i j ≠ 0) → ∃ w : Fin (min r k) → ℝ, res.ratios = List.ofFn (fun a => some (w a)) ∧ (∀ a, 0 ≤ w a) ∧
      (∀ a b, a ≤ b → w b ≤ w a) ∧ ∑ a, w a = 1) ∧
    ((∀ i j, X i j = 0) → res.ratios = List.replicate (min r k) none) := by
  have hr1 : (r : ℝ) - 1 ≠ 0 := by have : (2 : ℝ) ≤ r := by exact_mod_cast h2
                                   linarith
  have htot := h.isPca.total
  rw [h.ratios]
  constructor
  · rintro ⟨i, j, hne⟩
    have hpos : 0 < ∑ j, ∑ i, X i j ^ 2 := by
      refine Finset.sum_pos' (fun _ _ => Finset.sum_nonneg fun _ _ => sq_nonneg _) ⟨j, Finset.mem_univ _, ?_⟩
      exact Finset.sum_pos' (fun _ _ => sq_nonneg _) ⟨i, Finset.mem_univ _, by positivity⟩
    have hne : ∑ a, sd a ^ 2 ≠ 0 := by rw [← htot]; exact div_ne_zero hpos.ne' hr1
    have hnn : 0 ≤ ∑ a, sd a ^ 2 := Finset.sum_nonneg fun _ _ => sq_nonneg _
    refine ⟨fun a => sd a ^ 2 / ∑ b, sd b ^ 2, ?_, fun a => div_nonneg (sq_nonneg _) hnn, fun a b hab => ?_, ?_⟩
    · congr 1; funext a; unfold share; rw [if_neg hne]
    · have := h.isPca.descending a b hab
      have h0 := h.isPca.nonneg b
      dsimp only
      gcongr
    · rw [← Finset.sum_div, div_self hne]
  · intro hz
    have hzero : ∑ a, sd a ^ 2 = 0 := by rw [← htot]; simp [hz]
    rw [← List.ofFn_const]
    congr 1; funext a; unfold share; rw [if_pos hzero]

/-- A different number of columns in the rows to be forecast, or a table that is at least as large in every respect as the object was made
for and larger in one, is refused. -/
theorem C130_refused (L : Lapack) {R C F : ℕ} {doPCs remove center scale : Bool} {o : Pca} (hR : 0 < R) (hC : 0 < C)
    (ho : Pca.make (R : Int) (C : Int) (F : Int) doPCs remove center scale = .ok o) (A : Mat (Val ℝ)) (work storage : List ℝ) :
    (∀ B, B.cols ≠ A.cols → o.calculate L A work storage (some B) = .throws) ∧
    (∀ (r c f : ℕ) (xf : Option (Mat (Val ℝ))), A.rows = r → A.cols = c → forecastRows xf = f → R ≤ r → C ≤ c → F ≤ f →
      (R < r ∨ C < c ∨ F < f) → o.calculate L A work storage xf = .throws) := by
  constructor
  · intro B hB
    unfold Pca.calculate
    exact if_pos (by simpa using hB)
  · intro r c f xf hr hc hf h1 h2 h3 h4
    have h := made_of hR hC ho
    unfold Pca.calculate
    by_cases hany : xf.any (fun f => f.cols != A.cols) = true
    · rw [if_pos hany]
    rw [if_neg hany]
    obtain ⟨t, et, ht⟩ := make_ok r c f (by omega) (by omega) doPCs (if (center || scale) = true then (scale && remove) else false) center scale
    have htemp := h.temp (r : Int) (c : Int) (f : Int)
    rw [et] at htemp
    rw [hr, hc, hf, htemp, Outcome.ok_bind]
    refine if_pos ?_
    have m1 : (C : Int) * C ≤ (c : Int) * c := by exact_mod_cast Nat.mul_le_mul h2 h2
    have m2 : (R : Int) * C ≤ (r : Int) * c := by exact_mod_cast Nat.mul_le_mul h1 h2
    have m3 : (F : Int) * C ≤ (f : Int) * c := by exact_mod_cast Nat.mul_le_mul h3 h2
    have hst : t.storageSize ≤ o.storageSize → (c : Int) * c ≤ (C : Int) * C ∧ (f : Int) * c ≤ (F : Int) * C ∧
        ((center || scale) = true → (r : Int) * c ≤ (R : Int) * C) := by
      have hmn : min (R : Int) C ≤ min (r : Int) c := by omega
      have hrc : (C : Int) ≤ c := by omega
      rw [h.storage, ht.storage]
      generalize min (R : Int) C = y1 at *; generalize min (r : Int) c = y2 at *
      generalize (c : Int) * c = x1 at *; generalize (C : Int) * C = x2 at *; generalize (r : Int) * c = x3 at *
      generalize (R : Int) * C = x4 at *; generalize (f : Int) * c = x5 at *; generalize (F : Int) * C = x6 at *
      cases center <;> cases scale <;> cases doPCs <;> simp only [Bool.or_false, Bool.or_true, Bool.or_self, Bool.false_or, Bool.true_or,
        Bool.false_eq_true, if_true, if_false, false_imp_iff, true_imp_iff, forall_true_left, and_true] <;> omega
    have hwt : (center || scale) = false → t.workSize ≤ o.workSize → (r : Int) * c ≤ (R : Int) * C := by
      intro hcs
      rw [h.work, ht.work, hcs]
      simp only [Bool.false_eq_true, false_and, if_false]
      generalize (r : Int) * c = x3 at *
      generalize (R : Int) * C = x4 at *
      omega
    by_contra hn
    obtain ⟨a1, a2, a3⟩ := hst (by omega)
    have a4 : (r : Int) * c ≤ (R : Int) * C := by
      by_cases hcs : (center || scale) = true
      · exact a3 hcs
      · exact hwt (by simpa using hcs) (by omega)
    have b1 : c * c ≤ C * C := by exact_mod_cast a1
    have b2 : f * c ≤ F * C := by exact_mod_cast a2
    have b3 : r * c ≤ R * C := by exact_mod_cast a4
    have e1 : c = C := le_antisymm (Nat.mul_self_le_mul_self_iff.1 b1) h2
    subst e1
    have e2 : r ≤ R := Nat.le_of_mul_le_mul_right b3 hC
    have e3 : f ≤ F := Nat.le_of_mul_le_mul_right b2 hC
    omega

/-- "The directions are orthonormal": with fewer rows than columns the remaining directions are whatever the array contained: filled with
the number `v`, all their coordinates are `v`. -/
theorem C130_wide_violated (L : Lapack) (hL : L.Correct) {R C : ℕ} {doPCs remove center scale : Bool} {o : Pca}
    (ho : Pca.make (R : Int) (C : Int) 0 doPCs remove center scale = .ok o)
    (h2 : 2 ≤ r) (hc : 0 < c) (hrR : r ≤ R) (hcC : c ≤ C) {A : Mat (Val ℝ)} {M : Fin r → Fin c → ℝ} (hA : Holds A M)
    (hok : Scalable remove scale M) (hk : r < width remove scale M) (work : List ℝ) (hwk : (work.length : Int) = o.workSize)
    (hi : (L.gesvd r (width remove scale M) (analysed remove center scale M M)).1 = 0) (v : ℝ) (hv : (width remove scale M : ℝ) * v ^ 2 ≠ 1) :
    ∃ D sd res, o.calculate L A work (List.replicate o.storageSize.toNat v) none = .ok res ∧
      Analysis (analysed remove center scale M M) doPCs D sd res ∧ ∃ a : Fin (width remove scale M), (∀ j, D a j = v) ∧
      ∑ j, D a j * D a j ≠ 1 := by
  have h := made_of (by omega) (by omega) (F := 0) ho
  have h0 : 0 ≤ o.storageSize := by
    rw [h.storage]
    cases center <;> cases scale <;> cases doPCs <;> simp <;> positivity
  obtain ⟨D, sd, res, e, an, -, g, -⟩ := (C130_calculate L hL (F := 0) (f := 0) (N := fun i => i.elim0) ho h2 hc hrR hcC le_rfl hA hok
    (Or.inl ⟨rfl, rfl⟩) (by omega) work (List.replicate o.storageSize.toNat v) (by rw [List.length_replicate]; omega) hwk).2 hi
  refine ⟨D, sd, res, e, an, ⟨r, hk⟩, ?_⟩
  have hD : ∀ j, D ⟨r, hk⟩ j = v := fun j => (List.mem_replicate.1 (g ⟨r, hk⟩ j (by simp))).2
  refine ⟨hD, ?_⟩
  simp only [hD]
  rw [Finset.sum_const, Finset.card_univ, Fintype.card_fin, nsmul_eq_mul, ← sq]
  exact hv

theorem dotTr0_empty {x D slot : Mat ℝ} {X : Fin f → Fin k → ℝ} {Dm : Fin k → Fin k → ℝ} (hx : IsM x (X : Matrix (Fin f) (Fin k) ℝ))
    (hD : IsM D (Dm : Matrix (Fin k) (Fin k) ℝ)) (hf : 0 < f) (hk : 0 < k) (hs : slot.mem = []) : dotTr0 x D slot = .ub := by
  have hup : ∀ n : ℕ, 0 < n → ∃ l, upTo 0 (n : Int) = 0 :: l := by
    intro n hn
    obtain ⟨m, rfl⟩ := Nat.exists_eq_succ_of_ne_zero hn.ne'
    unfold upTo
    refine ⟨(List.range m).map (fun x => 0 + ((x + 1 : ℕ) : Int)), ?_⟩
    rw [show (((m.succ : ℕ) : Int) - 0).toNat = m + 1 by omega, List.range_succ_eq_map, List.map_cons, List.map_map]
    simp [Function.comp_def]
  have hg : gemm false true x.rows D.rows x.cols 1 x.mem x.rows D.mem D.rows 0 slot.mem x.rows = .ub := by
    have hsum := dotSum_spec (k := x.cols) (by rw [hx.cols]; omega) (x := fun l => opGet false x.mem x.rows 0 l)
      (y := fun l => opGet true D.mem D.rows l 0) (xv := fun l => opVal false x 0 l) (yv := fun l => opVal true D l 0)
      (fun l h0 h1 => opGet_spec false x hx.wf (by
        rw [if_neg (by simp)]; exact ⟨le_rfl, by rw [hx.rows]; omega, h0, h1⟩))
      (fun l h0 h1 => opGet_spec true D hD.wf (by
        rw [if_pos rfl]; exact ⟨le_rfl, by rw [hD.rows]; omega, h0, by rw [hD.cols]; rw [hx.cols] at h1; exact h1⟩))
    unfold gemm
    rw [if_neg (by
      unfold ldOk
      rw [hx.rows, hD.rows]
      simp; omega)]
    rw [hD.rows, hx.rows] at *
    obtain ⟨l1, e1⟩ := hup k hk
    obtain ⟨l2, e2⟩ := hup f hf
    rw [e1, List.foldlM_cons, e2, List.foldlM_cons, hsum, Outcome.ok_bind, hs]
    unfold blasWrite
    rw [if_pos rfl]
    rfl
  unfold dotTr0
  rw [hg]; rfl

/-- "A table that is accepted fits into the arrays of the announced sizes": an object made for 10 rows, one column and no forecast accepts 2
rows with 8 rows to be forecast, and writes the forecasts behind the end of the array. -/
theorem C130_check_violated (L : Lapack) (remove : Bool) {A B : Mat (Val ℝ)} {M : Fin 2 → Fin 1 → ℝ} {N : Fin 8 → Fin 1 → ℝ}
    (hA : Holds A M) (hB : Holds B N) (hi : (L.gesvd 2 (width remove false M) (analysed remove true false M M)).1 = 0)
    (work storage : List ℝ) {o : Pca} (ho : Pca.make 10 1 0 false remove true false = .ok o)
    (hst : (storage.length : Int) = o.storageSize) (hwk : (work.length : Int) = o.workSize) :
    o.calculate L A work storage (some B) = .ub := by
  have h : Made o 10 1 0 false remove true false := made_of (by norm_num) (by norm_num) ho
  have hok : Scalable remove false M := fun h => by cases h
  obtain ⟨u, eu, hu⟩ := use_ok h le_rfl (by norm_num) (by norm_num) (by norm_num) hA hok work storage hst hwk
  have hw1 : width remove false M = 1 := width_all remove M
  have hS := h.storage
  have hW := h.work
  norm_num at hS hW
  have hls : storage.length = 14 := by rw [hS] at hst; exact_mod_cast hst
  have hlw : work.length = 36 := by rw [hW] at hwk; exact_mod_cast hwk
  have hq : u.q = 11 := by
    have e := hu.q
    have hs := h.std
    rw [if_pos rfl] at hs
    obtain ⟨d, e1, -, -, -, -, -, e7⟩ := hs
    rw [e1] at e
    exact e.trans (e7.trans (by norm_num))
  have hp : u.p = 0 := by
    have e := hu.p
    have hs := h.std
    rw [if_pos rfl] at hs
    obtain ⟨d, e1, -⟩ := hs
    rw [e1] at e
    exact e
  obtain ⟨t, et, ht⟩ := make_ok 2 1 8 (by norm_num) (by norm_num) false (if (true || false) = true then (false && remove) else false) true false
  have htemp := h.temp 2 1 8
  have et' : Pca.make 2 1 8 false (if (true || false) = true then (false && remove) else false) true false = .ok t := et
  rw [et'] at htemp
  have hSt := ht.storage
  have hWt := ht.work
  norm_num at hSt hWt
  have hfe : ∀ (D : Mat ℝ) (q : Int), ∃ x, forecastRun o u D (1 : Int) B work storage q =
      dotTr0 x D ⟨B.rows, D.cols, some (part storage q (B.rows * D.cols))⟩ ∧
      IsM x (analysed remove true false M N : Matrix (Fin 8) (Fin (width remove false M)) ℝ) := by
    intro D q
    exact forecastRun_eq h le_rfl (by norm_num) hok hu (by norm_num) hB D work storage q (fun _ => by rw [hlw]; norm_num)
  have hmat := hu.mat
  clear hu
  generalize analysed remove true false M M = X at *
  generalize analysed remove true false M N = Y at *
  generalize width remove false M = k at *
  subst hw1
  have hsv := (svdRun_ok L hmat (by norm_num) (by norm_num) (storage.drop u.q.toNat) (work.drop u.p.toNat) (by
    rw [List.length_drop, hq, hls]; decide) (by rw [List.length_drop, hp, hlw]; norm_num)).2 hi
  obtain ⟨D, eD, iD⟩ := hsv
  obtain ⟨x, ex, ix⟩ := hfe D 14
  have hub : forecastRun o u D (1 : Int) B work storage 14 = .ub := by
    rw [ex]
    refine dotTr0_empty ix iD (by norm_num) (by norm_num) ?_
    show part storage 14 _ = []
    unfold part
    rw [List.drop_eq_nil_of_le (by rw [hls]; norm_num), List.take_nil]
  have hmc : u.mat.cols = 1 := hmat.cols
  unfold Pca.calculate
  rw [hA.rows, hA.cols, if_neg (by simp [hB.cols])]
  have hfr : forecastRows (some B) = 8 := hB.rows
  rw [hfr]
  have htemp' : Pca.make ((2 : ℕ) : Int) ((1 : ℕ) : Int) 8 o.doPcs o.flags.1 o.flags.2.1 o.flags.2.2 = .ok t := htemp
  rw [htemp', Outcome.ok_bind, if_neg (by rw [hSt, hWt, hS, hW]; norm_num), eu, Outcome.ok_bind, eD, Outcome.ok_bind]
  dsimp only
  rw [hmc, hq]
  rw [if_neg (by rw [hls]; norm_num)]
  have hpcs : pcsRun o.doPcs u.mat D storage (11 + min (((2 : ℕ) : Int)) 1 + 1 * 1 + min (((2 : ℕ) : Int)) 1) = .ok none := by
    unfold pcsRun; rw [h.doPcs]; rfl
  have haf : afterPcs o.doPcs (11 + min (((2 : ℕ) : Int)) 1 + 1 * 1 + min (((2 : ℕ) : Int)) 1) ((2 : ℕ) : Int) 1 = 14 := by
    unfold afterPcs; rw [h.doPcs]; rfl
  rw [hpcs, Outcome.ok_bind, haf]
  unfold forecastsRun
  dsimp only
  rw [if_pos (show B.rows > 0 by rw [hB.rows]; norm_num)]
  have hub' : forecastRun o u D (((1 : ℕ) : Int)) B work storage 14 = .ub := hub
  rw [hub']
  rfl

/-! ## The hypotheses are met -/

open Classical in
/-- A routine that fulfils the contract and succeeds whenever there is a decomposition. -/
noncomputable def someLapack : Lapack :=
  ⟨fun r c X => if h : ∃ z : (ℕ → ℝ) × (ℕ → ℕ → ℝ), IsSvd (n := min r c) X (fun a => z.1 a) (fun a j => z.2 a j) then
    (0, (Classical.choose h).1, (Classical.choose h).2) else (1, fun _ => 0, fun _ _ => 0)⟩

theorem someLapack_correct : someLapack.Correct := by
  intro r c X _ _ hi
  unfold someLapack at hi ⊢
  dsimp only at hi ⊢
  by_cases h : ∃ z : (ℕ → ℝ) × (ℕ → ℕ → ℝ), IsSvd (n := min r c) X (fun a => z.1 a) (fun a j => z.2 a j)
  · rw [dif_pos h]
    exact Classical.choose_spec h
  · rw [dif_neg h] at hi
    cases hi

theorem someLapack_info {r c : ℕ} (X : Fin r → Fin c → ℝ)
    (h : ∃ z : (ℕ → ℝ) × (ℕ → ℕ → ℝ), IsSvd (n := min r c) X (fun a => z.1 a) (fun a j => z.2 a j)) : (someLapack.gesvd r c X).1 = 0 := by
  unfold someLapack
  dsimp only
  rw [dif_pos h]

/-- The column with the numbers -1 and 1. -/
theorem svd_pair : ∀ (k n : ℕ) (_ : k = 1) (_ : n = 1) (X : Fin 2 → Fin k → ℝ), (∀ j, X 0 j = -1 ∧ X 1 j = 1) →
    IsSvd (n := n) X (fun _ => Real.sqrt 2) (fun _ _ => 1) := by
  intro k n hk hn X hX
  subst hk; subst hn
  have h2 : Real.sqrt 2 ≠ 0 := by positivity
  have hss : Real.sqrt 2 * Real.sqrt 2 = 2 := Real.mul_self_sqrt (by norm_num)
  refine ⟨fun _ => Real.sqrt_nonneg _, fun _ _ _ => le_rfl, fun a b => ?_, fun i _ => (if i = 0 then -1 else 1) / Real.sqrt 2, fun a b => ?_, fun i j => ?_⟩
  · rw [if_pos (Subsingleton.elim a b)]; simp
  · rw [if_pos (Subsingleton.elim a b), Fin.sum_univ_two]
    simp only [if_true, Fin.one_eq_zero_iff, OfNat.ofNat_ne_one, if_false]
    rw [div_mul_div_comm, div_mul_div_comm, hss]
    norm_num
  · rw [Fin.sum_univ_one]
    fin_cases i
    · simp [(hX j).1, h2]
    · simp [(hX j).2, h2]

/-- A column with the numbers 0 and 2, centred, and the forecast for 3: one component with the scores ±1 and the variance 2. -/
example : ∃ (o : Pca) (A B : Mat (Val ℝ)) (M : Fin 2 → Fin 1 → ℝ) (N : Fin 1 → Fin 1 → ℝ) (work storage : List ℝ) (D : _) (sd : _) (res : PcaRes),
    Pca.make 2 1 1 true false true false = .ok o ∧ Holds A M ∧ Holds B N ∧ M 1 0 = 2 ∧ N 0 0 = 3 ∧
    o.calculate someLapack A work storage (some B) = .ok res ∧ Analysis (analysed false true false M M) true D sd res ∧
    ∑ a, sd a ^ 2 = 2 := by
  set M : Fin 2 → Fin 1 → ℝ := fun i _ => if i = 0 then 0 else 2 with hM
  have hmean : ∀ j, colMean M j = 1 := by intro j; unfold colMean; rw [Fin.sum_univ_two]; norm_num [hM]
  have hA : Holds ⟨2, 1, some [some 0, some 2]⟩ M := by
    refine ⟨wf_mk 2 1 _ rfl, rfl, rfl, fun i j => ?_⟩
    fin_cases i <;> fin_cases j <;> rfl
  have hB : Holds ⟨1, 1, some [some 3]⟩ (fun (_ _ : Fin 1) => (3 : ℝ)) := by
    refine ⟨wf_mk 1 1 _ rfl, rfl, rfl, fun i j => ?_⟩
    fin_cases i; fin_cases j; rfl
  obtain ⟨o, eo, ho⟩ := make_ok 2 1 1 (by norm_num) (by norm_num) true false true false
  have hS := ho.storage
  have hW := ho.work
  norm_num at hS hW
  have hw : width false false M = 1 := width_all false M
  have hX : ∀ j, analysed false true false M M 0 j = -1 ∧ analysed false true false M M 1 j = 1 := by
    intro j
    unfold analysed
    dsimp only
    rw [if_pos rfl, hmean]
    norm_num [hM]
  have hi : (someLapack.gesvd 2 (width false false M) (analysed false true false M M)).1 = 0 :=
    someLapack_info _ ⟨(fun _ => Real.sqrt 2, fun _ _ => 1), svd_pair _ _ hw (by rw [hw]; rfl) _ hX⟩
  obtain ⟨D, sd, res, e, an, -, -, -⟩ := (C130_calculate someLapack someLapack_correct eo le_rfl (by norm_num) le_rfl le_rfl le_rfl hA
    (fun h => by cases h) (Or.inr ⟨_, rfl, hB⟩) (by rw [hw]; norm_num) (List.replicate o.workSize.toNat 0) (List.replicate o.storageSize.toNat 0)
    (by rw [List.length_replicate, hS]; norm_num) (by rw [List.length_replicate, hW]; norm_num)).2 hi
  refine ⟨o, _, _, M, _, _, _, D, sd, res, eo, hA, hB, rfl, rfl, e, an, ?_⟩
  rw [← an.isPca.total]
  have : ∀ j, ∑ i, analysed false true false M M i j ^ 2 = 2 := by
    intro j; rw [Fin.sum_univ_two, (hX j).1, (hX j).2]; norm_num
  rw [Finset.sum_congr rfl (fun j _ => this j), Finset.sum_const, Finset.card_univ, Fintype.card_fin, hw]
  norm_num

end Pc
end LDT
