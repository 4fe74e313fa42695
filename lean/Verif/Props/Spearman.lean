import Verif.Lemmas.Spearman
/-!
# C78: Spearman's coefficient
-/
namespace LDT
namespace Co
open Mx Stat
open Arr (Val)

section
variable {K : Type} [Field K] [LinearOrder K]

theorem none_not_mem_map_some {K : Type} (l : List K) : (none : Val K) ∉ l.map some := by simp

theorem sortable_numbers {K : Type} [LinearOrder K] (l : List K) : Sortable (l.map some) := Or.inl (none_not_mem_map_some l)

theorem ranks_eq (l : List K) : (l.map (fun x => some (Rk.rankIn false l x : K)) : List (Val K)) = ranks l := rfl

theorem spearman_sizes (kind : Kind) {rows cols : Int} (hr : 0 ≤ rows) (hc : 0 ≤ cols) :
    Rk.size rows cols + Rk.size rows cols ≤ spearmanWorkSize false kind rows cols := by
  unfold spearmanWorkSize
  simp only [Bool.false_eq_true, if_false]
  have := le_max_left (Rk.size rows cols) (workSize false rows cols)
  omega

/-- The ranks of a matrix of numbers, inside the work array. -/
theorem ranks_full (kind : Kind) (maxRows maxCols : Int) (m : Mat (Val K)) (w : m.Wf) (work : List (Val K))
    (hw : (work.length : Int) = spearmanWorkSize false kind maxRows maxCols)
    (ht : ¬ spearmanTooSmall false kind maxRows maxCols m.rows m.cols) (col : Int → List K)
    (hcol : ∀ j, 0 ≤ j → j < m.cols → IsColumn m j ((col j).map some)) :
    ∃ r, Rk.calculate m.rows m.cols m (part work (Rk.size m.rows m.cols) (work.length - Rk.size m.rows m.cols))
      (part work 0 (Rk.size m.rows m.cols)) false = .ok r ∧ r.Wf ∧ r.rows = m.rows ∧ r.cols = m.cols ∧
      ∀ j, 0 ≤ j → j < m.cols → IsColumn r j (ranks (col j)) := by
  have hr := w.rows_nonneg
  have hc := w.cols_nonneg
  have hsz := spearman_sizes kind hr hc
  have hn : 0 ≤ Rk.size m.rows m.cols := mul_nonneg hr hc
  unfold spearmanTooSmall at ht
  have h1 : ((part work (Rk.size m.rows m.cols) (work.length - Rk.size m.rows m.cols)).length : Int) = work.length - Rk.size m.rows m.cols :=
    part_length hn (by omega) (by omega)
  have h2 : ((part work 0 (Rk.size m.rows m.cols)).length : Int) = Rk.size m.rows m.cols := part_length (le_refl _) hn (by omega)
  have hsize : Rk.size m.rows m.cols = m.rows * m.cols := rfl
  obtain ⟨r, e, s, v, -⟩ := Rk.C77_ranks m.rows m.cols m (part work (Rk.size m.rows m.cols) (work.length - Rk.size m.rows m.cols))
    (part work 0 (Rk.size m.rows m.cols)) false w (le_refl _) (by omega) (by omega) (by
      intro j xs h0 h1 hx
      rw [isColumn_unique hx (hcol j h0 h1)]
      exact sortable_numbers _)
  exact ⟨r, e, s.wf ⟨hr, hc, rfl, by show m.rows * m.cols ≤ ((part work 0 (Rk.size m.rows m.cols)).length : Int); omega⟩, s.rows, s.cols,
    fun j h0 h1 => v j (col j) h0 h1 (hcol j h0 h1)⟩

/-- C78, covariances without missing values: the covariances of the descending ranks of the columns. -/
theorem C78_covariance_full [IsStrictOrderedRing K] (vsqrt : Val K → Val K) (adjust setLower : Bool) (maxRows maxCols : Int) (m : Mat (Val K)) (w : m.Wf)
    (work storage : List (Val K)) (hw : (work.length : Int) = spearmanWorkSize false .covariance maxRows maxCols)
    (hst : (storage.length : Int) = storageSize false .covariance maxCols)
    (ht : ¬ spearmanTooSmall false .covariance maxRows maxCols m.rows m.cols) (pr : 0 < m.rows) (pc : 0 < m.cols) (col : Int → List K)
    (hcol : ∀ j, 0 ≤ j → j < m.cols → IsColumn m j ((col j).map some)) :
    ∃ r me va, spearmanFull vsqrt .covariance maxRows maxCols m work storage adjust setLower = .ok (r, me, va) ∧
      r.rows = m.cols ∧ r.cols = m.cols ∧
      ∀ i j : Nat, (i : Int) < m.cols → (j : Int) < m.cols → i ≤ j ∨ setLower = true →
        r.get i j = .ok (rankCov adjust (col i) (col j)) := by
  obtain ⟨q, e, wq, qr, qc, hq⟩ := ranks_full .covariance maxRows maxCols m w work hw ht col hcol
  unfold spearmanFull
  rw [if_neg ht]
  show ∃ r me va, (_ >>= _) = _ ∧ _
  rw [e, Outcome.ok_bind]
  have hle : storageSize false .covariance m.cols ≤ storage.length := by
    unfold spearmanTooSmall at ht; omega
  -- the inner object is made for exactly this matrix, over the larger storage
  have h0 := w.cols_nonneg
  have hsq : 0 ≤ m.cols * m.cols := mul_nonneg h0 h0
  unfold calculateFull
  rw [if_neg (by rw [qr, qc]; exact not_tooSmall _ _ _ _), qc]
  unfold storageSize at hle
  simp only [Bool.false_eq_true, if_false, reduceCtorEq] at hle
  have wR := wf_part (l := storage) (le_refl 0) h0 h0 (by omega)
  have wM := wf_part (l := storage) (q := m.cols * m.cols) (r := m.cols) (c := 1) hsq h0 (by omega) (by omega)
  rw [mul_one] at wM
  obtain ⟨r, me, er, sr, vr, -⟩ := C74_covariance_full vsqrt adjust setLower q _ _
    ⟨m.cols, 1, some (part storage (m.cols * m.cols + m.cols) (if Kind.covariance = Kind.correlation then m.cols else 0))⟩ wq wR wM
    qc.symm qc.symm (by rw [qc]; simp [Mat.length]) (by omega) (by omega)
  refine ⟨r, me, _, er, sr.rows, sr.cols, fun i j hi hj hs => ?_⟩
  exact vr i j _ _ (by omega) (by omega) hs (hq i (by omega) hi) (hq j (by omega) hj)

end

section
variable {K : Type} [Field K] [LinearOrder K]

/-- The ranks of the complete rows of two columns and the matrix of their covariances or correlations, inside the work array. -/
theorem pair_parts (kind : Kind) (m : Mat (Val K)) (w : m.Wf) (pr : 0 < m.rows) {maxRows maxCols : Int} (work : List (Val K))
    (hw : (work.length : Int) = spearmanWorkSize true kind maxRows maxCols)
    (ht : ¬ spearmanTooSmall true kind maxRows maxCols m.rows m.cols) {i j : Int} (hi0 : 0 ≤ i) (hi1 : i < m.cols) (hj0 : 0 ≤ j)
    (hj1 : j < m.cols) {xs ys : List (Val K)} (hx : IsColumn m i xs) (hy : IsColumn m j ys) (hp : pairs xs ys ≠ []) :
    ∃ ds two r, Dataset.make m.rows 2 true true = .ok ds ∧
      ds.calculate (fun v => v.isNone) m (some [i, j]) (part work 0 (m.rows * 2)) = .ok two ∧ two.rows = (pairs xs ys).length ∧
      Rk.calculate m.rows 2 two
        (part work (m.rows * 2 + storageSize false kind 2 + Rk.size m.rows 2)
          (work.length - (m.rows * 2 + storageSize false kind 2 + Rk.size m.rows 2)))
        (part work (m.rows * 2 + storageSize false kind 2) (Rk.size m.rows 2)) false = .ok r ∧
      r.Wf ∧ r.rows = (pairs xs ys).length ∧ r.cols = 2 ∧ IsColumn r 0 (ranks ((pairs xs ys).map Prod.fst)) ∧
      IsColumn r 1 (ranks ((pairs xs ys).map Prod.snd)) ∧ r.rows ≤ m.rows ∧
      ((part work (m.rows * 2) (storageSize false kind 2)).length : Int) = storageSize false kind 2 := by
  have hsz : spearmanWorkSize true kind m.rows m.cols ≤ work.length := by
    unfold spearmanTooSmall at ht; omega
  unfold spearmanWorkSize at hsz
  rw [if_pos rfl] at hsz
  have hmx := le_max_left (Rk.size m.rows 2) (workSize false m.rows 2)
  have hss : Rk.size m.rows 2 = m.rows * 2 := rfl
  have hs0 : 0 ≤ storageSize false kind 2 := by unfold storageSize; cases kind <;> decide
  obtain ⟨ds, two, e1, e2, w2, r2, c2, l2, x2, y2⟩ := dataset_pair w pr hi0 hi1 hj0 hj1 hx hy hp (part work 0 (m.rows * 2))
    (part_length (le_refl _) (by omega) (by omega))
  have p1 := part_length (l := work) (q := m.rows * 2 + storageSize false kind 2 + Rk.size m.rows 2)
    (n := work.length - (m.rows * 2 + storageSize false kind 2 + Rk.size m.rows 2)) (by omega) (by omega) (by omega)
  have p2 := part_length (l := work) (q := m.rows * 2 + storageSize false kind 2) (n := Rk.size m.rows 2) (by omega) (by omega) (by omega)
  have hle : two.rows * two.cols ≤ m.rows * 2 := by rw [c2]; omega
  obtain ⟨r, e3, s3, v3, -⟩ := Rk.C77_ranks m.rows 2 two
    (part work (m.rows * 2 + storageSize false kind 2 + Rk.size m.rows 2)
      (work.length - (m.rows * 2 + storageSize false kind 2 + Rk.size m.rows 2)))
    (part work (m.rows * 2 + storageSize false kind 2) (Rk.size m.rows 2)) false w2 hle (by omega) (by omega) (by
      intro c zs h0 h1 hz
      rw [c2] at h1
      rcases (show c = 0 ∨ c = 1 by omega) with rfl | rfl
      · rw [isColumn_unique hz x2]; exact sortable_numbers _
      · rw [isColumn_unique hz y2]; exact sortable_numbers _)
  refine ⟨ds, two, r, e1, e2, r2, e3, s3.wf ⟨w2.rows_nonneg, w2.cols_nonneg, rfl, ?_⟩, by rw [s3.rows, r2], by rw [s3.cols, c2],
    v3 0 _ (le_refl _) (by omega) x2, v3 1 _ (by omega) (by omega) y2, by rw [s3.rows]; exact l2,
    part_length (by omega) hs0 (by omega)⟩
  show two.rows * two.cols ≤ ((part work (m.rows * 2 + storageSize false kind 2) (Rk.size m.rows 2)).length : Int)
  omega

theorem fits_pair (kind : Kind) {rows maxRows : Int} (h : rows ≤ maxRows) (h0 : 0 ≤ rows) :
    ¬ tooSmall false kind maxRows 2 rows 2 :=
  (C74_refused false kind maxRows 2 rows 2 h0 (by norm_num) (by omega) (by norm_num)).1 h (le_refl _)

theorem cell_two {α : Type} {r : Mat α} (w : r.Wf) (hr : r.rows = 2) (hc : r.cols = 2) {v : α} (h : r.get (0 : Nat) (1 : Nat) = .ok v) :
    read r.mem 2 = .ok v := by
  rw [get_eq_get0 w ⟨by simp, by rw [hr]; simp, by simp, by rw [hc]; simp⟩] at h
  unfold Mat.get0 at h
  rw [hr] at h
  simpa using h

/-- The covariance of the ranks of one pair. -/
theorem spearmanPair_cov [IsStrictOrderedRing K] (vsqrt : Val K → Val K) (adjust : Bool) (m : Mat (Val K)) (w : m.Wf) (pr : 0 < m.rows)
    {maxRows maxCols : Int} (work : List (Val K)) (hw : (work.length : Int) = spearmanWorkSize true .covariance maxRows maxCols)
    (ht : ¬ spearmanTooSmall true .covariance maxRows maxCols m.rows m.cols) {i j : Int} (hi0 : 0 ≤ i) (hi1 : i < m.cols) (hj0 : 0 ≤ j)
    (hj1 : j < m.cols) {xs ys : List (Val K)} (hx : IsColumn m i xs) (hy : IsColumn m j ys) (hp : pairs xs ys ≠ []) :
    spearmanPair vsqrt .covariance adjust m work i j =
      .ok (rankCov adjust ((pairs xs ys).map Prod.fst) ((pairs xs ys).map Prod.snd), ((pairs xs ys).length : Int)) := by
  obtain ⟨ds, two, r, e1, e2, r2, e3, w3, r3, c3, x3, y3, l3, p3⟩ := pair_parts .covariance m w pr work hw ht hi0 hi1 hj0 hj1 hx hy hp
  have hpos : 0 < (pairs xs ys).length := List.length_pos_iff.2 hp
  obtain ⟨result, means, vars, ec, wr, rr, rc, wm, lm, -⟩ := (C74_calculate_full vsqrt .covariance m.rows 2 r w3
    (part work (m.rows * 2) (storageSize false .covariance 2)) p3 adjust false).2
    (by rw [c3]; exact fits_pair _ l3 w3.rows_nonneg)
  obtain ⟨q, me, eq, sq, vq, -⟩ := C74_covariance_full vsqrt adjust false r result means vars w3 wr wm rr rc lm (by omega) (by omega)
  have hcell := vq 0 1 _ _ (by rw [c3]; norm_num) (by rw [c3]; norm_num) (Or.inl (by omega)) x3 y3
  unfold spearmanPair
  rw [e1, Outcome.ok_bind]
  show (_ >>= _) = _
  rw [e2, Outcome.ok_bind, e3, Outcome.ok_bind, ec, eq, Outcome.ok_bind]
  show (read q.mem 2 >>= _) = _
  rw [cell_two (sq.wf wr) (by rw [sq.rows, rr, c3]) (by rw [sq.cols, rc, c3]) hcell, Outcome.ok_bind, r2]
  rfl

end

section
open Classical

/-- C78, correlations without missing values: the coefficients of correlation of the descending ranks of the columns. -/
theorem C78_correlation_full (adjust setLower : Bool) (maxRows maxCols : Int) (m : Mat (Val ℝ)) (w : m.Wf)
    (work storage : List (Val ℝ)) (hw : (work.length : Int) = spearmanWorkSize false .correlation maxRows maxCols)
    (hst : (storage.length : Int) = storageSize false .correlation maxCols)
    (ht : ¬ spearmanTooSmall false .correlation maxRows maxCols m.rows m.cols) (pr : 0 < m.rows) (pc : 0 < m.cols) (col : Int → List ℝ)
    (hcol : ∀ j, 0 ≤ j → j < m.cols → IsColumn m j ((col j).map some)) :
    ∃ r me va, spearmanFull rsqrt .correlation maxRows maxCols m work storage adjust setLower = .ok (r, me, va) ∧
      r.rows = m.cols ∧ r.cols = m.cols ∧
      ∀ i j : Nat, (i : Int) < m.cols → (j : Int) < m.cols → i ≤ j ∨ setLower = true →
        r.get i j = .ok (rankCor (col i) (col j)) := by
  obtain ⟨q, e, wq, qr, qc, hq⟩ := ranks_full .correlation maxRows maxCols m w work hw ht col hcol
  unfold spearmanFull
  rw [if_neg ht]
  show ∃ r me va, (_ >>= _) = _ ∧ _
  rw [e, Outcome.ok_bind]
  have hle : storageSize false .correlation m.cols ≤ storage.length := by
    unfold spearmanTooSmall at ht; omega
  have h0 := w.cols_nonneg
  have hsq : 0 ≤ m.cols * m.cols := mul_nonneg h0 h0
  unfold calculateFull
  rw [if_neg (by rw [qr, qc]; exact not_tooSmall _ _ _ _), qc]
  unfold storageSize at hle
  simp only [Bool.false_eq_true, if_false, if_true] at hle
  have wR := wf_part (l := storage) (le_refl 0) h0 h0 (by omega)
  have wM := wf_part (l := storage) (q := m.cols * m.cols) (r := m.cols) (c := 1) hsq h0 (by omega) (by omega)
  have wV := wf_part (l := storage) (q := m.cols * m.cols + m.cols) (r := m.cols) (c := 1) (by omega) h0 (by omega) (by omega)
  rw [mul_one] at wM wV
  obtain ⟨r, me, va, er, sr, vr, -⟩ := C74_correlation_full adjust setLower q _ _ _ wq wR wM wV
    qc.symm qc.symm (by rw [qc]; simp [Mat.length]) (by rw [qc]; simp [Mat.length]) (by omega) (by omega)
  refine ⟨r, me, va, er, sr.rows, sr.cols, fun i j hi hj hs => ?_⟩
  exact vr i j _ _ (by omega) (by omega) hs (hq i (by omega) hi) (hq j (by omega) hj)

/-- The coefficient of correlation of the ranks of one pair. -/
theorem spearmanPair_cor (adjust : Bool) (m : Mat (Val ℝ)) (w : m.Wf) (pr : 0 < m.rows)
    {maxRows maxCols : Int} (work : List (Val ℝ)) (hw : (work.length : Int) = spearmanWorkSize true .correlation maxRows maxCols)
    (ht : ¬ spearmanTooSmall true .correlation maxRows maxCols m.rows m.cols) {i j : Int} (hi0 : 0 ≤ i) (hi1 : i < m.cols) (hj0 : 0 ≤ j)
    (hj1 : j < m.cols) {xs ys : List (Val ℝ)} (hx : IsColumn m i xs) (hy : IsColumn m j ys) (hp : pairs xs ys ≠ []) :
    spearmanPair rsqrt .correlation adjust m work i j =
      .ok (rankCor ((pairs xs ys).map Prod.fst) ((pairs xs ys).map Prod.snd), ((pairs xs ys).length : Int)) := by
  obtain ⟨ds, two, r, e1, e2, r2, e3, w3, r3, c3, x3, y3, l3, p3⟩ := pair_parts .correlation m w pr work hw ht hi0 hi1 hj0 hj1 hx hy hp
  have hpos : 0 < (pairs xs ys).length := List.length_pos_iff.2 hp
  obtain ⟨result, means, vars, ec, wr, rr, rc, wm, lm, hv⟩ := (C74_calculate_full rsqrt .correlation m.rows 2 r w3
    (part work (m.rows * 2) (storageSize false .correlation 2)) p3 adjust false).2
    (by rw [c3]; exact fits_pair _ l3 w3.rows_nonneg)
  obtain ⟨wv, lv⟩ := hv rfl
  obtain ⟨q, me, va, eq, sq, vq, -⟩ := C74_correlation_full adjust false r result means vars w3 wr wm wv rr rc lm lv (by omega) (by omega)
  have hcell := vq 0 1 _ _ (by rw [c3]; norm_num) (by rw [c3]; norm_num) (Or.inl (by omega)) x3 y3
  unfold spearmanPair
  rw [e1, Outcome.ok_bind]
  show (_ >>= _) = _
  rw [e2, Outcome.ok_bind, e3, Outcome.ok_bind, ec, eq, Outcome.ok_bind]
  show (read q.mem 2 >>= _) = _
  rw [cell_two (sq.wf wr) (by rw [sq.rows, rr, c3]) (by rw [sq.cols, rc, c3]) hcell, Outcome.ok_bind, r2]
  rfl

/-- C78, correlations with missing values: every pair of columns uses its own complete rows, ranked among themselves; the counts
tell how many these are (on the diagonal, too). -/
theorem C78_correlation_checked (adjust setLower : Bool) (maxRows maxCols : Int) (m : Mat (Val ℝ)) (w : m.Wf) (pr : 0 < m.rows)
    (work storage : List (Val ℝ)) (hw : (work.length : Int) = spearmanWorkSize true .correlation maxRows maxCols)
    (hst : (storage.length : Int) = storageSize true .correlation maxCols)
    (ht : ¬ spearmanTooSmall true .correlation maxRows maxCols m.rows m.cols) (col : Int → List (Val ℝ))
    (hcol : ∀ j, 0 ≤ j → j < m.cols → IsColumn m j (col j))
    (hne : ∀ i j, 0 ≤ i → i ≤ j → j < m.cols → pairs (col i) (col j) ≠ []) :
    ∃ res, spearmanNan rsqrt .correlation maxRows maxCols m work storage adjust setLower = .ok res ∧
      res.result.rows = m.cols ∧ res.result.cols = m.cols ∧ res.counts.rows = m.cols ∧
      ∀ i j : Nat, i ≤ j → (j : Int) < m.cols →
        res.result.get i j = .ok (rankCor ((pairs (col i) (col j)).map Prod.fst) ((pairs (col i) (col j)).map Prod.snd)) ∧
        (setLower = true →
          res.result.get j i = .ok (rankCor ((pairs (col i) (col j)).map Prod.fst) ((pairs (col i) (col j)).map Prod.snd))) ∧
        res.counts.get true i j = .ok (some ((pairs (col i) (col j)).length : ℝ)) ∧
        res.counts.get true j i = .ok (some ((pairs (col i) (col j)).length : ℝ)) := by
  have h0 := w.cols_nonneg
  have hsq : 0 ≤ m.cols * m.cols := mul_nonneg h0 h0
  have hn := symLength_nonneg h0
  have hle : storageSize true .correlation m.cols ≤ storage.length := by
    unfold spearmanTooSmall at ht; omega
  unfold storageSize at hle
  rw [if_pos rfl, ← symLength_true] at hle
  have wR := wf_part (l := storage) (le_refl 0) h0 h0 (by omega)
  obtain ⟨s, e, I⟩ := spearmanNan_loop (sl := setLower)
    (W := fun i j => rankCor ((pairs (col i) (col j)).map Prod.fst) ((pairs (col i) (col j)).map Prod.snd))
    (Wc := fun i j => some ((pairs (col i) (col j)).length : ℝ)) rsqrt .correlation adjust m work
    ⟨⟨m.cols, m.cols, some (part storage 0 (m.cols * m.cols))⟩, ⟨m.cols, part storage (m.cols * m.cols) (symLength true m.cols)⟩⟩ w
    wR rfl rfl rfl (part_length hsq hn (by omega)) (fun i j hi hij hj =>
      ⟨_, spearmanPair_cor adjust m w pr work hw ht hi (by omega) (by omega) hj (hcol i hi (by omega)) (hcol j (by omega) hj)
        (hne i j hi hij hj), by simp [vint]⟩)
  refine ⟨s, ?_, I.shape.rows, I.shape.cols, I.rows, fun i j hij hj => ?_⟩
  · unfold spearmanNan
    rw [if_neg (by rw [not_or]; exact ⟨by omega, ht⟩)]; exact e
  · obtain ⟨d1, d2, d3⟩ := I.done i j (by omega) (by omega) hj trivial
    obtain ⟨d3, d4⟩ := d3 (Or.inr rfl)
    have hr : s.result.rows = m.cols := I.shape.rows
    have hc : s.result.cols = m.cols := I.shape.cols
    refine ⟨?_, fun hs => ?_, d3, d4⟩
    · rw [get_val (I.shape.wf wR) ⟨by omega, by omega, by omega, by omega⟩, d1]
    · rw [get_val (I.shape.wf wR) ⟨by omega, by omega, by omega, by omega⟩, d2 hs]

end

section
variable {K : Type} [Field K] [LinearOrder K] [IsStrictOrderedRing K]

/-- C78, covariances with missing values. -/
theorem C78_covariance_checked (vsqrt : Val K → Val K) (adjust setLower : Bool) (maxRows maxCols : Int) (m : Mat (Val K)) (w : m.Wf)
    (pr : 0 < m.rows) (work storage : List (Val K)) (hw : (work.length : Int) = spearmanWorkSize true .covariance maxRows maxCols)
    (hst : (storage.length : Int) = storageSize true .covariance maxCols)
    (ht : ¬ spearmanTooSmall true .covariance maxRows maxCols m.rows m.cols) (col : Int → List (Val K))
    (hcol : ∀ j, 0 ≤ j → j < m.cols → IsColumn m j (col j))
    (hne : ∀ i j, 0 ≤ i → i ≤ j → j < m.cols → pairs (col i) (col j) ≠ []) :
    ∃ res, spearmanNan vsqrt .covariance maxRows maxCols m work storage adjust setLower = .ok res ∧
      res.result.rows = m.cols ∧ res.result.cols = m.cols ∧ res.counts.rows = m.cols ∧
      ∀ i j : Nat, i ≤ j → (j : Int) < m.cols →
        res.result.get i j = .ok (rankCov adjust ((pairs (col i) (col j)).map Prod.fst) ((pairs (col i) (col j)).map Prod.snd)) ∧
        (setLower = true →
          res.result.get j i = .ok (rankCov adjust ((pairs (col i) (col j)).map Prod.fst) ((pairs (col i) (col j)).map Prod.snd))) ∧
        res.counts.get true i j = .ok (some ((pairs (col i) (col j)).length : K)) ∧
        res.counts.get true j i = .ok (some ((pairs (col i) (col j)).length : K)) := by
  have h0 := w.cols_nonneg
  have hsq : 0 ≤ m.cols * m.cols := mul_nonneg h0 h0
  have hn := symLength_nonneg h0
  have hle : storageSize true .covariance m.cols ≤ storage.length := by
    unfold spearmanTooSmall at ht; omega
  unfold storageSize at hle
  rw [if_pos rfl, ← symLength_true] at hle
  have wR := wf_part (l := storage) (le_refl 0) h0 h0 (by omega)
  obtain ⟨s, e, I⟩ := spearmanNan_loop (sl := setLower)
    (W := fun i j => rankCov adjust ((pairs (col i) (col j)).map Prod.fst) ((pairs (col i) (col j)).map Prod.snd))
    (Wc := fun i j => some ((pairs (col i) (col j)).length : K)) vsqrt .covariance adjust m work
    ⟨⟨m.cols, m.cols, some (part storage 0 (m.cols * m.cols))⟩, ⟨m.cols, part storage (m.cols * m.cols) (symLength true m.cols)⟩⟩ w
    wR rfl rfl rfl (part_length hsq hn (by omega)) (fun i j hi hij hj =>
      ⟨_, spearmanPair_cov vsqrt adjust m w pr work hw ht hi (by omega) (by omega) hj (hcol i hi (by omega)) (hcol j (by omega) hj)
        (hne i j hi hij hj), by simp [vint]⟩)
  refine ⟨s, ?_, I.shape.rows, I.shape.cols, I.rows, fun i j hij hj => ?_⟩
  · unfold spearmanNan
    rw [if_neg (by rw [not_or]; exact ⟨by omega, ht⟩)]; exact e
  · obtain ⟨d1, d2, d3⟩ := I.done i j (by omega) (by omega) hj trivial
    obtain ⟨d3, d4⟩ := d3 (Or.inr rfl)
    have hr : s.result.rows = m.cols := I.shape.rows
    have hc : s.result.cols = m.cols := I.shape.cols
    refine ⟨?_, fun hs => ?_, d3, d4⟩
    · rw [get_val (I.shape.wf wR) ⟨by omega, by omega, by omega, by omega⟩, d1]
    · rw [get_val (I.shape.wf wR) ⟨by omega, by omega, by omega, by omega⟩, d2 hs]

end

section
variable {K : Type} [Field K] [LinearOrder K]

/-- C78, which data are refused: with the check for NaN exactly a matrix without rows or with more rows or more columns than the
object was made for; without it exactly more columns or more cells. -/
theorem C78_refused (kind : Kind) (vsqrt : Val K → Val K) (adjust setLower : Bool) (maxRows maxCols : Int) (m : Mat (Val K))
    (work storage : List (Val K)) (h0 : 0 ≤ m.rows) (h1 : 0 ≤ m.cols) (h2 : 0 ≤ maxRows) (h3 : 0 ≤ maxCols) :
    (spearmanTooSmall true kind maxRows maxCols m.rows m.cols ↔ maxCols < m.cols ∨ maxRows < m.rows) ∧
    (spearmanTooSmall false kind maxRows maxCols m.rows m.cols ↔ maxCols < m.cols ∨ maxRows * maxCols < m.rows * m.cols) ∧
    (m.rows = 0 ∨ maxCols < m.cols ∨ maxRows < m.rows →
      spearmanNan vsqrt kind maxRows maxCols m work storage adjust setLower = .throws) ∧
    (maxCols < m.cols ∨ maxRows * maxCols < m.rows * m.cols →
      spearmanFull vsqrt kind maxRows maxCols m work storage adjust setLower = .throws) := by
  have hs : ∀ c, storageSize c kind m.cols > storageSize c kind maxCols ↔ maxCols < m.cols := by
    intro c
    constructor
    · intro h
      by_contra hc
      have := storageSize_mono c kind h1 (not_lt.1 hc)
      omega
    · exact fun h => storageSize_strict c kind h3 h
  have k1 : spearmanTooSmall true kind maxRows maxCols m.rows m.cols ↔ maxCols < m.cols ∨ maxRows < m.rows := by
    unfold spearmanTooSmall
    rw [hs, or_comm]
    apply or_congr_right
    simp only [spearmanWorkSize, Rk.size, workSize, if_true, Bool.false_eq_true, if_false]
    rw [show ∀ r : Int, max (r * 2) (2 * r) = r * 2 from fun r => by rw [mul_comm 2 r, max_self]]
    rw [show max (maxRows * 2) (2 * maxRows) = maxRows * 2 by rw [mul_comm 2 maxRows, max_self]]
    omega
  have k2 : spearmanTooSmall false kind maxRows maxCols m.rows m.cols ↔ maxCols < m.cols ∨ maxRows * maxCols < m.rows * m.cols := by
    unfold spearmanTooSmall
    rw [hs, or_comm]
    apply or_congr_right
    simp only [spearmanWorkSize, Rk.size, workSize, Bool.false_eq_true, if_false]
    rw [mul_comm m.cols, mul_comm maxCols, max_self, max_self]
    omega
  refine ⟨k1, k2, fun h => ?_, fun h => ?_⟩
  · unfold spearmanNan
    rw [if_pos]
    rcases h with h | h
    · left; omega
    · right; exact k1.2 h
  · unfold spearmanFull
    rw [if_pos (k2.2 h)]

end
end Co
end LDT
