import Verif.Props.Correlation
import Verif.Props.Distance
/-!
# C74 (second part): `Calculate`, and C75: distances based on correlations
-/
namespace LDT
namespace Co
open Mx Stat
open Arr (Val sqrtV)

section
variable {K : Type} [Field K] [DecidableEq K]

theorem part_length {α : Type} {l : List α} {q n : Int} (hq : 0 ≤ q) (hn : 0 ≤ n) (h : q + n ≤ l.length) :
    ((part l q n).length : Int) = n := by
  unfold part
  rw [List.length_take, List.length_drop]
  omega

theorem wf_part {α : Type} {l : List α} {q r c : Int} (hq : 0 ≤ q) (hr : 0 ≤ r) (hc : 0 ≤ c) (h : q + r * c ≤ l.length) :
    (⟨r, c, some (part l q (r * c))⟩ : Mat α).Wf :=
  ⟨hr, hc, rfl, by
    show r * c ≤ (((part l q (r * c)).length : Nat) : Int)
    rw [part_length hq (mul_nonneg hr hc) h]⟩

theorem symLength_true (n : Int) : symLength true n = (n * (n + 1)).tdiv 2 := by
  unfold symLength; simp

theorem symLength_nonneg {n : Int} (h : 0 ≤ n) : 0 ≤ symLength true n := by
  rw [symLength_true]
  exact Int.tdiv_nonneg (mul_nonneg h (by omega)) (by norm_num)

theorem storageSize_mono (checkNan : Bool) (kind : Kind) {a b : Int} (h0 : 0 ≤ a) (h : a ≤ b) :
    storageSize checkNan kind a ≤ storageSize checkNan kind b := by
  unfold storageSize
  have h1 : a * a ≤ b * b := by nlinarith
  have h2 : (a * (a + 1)).tdiv 2 ≤ (b * (b + 1)).tdiv 2 := by
    rw [Int.tdiv_eq_ediv_of_nonneg (by nlinarith), Int.tdiv_eq_ediv_of_nonneg (by nlinarith)]
    exact Int.ediv_le_ediv (by norm_num) (by nlinarith)
  split_ifs <;> omega

theorem storageSize_strict (checkNan : Bool) (kind : Kind) {a b : Int} (h0 : 0 ≤ a) (h : a < b) :
    storageSize checkNan kind a < storageSize checkNan kind b := by
  unfold storageSize
  have h1 : a * a < b * b := by nlinarith
  have h2 : (a * (a + 1)).tdiv 2 ≤ (b * (b + 1)).tdiv 2 := by
    rw [Int.tdiv_eq_ediv_of_nonneg (by nlinarith), Int.tdiv_eq_ediv_of_nonneg (by nlinarith)]
    exact Int.ediv_le_ediv (by norm_num) (by nlinarith)
  split_ifs <;> omega

/-- C74, which data are refused: an object made for `maxRows` rows and `maxCols` columns takes everything within these numbers;
more columns are never taken, and without the check for NaN neither are more cells. -/
theorem C74_refused (checkNan : Bool) (kind : Kind) (maxRows maxCols rows cols : Int) (h0 : 0 ≤ rows) (h1 : 0 ≤ cols)
    (h2 : 0 ≤ maxRows) (h3 : 0 ≤ maxCols) :
    (rows ≤ maxRows → cols ≤ maxCols → ¬ tooSmall checkNan kind maxRows maxCols rows cols) ∧
    (tooSmall checkNan kind maxRows maxCols rows cols ↔ maxCols < cols ∨ (checkNan = false ∧ maxRows * maxCols < rows * cols)) := by
  have key : tooSmall checkNan kind maxRows maxCols rows cols ↔
      maxCols < cols ∨ (checkNan = false ∧ maxRows * maxCols < rows * cols) := by
    have hs : storageSize checkNan kind cols > storageSize checkNan kind maxCols ↔ maxCols < cols := by
      constructor
      · intro h
        by_contra hc
        have := storageSize_mono checkNan kind h1 (not_lt.1 hc)
        omega
      · exact fun h => storageSize_strict checkNan kind h3 h
    unfold tooSmall
    rw [hs, or_comm]
    apply or_congr_right
    unfold workSize
    cases checkNan with
    | true => simp
    | false => simp [mul_comm]
  refine ⟨fun ha hb => ?_, key⟩
  rw [key]
  rintro (h | ⟨-, h⟩)
  · omega
  · nlinarith

/-- C74, sizes: the size check is exact. If it passes, the parts of the storage lie one after the other inside an array of
`StorageSize` cells and have the sizes the computation needs; otherwise the data are refused. -/
theorem C74_calculate_full (vsqrt : Val K → Val K) (kind : Kind) (maxRows maxCols : Int) (m : Mat (Val K)) (w : m.Wf)
    (storage : List (Val K)) (hs : (storage.length : Int) = storageSize false kind maxCols) (adjust setLower : Bool) :
    (tooSmall false kind maxRows maxCols m.rows m.cols →
      calculateFull vsqrt kind maxRows maxCols m storage adjust setLower = .throws) ∧
    (¬ tooSmall false kind maxRows maxCols m.rows m.cols → ∃ result means vars,
      calculateFull vsqrt kind maxRows maxCols m storage adjust setLower = pearsonFull vsqrt kind adjust setLower m result means vars ∧
      result.Wf ∧ result.rows = m.cols ∧ result.cols = m.cols ∧ means.Wf ∧ means.length = m.cols ∧
      (kind = .correlation → vars.Wf ∧ vars.length = m.cols)) := by
  unfold calculateFull
  refine ⟨fun h => if_pos h, fun h => ?_⟩
  rw [if_neg h]
  have h0 := w.cols_nonneg
  have hle : storageSize false kind m.cols ≤ storage.length := by
    unfold tooSmall at h; rw [hs]; omega
  have hsq : 0 ≤ m.cols * m.cols := mul_nonneg h0 h0
  refine ⟨_, _, _, rfl, ?_, rfl, rfl, ?_, by simp [Mat.length], ?_⟩
  · apply wf_part (le_refl _) h0 h0
    unfold storageSize at hle; simp only [Bool.false_eq_true, if_false] at hle
    split_ifs at hle <;> omega
  · have := wf_part (l := storage) (q := m.cols * m.cols) (r := m.cols) (c := 1) hsq h0 (by omega) (by
      unfold storageSize at hle; simp only [Bool.false_eq_true, if_false] at hle
      split_ifs at hle <;> omega)
    rwa [mul_one] at this
  · rintro rfl
    refine ⟨?_, by simp [Mat.length]⟩
    have := wf_part (l := storage) (q := m.cols * m.cols + m.cols) (r := m.cols) (c := 1) (by omega) h0 (by omega) (by
      unfold storageSize at hle; simp at hle
      omega)
    rw [mul_one] at this
    simpa using this

@[inherit_doc C74_calculate_full]
theorem C74_calculate_checked (vsqrt : Val K → Val K) (kind : Kind) (maxRows maxCols : Int) (m : Mat (Val K)) (w : m.Wf)
    (storage : List (Val K)) (hs : (storage.length : Int) = storageSize true kind maxCols) (adjust setLower : Bool) :
    (tooSmall true kind maxRows maxCols m.rows m.cols →
      calculateNan vsqrt kind maxRows maxCols m storage adjust setLower = .throws) ∧
    (¬ tooSmall true kind maxRows maxCols m.rows m.cols → ∃ s : Res K,
      calculateNan vsqrt kind maxRows maxCols m storage adjust setLower = pearsonNan vsqrt kind adjust setLower m s ∧
      s.result.Wf ∧ s.result.rows = m.cols ∧ s.result.cols = m.cols ∧ s.counts.rows = m.cols ∧
      (s.counts.data.length : Int) = symLength true m.cols) := by
  unfold calculateNan
  refine ⟨fun h => if_pos h, fun h => ?_⟩
  rw [if_neg h]
  have h0 := w.cols_nonneg
  have hle : storageSize true kind m.cols ≤ storage.length := by
    unfold tooSmall at h; rw [hs]; omega
  have hsq : 0 ≤ m.cols * m.cols := mul_nonneg h0 h0
  have hn := symLength_nonneg h0
  unfold storageSize at hle
  rw [if_pos rfl, ← symLength_true] at hle
  exact ⟨_, rfl, wf_part (le_refl _) h0 h0 (by omega), rfl, rfl, rfl, part_length hsq hn (by omega)⟩

end

/-! ## C75 -/

section
open Classical

/-- The distance of a coefficient `r` of correlation, see Van Dongen and Enright (2012). -/
noncomputable def corDistOf (metric : CorMetric) (r : ℝ) : ℝ :=
  match metric with
  | .correlation => Real.sqrt ((1 - r) / 2)
  | .absCorrelation => Real.sqrt (1 - r ^ 2)

theorem corDist_some (metric : CorMetric) {r : ℝ} (h0 : -1 ≤ r) (h1 : r ≤ 1) :
    corDist rsqrt metric (some r) = some (corDistOf metric r) := by
  cases metric
  · simp only [corDist, corDistOf, vsub_some, vdiv_some, rsqrt]
    rw [if_neg (by norm_num), Option.bind_some, sqrtV, if_neg (by linarith)]
  · have : ¬ (1 - r * r < 0) := by nlinarith
    simp only [corDist, corDistOf, vsub_some, vmul_some, rsqrt]
    rw [Option.bind_some, sqrtV, if_neg this, pow_two]

theorem corDist_none (metric : CorMetric) : corDist rsqrt metric none = none := by
  cases metric <;> rfl

/-- The loops of the distance, given the matrix of correlations. -/
theorem corDistances_of {checkNan : Bool} {metric : CorMetric} {maxRows maxCols : Nat} {m : Mat (Val ℝ)} (w : m.Wf)
    {storage work : List (Val ℝ)} (hs : (storage.length : Int) = Ds.storageSize maxCols) (hc : m.cols ≤ maxCols)
    (hw : distWorkSize checkNan m.rows m.cols ≤ distWorkSize checkNan maxRows maxCols) {r : Mat (Val ℝ)}
    (hr : corMatrix rsqrt checkNan m (work.drop (workSize checkNan m.rows m.cols).toNat) = .ok r) (wr : r.Wf)
    (r1 : r.rows = m.cols) (r2 : r.cols = m.cols) :
    ∃ res, corDistances rsqrt checkNan metric maxRows maxCols m storage work = .ok res ∧
      ∀ i j : Nat, i < j → (j : Int) < m.cols → ∀ v, r.get i j = .ok v →
        res.get false i j = .ok (corDist rsqrt metric v) ∧ res.get false j i = .ok (corDist rsqrt metric v) := by
  have h0 := w.cols_nonneg
  obtain ⟨res, e, g, h1, -⟩ := Ds.setPairs_spec (corCell rsqrt metric r) (fun i j => corDist rsqrt metric (r.val i j))
    (n := m.cols.toNat) (N := maxCols) (by omega) ⟨maxCols, storage⟩ ⟨rfl, by rw [hs, Ds.storageSize_eq]⟩ (by
      intro i j hij hj
      unfold corCell
      rw [get0_val wr ⟨by omega, by omega, by omega, by omega⟩]; rfl)
  refine ⟨res, ?_, fun i j hij hj v hv => ?_⟩
  · unfold corDistances
    rw [if_neg (by have := Ds.storageSize_mono h0 hc; omega), hr, Outcome.ok_bind]; exact e
  · rw [get_val wr ⟨by omega, by omega, by omega, by omega⟩] at hv
    cases hv
    exact h1 i j hij (by omega)

theorem not_tooSmall (checkNan : Bool) (kind : Kind) (r c : Int) : ¬ tooSmall checkNan kind r c r c := by
  unfold tooSmall; simp

theorem workSize_nonneg (checkNan : Bool) {r c : Int} (hr : 0 ≤ r) (hc : 0 ≤ c) : 0 ≤ workSize checkNan r c := by
  unfold workSize
  split_ifs
  · rfl
  · exact mul_nonneg hc hr

/-- The list of cells of which the correlation is computed gives a coefficient within [-1, 1]. -/
theorem corOf_bounds (xs ys : List (Val ℝ)) (hl : xs.length = ys.length) (r : ℝ) (h : corOf xs ys = some r) : -1 ≤ r ∧ r ≤ 1 := by
  by_cases hb : none ∈ xs ∨ none ∈ ys ∨ sqSum (numbers xs) = 0 ∨ sqSum (numbers ys) = 0
  · unfold corOf at h; rw [if_pos hb] at h; cases h
  · simp only [not_or] at hb
    rw [(C74_agree xs ys hl hb.1 hb.2.1 hb.2.2.1 hb.2.2.2).1] at h
    exact C74_bounds _ _ h

/-- C75, without the check for NaN: the distance of two columns is `sqrt((1-r)/2)` or `sqrt(1-r²)` of their coefficient of
correlation, missing when there is none. -/
theorem C75_unchecked (metric : CorMetric) (m : Mat (Val ℝ)) (w : m.Wf) {maxRows maxCols : Nat} (hc : m.cols ≤ maxCols)
    (storage work : List (Val ℝ)) (hs : (storage.length : Int) = Ds.storageSize maxCols)
    (hw : distWorkSize false m.rows m.cols ≤ distWorkSize false maxRows maxCols)
    (hwork : (work.length : Int) = distWorkSize false maxRows maxCols) (pr : 0 < m.rows) (pc : 0 < m.cols) :
    ∃ res, corDistances rsqrt false metric maxRows maxCols m storage work = .ok res ∧
      ∀ i j : Nat, (i : Int) < m.cols → (j : Int) < m.cols → i ≠ j → ∀ xs ys, IsColumn m i xs → IsColumn m j ys →
        res.get false i j = .ok ((corOf xs ys).map (corDistOf metric)) := by
  have h0 := w.cols_nonneg
  have hr0 := w.rows_nonneg
  have hws := workSize_nonneg false hr0 h0
  set st := work.drop (workSize false m.rows m.cols).toNat with hst
  -- the storage of the correlation lies inside the work array
  have hle : storageSize false .correlation m.cols ≤ (st.length : Int) := by
    rw [hst, List.length_drop]
    unfold distWorkSize at hw hwork
    omega
  have hsn : 0 ≤ storageSize false .correlation m.cols := by
    unfold storageSize; simp only [Bool.false_eq_true, if_false, if_true]
    have := mul_nonneg h0 h0; omega
  have hsq : 0 ≤ m.cols * m.cols := mul_nonneg h0 h0
  unfold storageSize at hle
  simp only [Bool.false_eq_true, if_false, if_true] at hle
  have w1 := wf_part (l := st) (q := 0) (r := m.cols) (c := m.cols) (le_refl _) h0 h0 (by omega)
  have w2 := wf_part (l := st) (q := m.cols * m.cols) (r := m.cols) (c := 1) hsq h0 (by omega) (by omega)
  have w3 := wf_part (l := st) (q := m.cols * m.cols + m.cols) (r := m.cols) (c := 1) (by omega) h0 (by omega) (by omega)
  rw [mul_one] at w2 w3
  obtain ⟨r, me, va, e, s, v, -⟩ := C74_correlation_full false true m _ _ _ w w1 w2 w3 rfl rfl (by simp [Mat.length]) (by simp [Mat.length])
    pr pc
  have hcm : corMatrix rsqrt false m st = .ok r := by
    unfold corMatrix calculateFull
    simp only [Bool.false_eq_true, if_false, if_true]
    rw [if_neg (not_tooSmall _ _ _ _), e]; rfl
  obtain ⟨res, e', h⟩ := corDistances_of (metric := metric) w hs hc hw hcm (s.wf w1) s.rows s.cols
  refine ⟨res, e', fun i j hi hj hij xs ys hx hy => ?_⟩
  have key : corDist rsqrt metric (corOf xs ys) = (corOf xs ys).map (corDistOf metric) := by
    cases hcor : corOf xs ys with
    | none => exact corDist_none metric
    | some c =>
      have := corOf_bounds xs ys (by have := hx.len; have := hy.len; omega) c hcor
      rw [corDist_some metric this.1 this.2]; rfl
  rcases lt_or_gt_of_ne hij with hlt | hlt
  · rw [← key]; exact (h i j hlt hj _ (v i j xs ys hi hj (Or.inr rfl) hx hy)).1
  · rw [← key, corOf_comm]
    exact (h j i hlt hi _ (v j i ys xs hj hi (Or.inr rfl) hy hx)).2

/-- C75, with the check for NaN: the same with the coefficient of correlation over the rows in which both columns have a number
(at least one such row). -/
theorem C75_checked (metric : CorMetric) (m : Mat (Val ℝ)) (w : m.Wf) {maxRows maxCols : Nat} (hc : m.cols ≤ maxCols)
    (storage work : List (Val ℝ)) (hs : (storage.length : Int) = Ds.storageSize maxCols)
    (hw : distWorkSize true m.rows m.cols ≤ distWorkSize true maxRows maxCols)
    (hwork : (work.length : Int) = distWorkSize true maxRows maxCols) (h2 : 2 ≤ m.rows) :
    ∃ res, corDistances rsqrt true metric maxRows maxCols m storage work = .ok res ∧
      ∀ i j : Nat, (i : Int) < m.cols → (j : Int) < m.cols → i ≠ j → ∀ xs ys, IsColumn m i xs → IsColumn m j ys →
        pairs xs ys ≠ [] → res.get false i j = .ok ((pearson (pairs xs ys)).map (corDistOf metric)) := by
  have h0 := w.cols_nonneg
  have hsq : 0 ≤ m.cols * m.cols := mul_nonneg h0 h0
  have hn := symLength_nonneg h0
  set st := work.drop (workSize true m.rows m.cols).toNat with hst
  have hle : storageSize true .correlation m.cols ≤ (st.length : Int) := by
    rw [hst, List.length_drop]
    unfold distWorkSize workSize at hw hwork
    unfold workSize
    simp at hw hwork ⊢
    omega
  unfold storageSize at hle
  rw [if_pos rfl, ← symLength_true] at hle
  have w1 := wf_part (l := st) (q := 0) (r := m.cols) (c := m.cols) (le_refl _) h0 h0 (by omega)
  obtain ⟨r, e, s, -, v, -⟩ := C74_correlation_checked_partial false true m
    ⟨⟨m.cols, m.cols, some (part st 0 (m.cols * m.cols))⟩, ⟨m.cols, part st (m.cols * m.cols) (symLength true m.cols)⟩⟩ w w1 rfl rfl
    rfl (part_length hsq hn (by omega)) h2
  have hcm : corMatrix rsqrt true m st = .ok r.result := by
    unfold corMatrix calculateNan
    rw [if_pos rfl, if_neg (not_tooSmall _ _ _ _), e]; rfl
  obtain ⟨res, e', h⟩ := corDistances_of (metric := metric) w hs hc hw hcm (s.wf w1) s.rows s.cols
  refine ⟨res, e', fun i j hi hj hij xs ys hx hy hp => ?_⟩
  have key : corDist rsqrt metric (pearson (pairs xs ys)) = (pearson (pairs xs ys)).map (corDistOf metric) := by
    cases hcor : pearson (pairs xs ys) with
    | none => exact corDist_none metric
    | some c =>
      have := C74_bounds _ c hcor
      rw [corDist_some metric this.1 this.2]; rfl
  rcases lt_or_gt_of_ne hij with hlt | hlt
  · rw [← key]; exact (h i j hlt hj _ ((v i j xs ys hij hi hj hx hy hp).1 (Or.inr rfl))).1
  · have hp' : pairs ys xs ≠ [] := by rw [pairs_swap]; simpa using hp
    rw [← key]
    have := (h j i hlt hi _ ((v j i ys xs (Ne.symm hij) hj hi hy hx hp').1 (Or.inr rfl))).2
    rw [pairs_swap xs ys, pearson_swap] at this
    exact this

/-! ### They are metrics of the directions of the columns -/

/-- The coefficient of correlation of two lists of numbers. -/
noncomputable def rOf (a b : List ℝ) : ℝ := coSum (a.zip b) / (Real.sqrt (sqSum a) * Real.sqrt (sqSum b))

/-- The standardized column as a vector of length one. -/
noncomputable def unitOf (n : Nat) (a : List ℝ) : EuclideanSpace ℝ (Fin n) :=
  WithLp.toLp 2 (fun i => (a.getD i 0 - mean a) / Real.sqrt (sqSum a))

theorem sum_list {n : Nat} (a : List ℝ) (ha : a.length = n) (f : ℝ → ℝ) : (a.map f).sum = ∑ i : Fin n, f (a.getD i 0) := by
  subst ha
  rw [← List.sum_ofFn]
  congr 1
  apply List.ext_getElem
  · simp
  · intro k h1 h2
    simp

theorem sum_zip {n : Nat} (a b : List ℝ) (ha : a.length = n) (hb : b.length = n) (f : ℝ × ℝ → ℝ) :
    ((a.zip b).map f).sum = ∑ i : Fin n, f (a.getD i 0, b.getD i 0) := by
  subst ha
  rw [← List.sum_ofFn]
  congr 1
  apply List.ext_getElem
  · simp [hb]
  · intro k h1 h2
    have : k < b.length := by simp at h1; omega
    simp [this]

theorem unit_inner {n : Nat} (a b : List ℝ) (ha : a.length = n) (hb : b.length = n) :
    ∑ i, unitOf n a i * unitOf n b i = rOf a b := by
  unfold rOf coSum
  rw [List.map_fst_zip (by omega), List.map_snd_zip (by omega), sum_zip a b ha hb, Finset.sum_div]
  apply Finset.sum_congr rfl
  intro i _
  simp only [unitOf]
  rw [div_mul_div_comm]

theorem rOf_self (a : List ℝ) (h : sqSum a ≠ 0) : rOf a a = 1 := by
  unfold rOf
  have : coSum (a.zip a) = sqSum a := by
    rw [sqSum_eq]; congr 1
    clear h
    induction a with
    | nil => rfl
    | cons x t ih => simp [ih]
  rw [this, Real.mul_self_sqrt (sqSum_nonneg _), div_self h]

theorem rOf_bounds {n : Nat} (a b : List ℝ) (ha : a.length = n) (hb : b.length = n) (h1 : sqSum a ≠ 0) (h2 : sqSum b ≠ 0) :
    -1 ≤ rOf a b ∧ rOf a b ≤ 1 := by
  apply C74_bounds (a.zip b)
  unfold pearson rOf
  rw [List.map_fst_zip (by omega), List.map_snd_zip (by omega), if_neg (by tauto), if_neg (by tauto)]

theorem corDist_eq_dist {n : Nat} (a b : List ℝ) (ha : a.length = n) (hb : b.length = n) (h1 : sqSum a ≠ 0) (h2 : sqSum b ≠ 0) :
    corDistOf .correlation (rOf a b) = dist (unitOf n a) (unitOf n b) / 2 := by
  rw [EuclideanSpace.dist_eq]
  simp only [corDistOf]
  have : ∑ i, dist (unitOf n a i) (unitOf n b i) ^ 2 = 2 * 2 * ((1 - rOf a b) / 2) := by
    have e1 := unit_inner a a ha ha
    have e2 := unit_inner b b hb hb
    have e3 := unit_inner a b ha hb
    rw [rOf_self a h1] at e1
    rw [rOf_self b h2] at e2
    have : ∀ i, dist (unitOf n a i) (unitOf n b i) ^ 2 =
        unitOf n a i * unitOf n a i + unitOf n b i * unitOf n b i - 2 * (unitOf n a i * unitOf n b i) := by
      intro i; rw [Real.dist_eq, sq_abs]; ring
    rw [Finset.sum_congr rfl (fun i _ => this i), Finset.sum_sub_distrib, Finset.sum_add_distrib, ← Finset.mul_sum, e1, e2, e3]
    ring
  rw [this, Real.sqrt_mul (by norm_num), Real.sqrt_mul_self (by norm_num)]
  ring

/-- The products of the cells of a vector. -/
noncomputable def outer (n : Nat) (a : List ℝ) : EuclideanSpace ℝ (Fin n × Fin n) :=
  WithLp.toLp 2 (fun p => unitOf n a p.1 * unitOf n a p.2)

theorem absDist_eq_dist {n : Nat} (a b : List ℝ) (ha : a.length = n) (hb : b.length = n) (h1 : sqSum a ≠ 0) (h2 : sqSum b ≠ 0) :
    corDistOf .absCorrelation (rOf a b) = dist (outer n a) (outer n b) / Real.sqrt 2 := by
  rw [EuclideanSpace.dist_eq]
  simp only [corDistOf]
  have : ∑ p, dist (outer n a p) (outer n b p) ^ 2 = 2 * (1 - rOf a b ^ 2) := by
    have e1 := unit_inner a a ha ha
    have e2 := unit_inner b b hb hb
    have e3 := unit_inner a b ha hb
    rw [rOf_self a h1] at e1
    rw [rOf_self b h2] at e2
    have sq : ∀ f g : Fin n → ℝ, (∑ p : Fin n × Fin n, f p.1 * g p.2) = (∑ i, f i) * ∑ j, g j := by
      intro f g
      rw [Fintype.sum_prod_type, Finset.sum_mul_sum]
    have : ∀ p, dist (outer n a p) (outer n b p) ^ 2 =
        (unitOf n a p.1 * unitOf n a p.1) * (unitOf n a p.2 * unitOf n a p.2) +
        (unitOf n b p.1 * unitOf n b p.1) * (unitOf n b p.2 * unitOf n b p.2) -
        2 * ((unitOf n a p.1 * unitOf n b p.1) * (unitOf n a p.2 * unitOf n b p.2)) := by
      intro p
      rw [Real.dist_eq, sq_abs]
      simp only [outer]; ring
    rw [Finset.sum_congr rfl (fun i _ => this i), Finset.sum_sub_distrib, Finset.sum_add_distrib, ← Finset.mul_sum]
    rw [sq (fun i => unitOf n a i * unitOf n a i) (fun i => unitOf n a i * unitOf n a i),
      sq (fun i => unitOf n b i * unitOf n b i) (fun i => unitOf n b i * unitOf n b i),
      sq (fun i => unitOf n a i * unitOf n b i) (fun i => unitOf n a i * unitOf n b i), e1, e2, e3]
    ring
  rw [this, Real.sqrt_mul (by norm_num)]
  have : Real.sqrt 2 ≠ 0 := (Real.sqrt_pos.2 (by norm_num)).ne'
  field_simp

/-- C75. Over columns of numbers that are not constant both are pseudometrics with values between 0 and 1: symmetric, zero of a
column to itself, and they obey the triangle inequality. -/
theorem C75_metric (metric : CorMetric) {n : Nat} {a b c : List ℝ} (ha : a.length = n) (hb : b.length = n) (hc : c.length = n)
    (h1 : sqSum a ≠ 0) (h2 : sqSum b ≠ 0) (h3 : sqSum c ≠ 0) :
    0 ≤ corDistOf metric (rOf a b) ∧ corDistOf metric (rOf a b) ≤ 1 ∧ corDistOf metric (rOf a a) = 0 ∧
      corDistOf metric (rOf a b) = corDistOf metric (rOf b a) ∧
      corDistOf metric (rOf a c) ≤ corDistOf metric (rOf a b) + corDistOf metric (rOf b c) := by
  have hb' := rOf_bounds a b ha hb h1 h2
  refine ⟨?_, ?_, ?_, ?_, ?_⟩
  · cases metric <;> exact Real.sqrt_nonneg _
  · cases metric
    · simp only [corDistOf]; rw [Real.sqrt_le_one]; linarith
    · simp only [corDistOf]; rw [Real.sqrt_le_one]; nlinarith
  · rw [rOf_self a h1]; cases metric <;> simp [corDistOf]
  · congr 1
    rw [← unit_inner a b ha hb, ← unit_inner b a hb ha]
    simp only [mul_comm]
  · cases metric
    · rw [corDist_eq_dist a c ha hc h1 h3, corDist_eq_dist a b ha hb h1 h2, corDist_eq_dist b c hb hc h2 h3, ← add_div]
      exact div_le_div_of_nonneg_right (dist_triangle _ _ _) (by norm_num)
    · rw [absDist_eq_dist a c ha hc h1 h3, absDist_eq_dist a b ha hb h1 h2, absDist_eq_dist b c hb hc h2 h3, ← add_div]
      exact div_le_div_of_nonneg_right (dist_triangle _ _ _) (Real.sqrt_nonneg _)

/-- C75. The correlation distance is zero exactly when one column is an increasing linear function of the other, the absolute one
exactly when it is a linear function of it. -/
theorem C75_zero {n : Nat} {a b : List ℝ} (ha : a.length = n) (hb : b.length = n) (h1 : sqSum a ≠ 0) (h2 : sqSum b ≠ 0) :
    (corDistOf .correlation (rOf a b) = 0 ↔ ∃ s t : ℝ, 0 < s ∧ b = a.map (fun x => s * x + t)) ∧
    (corDistOf .absCorrelation (rOf a b) = 0 ↔ ∃ s t : ℝ, s ≠ 0 ∧ b = a.map (fun x => s * x + t)) := by
  have hne : a ≠ [] := by rintro rfl; simp [sqSum] at h1
  have pa : 0 < Real.sqrt (sqSum a) := Real.sqrt_pos.2 (lt_of_le_of_ne (sqSum_nonneg _) (Ne.symm h1))
  have pb : 0 < Real.sqrt (sqSum b) := Real.sqrt_pos.2 (lt_of_le_of_ne (sqSum_nonneg _) (Ne.symm h2))
  -- images of linear functions
  have lin : ∀ s t : ℝ, s ≠ 0 → b = a.map (fun x => s * x + t) → rOf a b = s / |s| := by
    intro s t hs e
    have m : mean b = s * mean a + t := by
      have := mean_affine a hne (-t / s) (1 / s)
      have e' : (fun x : ℝ => (x - -t / s) / (1 / s)) = fun x => s * x + t := by funext x; field_simp; ring
      rw [e', ← e] at this
      rw [this]; field_simp; ring
    have q : sqSum b = s ^ 2 * sqSum a := by
      have := sqSum_affine a hne (-t / s) (1 / s)
      have e' : (fun x : ℝ => (x - -t / s) / (1 / s)) = fun x => s * x + t := by funext x; field_simp; ring
      rw [e', ← e] at this
      rw [this]; field_simp
    have c : coSum (a.zip b) = s * sqSum a := by
      unfold coSum
      rw [List.map_fst_zip (by omega), List.map_snd_zip (by omega), m]
      unfold sqSum
      rw [e]
      generalize mean a = μ
      clear h1 h2 ha hb pa pb hne m q e
      induction a with
      | nil => simp
      | cons x u ih => simp only [List.map_cons, List.zip_cons_cons, List.sum_cons, ih]; ring
    unfold rOf
    rw [c, q, Real.sqrt_mul (sq_nonneg s), Real.sqrt_sq_eq_abs]
    have := Real.mul_self_sqrt (sqSum_nonneg a)
    have : Real.sqrt (sqSum a) * (|s| * Real.sqrt (sqSum a)) = |s| * sqSum a := by rw [mul_left_comm, this]
    rw [this, mul_comm s, mul_comm |s|, mul_div_mul_left _ _ h1]
  -- linear functions from perfect correlation
  have back : ∀ σ : ℝ, (∀ i : Fin n, unitOf n b i = σ * unitOf n a i) →
      b = a.map (fun x => σ * Real.sqrt (sqSum b) / Real.sqrt (sqSum a) * x +
        (mean b - σ * Real.sqrt (sqSum b) / Real.sqrt (sqSum a) * mean a)) := by
    intro σ h
    apply List.ext_getElem
    · simp; omega
    · intro k k1 k2
      have hk : k < n := by omega
      have := h ⟨k, hk⟩
      simp only [unitOf, List.getD_eq_getElem?_getD, List.getElem?_eq_getElem k1,
        List.getElem?_eq_getElem (show k < a.length by omega), Option.getD_some] at this
      rw [List.getElem_map]
      rw [div_eq_iff pb.ne'] at this
      have e : b[k] = σ * ((a[k] - mean a) / Real.sqrt (sqSum a)) * Real.sqrt (sqSum b) + mean b := by linarith
      rw [e]; field_simp; ring
  have hr := rOf_bounds a b ha hb h1 h2
  have pos : ∀ {r : ℝ}, rOf a b = r → r = 1 ∨ r = -1 → ∀ i : Fin n, unitOf n b i = r * unitOf n a i := by
    intro r e hr i
    have hz : ∑ i, (unitOf n b i - r * unitOf n a i) ^ 2 = 0 := by
      have e1 := unit_inner a a ha ha
      have e2 := unit_inner b b hb hb
      have e3 := unit_inner a b ha hb
      rw [rOf_self a h1] at e1
      rw [rOf_self b h2] at e2
      have : ∀ i, (unitOf n b i - r * unitOf n a i) ^ 2 =
          unitOf n b i * unitOf n b i + r ^ 2 * (unitOf n a i * unitOf n a i) - 2 * r * (unitOf n a i * unitOf n b i) := by
        intro i; ring
      rw [Finset.sum_congr rfl (fun i _ => this i), Finset.sum_sub_distrib, Finset.sum_add_distrib, ← Finset.mul_sum,
        ← Finset.mul_sum, e1, e2, e3, e]
      rcases hr with rfl | rfl <;> norm_num
    rw [Finset.sum_eq_zero_iff_of_nonneg (fun i _ => sq_nonneg _)] at hz
    have := hz i (Finset.mem_univ _)
    have := pow_eq_zero_iff (two_ne_zero) |>.1 this
    linarith
  constructor
  · constructor
    · intro h
      simp only [corDistOf] at h
      rw [Real.sqrt_eq_zero (by linarith)] at h
      have e : rOf a b = 1 := by linarith
      refine ⟨_, _, ?_, back 1 (pos e (Or.inl rfl))⟩
      positivity
    · rintro ⟨s, t, hs, e⟩
      rw [lin s t hs.ne' e, abs_of_pos hs, div_self hs.ne']
      simp [corDistOf]
  · constructor
    · intro h
      simp only [corDistOf] at h
      rw [Real.sqrt_eq_zero (by nlinarith)] at h
      have e : (rOf a b - 1) * (rOf a b + 1) = 0 := by linarith
      rcases mul_eq_zero.1 e with e | e
      · refine ⟨_, _, ?_, back 1 (pos (by linarith) (Or.inl rfl))⟩
        positivity
      · refine ⟨_, _, ?_, back (-1) (pos (by linarith) (Or.inr rfl))⟩
        have : (-1 : ℝ) * Real.sqrt (sqSum b) / Real.sqrt (sqSum a) = -(Real.sqrt (sqSum b) / Real.sqrt (sqSum a)) := by ring
        rw [this, neg_ne_zero]; positivity
    · rintro ⟨s, t, hs, e⟩
      rw [lin s t hs e]
      simp only [corDistOf]
      rw [div_pow, sq_abs, div_self (pow_ne_zero 2 hs)]
      simp

/-- For columns of numbers that are not constant the coefficient of the theorems above is the one of the routines. -/
theorem rOf_eq {xs ys : List (Val ℝ)} (hl : xs.length = ys.length) (hx : none ∉ xs) (hy : none ∉ ys)
    (h1 : sqSum (numbers xs) ≠ 0) (h2 : sqSum (numbers ys) ≠ 0) :
    corOf xs ys = some (rOf (numbers xs) (numbers ys)) ∧ pearson (pairs xs ys) = some (rOf (numbers xs) (numbers ys)) := by
  have := (C74_agree xs ys hl hx hy h1 h2).1
  rw [← this]
  unfold corOf rOf
  rw [if_neg (by tauto), pairs_eq_zip hx hy]
  exact ⟨rfl, rfl⟩

/-- C74. The covariance matrix of columns of numbers is positive semidefinite. -/
theorem C74_semidefinite {p n : Nat} (cols : Fin p → List ℝ) (hn : ∀ i, (cols i).length = n) (adjust : Bool) (h1 : 1 ≤ n)
    (c : Fin p → Fin p → ℝ) (hc : ∀ i j, covOf adjust ((cols i).map some) ((cols j).map some) = some (c i j)) (x : Fin p → ℝ) :
    0 ≤ ∑ i, ∑ j, x i * x j * c i j := by
  set d : ℝ := if adjust then (n : ℝ) - 1 else n with hd
  have hp : ∀ i j, pairs ((cols i).map some) ((cols j).map some) = (cols i).zip (cols j) := by
    intro i j
    rw [pairs_eq_zip (by simp) (by simp), numbers_map_some, numbers_map_some]
  have hcell : ∀ i j, d ≠ 0 ∧ c i j = coSum ((cols i).zip (cols j)) / d := by
    intro i j
    have := hc i j
    unfold covOf at this
    rw [if_neg (by simp), hp i j] at this
    unfold perCount at this
    simp only [List.length_zip, hn, min_self] at this
    rw [← hd] at this
    split_ifs at this with h
    exact ⟨h, (Option.some.inj this).symm⟩
  have hd0 : 0 ≤ d := by
    have : (1 : ℝ) ≤ n := by exact_mod_cast h1
    rw [hd]; split_ifs <;> linarith
  have e : ∑ i, ∑ j, x i * x j * c i j = (∑ k : Fin n, (∑ i, x i * ((cols i).getD k 0 - mean (cols i))) ^ 2) / d := by
    have : ∀ i j, x i * x j * c i j =
        (∑ k : Fin n, (x i * ((cols i).getD k 0 - mean (cols i))) * (x j * ((cols j).getD k 0 - mean (cols j)))) / d := by
      intro i j
      rw [(hcell i j).2]
      unfold coSum
      rw [List.map_fst_zip (by rw [hn, hn]), List.map_snd_zip (by rw [hn, hn]), sum_zip _ _ (hn i) (hn j), ← mul_div_assoc,
        Finset.mul_sum]
      congr 1
      apply Finset.sum_congr rfl
      intro k _; ring
    rw [Finset.sum_congr rfl (fun i _ => Finset.sum_congr rfl (fun j _ => this i j))]
    simp only [← Finset.sum_div]
    congr 1
    rw [Finset.sum_congr rfl (fun i _ => Finset.sum_comm), Finset.sum_comm]
    apply Finset.sum_congr rfl
    intro k _
    rw [pow_two, Finset.sum_mul_sum]
  rw [e]
  exact div_nonneg (Finset.sum_nonneg (fun k _ => sq_nonneg _)) hd0

end

/-! ### Concrete cases -/

/-- Three columns, the third with a missing cell. -/
def three : Mat (Val ℚ) := ⟨4, 3, some [some 1, some 2, some 3, some 6, some 2, some 4, some 6, some 12, some 5, none, some 1, some 3]⟩
/-- Memory before the calculation. -/
def junk (n : Nat) : List (Val ℚ) := List.replicate n (some 77)

example : ((calculateNan id .covariance 4 3 three (junk 21) true true).bind (fun r => .ok r.result.mem)) =
    .ok [some (14/3), some (28/3), some (-2), some (28/3), some (56/3), some (-4), some (-2), some (-4), some 4] := by
  decide +kernel
example : ((calculateNan id .covariance 4 3 three (junk 21) true true).bind (fun r => .ok r.counts.data)) =
    .ok [some 4, some 4, some 3, some 4, some 3, some 3] := by decide +kernel
/-- The counts on the diagonal are not written for correlations. -/
example : ((calculateNan id .correlation 4 3 three (junk 21) true true).bind (fun r => .ok r.counts.data)) =
    .ok [some 77, some 4, some 3, some 77, some 3, some 77] := by decide +kernel
example : ((calculateFull id .covariance 4 3 three (junk 15) true true).bind (fun r => .ok (r.1.mem, r.2.1.mem))) =
    .ok ([some (14/3), some (28/3), none, some (28/3), some (56/3), none, none, none, none], [some 3, some 6, none]) := by
  decide +kernel
/-- More columns than announced. -/
example : calculateFull id .covariance 4 2 three (junk 8) true true = .throws := by decide +kernel
/-- The hypotheses of the theorems above are met. -/
example : Mat.Wf three ∧ ¬ tooSmall true .covariance 4 3 three.rows three.cols ∧
    ((junk 21).length : Int) = storageSize true .covariance 3 ∧ 2 ≤ three.rows :=
  ⟨wf_mk 4 3 _ rfl, by decide, by decide, by decide⟩
example : sqSum [(1 : ℝ), 2, 3] ≠ 0 ∧ sqSum [(2 : ℝ), 4, 9] ≠ 0 := by
  constructor <;> norm_num [sqSum, mean]

end Co
end LDT
