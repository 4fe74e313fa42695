import Verif.Lemmas.MatrixCols
import Verif.Props.MatrixElem
/-!
# C66: sums, means, covariance matrix and standardization of columns
-/
namespace LDT
namespace Mx
open Stat
open Arr (Val sqrtV)

variable {K : Type} [Field K] [DecidableEq K]

/-! ## Specification -/

/-- The sum of cells: NaN as soon as one is NaN. -/
def total (xs : List (Val K)) : Val K := if none ∈ xs then none else some (numbers xs).sum

/-- `xs` are the cells of row `i` from the left. -/
structure IsRow {α : Type} (m : Mat α) (i : Int) (xs : List α) : Prop where
  len : (xs.length : Int) = m.cols
  cell : ∀ (k : Nat) x, xs[k]? = some x → m.get i k = .ok x

/-- The rows or columns a list names: all `n` of them when it is empty. -/
def used (inds : List Int) (n : Int) : List Int :=
  if inds = [] then (List.range n.toNat).map (fun (k : Nat) => (k : Int)) else inds

theorem indsOr_eq (inds : List Int) (n : Int) : indsOr inds n = used inds n := by
  unfold indsOr used upTo
  simp only [List.length_eq_zero_iff]
  split_ifs
  · simp
  · rfl

theorem total_eq (xs : List (Val K)) : xs.foldl (fun s a => vadd s a) (some 0) = total xs := by
  unfold total
  split_ifs with h
  · exact sumFold_nan xs id ⟨none, h, rfl⟩ _
  · have := sumFold xs id (fun a ha hc => h (hc ▸ ha)) 0
    simpa using this

theorem get_ok_get0 {α : Type} {m : Mat α} {i j : Int} {x : α} (h : m.get i j = .ok x) : m.get0 i j = .ok x := by
  unfold Mat.get at h; split_ifs at h; exact h

theorem colSum_eq {m : Mat (Val K)} {j : Int} {xs : List (Val K)} (h : IsColumn m j xs) : m.colSum j = .ok (total xs) := by
  unfold Mat.colSum
  rw [← h.len, loop_reads xs (fun i => m.get0 i j) (fun s d => vadd s d) (some 0)
    (fun k x hk => get_ok_get0 (h.cell k x hk)), total_eq]

theorem rowSum_eq {m : Mat (Val K)} {i : Int} {xs : List (Val K)} (h : IsRow m i xs) : m.rowSum i = .ok (total xs) := by
  unfold Mat.rowSum
  rw [← h.len, loop_reads xs (fun j => m.get0 i j) (fun s d => vadd s d) (some 0)
    (fun k x hk => get_ok_get0 (h.cell k x hk)), total_eq]

theorem list_of_cells {α : Type} (g : Int → Outcome α) (n : Nat) (h : ∀ k : Nat, k < n → ∃ v, g k = .ok v) :
    ∃ xs : List α, xs.length = n ∧ ∀ (k : Nat) x, xs[k]? = some x → g k = .ok x := by
  induction n with
  | zero => exact ⟨[], rfl, by simp⟩
  | succ n ih =>
    obtain ⟨xs, hl, hx⟩ := ih (fun k hk => h k (by omega))
    obtain ⟨v, hv⟩ := h n (by omega)
    refine ⟨xs ++ [v], by simp [hl], fun k x hk => ?_⟩
    by_cases hkn : k < xs.length
    · rw [List.getElem?_append_left hkn] at hk; exact hx k x hk
    · rw [List.getElem?_append_right (by omega)] at hk
      have h0 : k = xs.length := by
        by_contra hc
        rw [List.getElem?_eq_none (by simp; omega)] at hk; cases hk
      subst h0
      simp only [Nat.sub_self, List.getElem?_cons_zero, Option.some.injEq] at hk
      rw [← hk, hl]; exact hv

theorem isColumn_unique {α : Type} {m : Mat α} {j : Int} {xs ys : List α} (hx : IsColumn m j xs) (hy : IsColumn m j ys) :
    xs = ys := by
  apply List.ext_getElem?
  intro n
  have := hx.len; have := hy.len
  by_cases hn : n < xs.length
  · rw [List.getElem?_eq_getElem hn, List.getElem?_eq_getElem (by omega)]
    have h1 := hx.cell n _ (List.getElem?_eq_getElem hn)
    have h2 := hy.cell n _ (List.getElem?_eq_getElem (by omega))
    rw [h1, Outcome.ok.injEq] at h2; rw [h2]
  · rw [List.getElem?_eq_none (by omega), List.getElem?_eq_none (by omega)]

/-- Every row of a matrix has such a list. -/
theorem exists_isRow {α : Type} {m : Mat α} (w : m.Wf) {i : Int} (h0 : 0 ≤ i) (h1 : i < m.rows) : ∃ xs, IsRow m i xs := by
  have hc := w.cols_nonneg
  obtain ⟨xs, hl, hx⟩ := list_of_cells (fun k => m.get i k) m.cols.toNat (fun k hk => by
    have hin : m.InR i (k : Int) := ⟨h0, h1, by omega, by omega⟩
    rw [get_eq_get0 w hin]; exact get0_ok w hin)
  exact ⟨xs, ⟨by omega, hx⟩⟩

/-! ## Sums -/

/-- `Sum`: the sum of all cells. -/
theorem C66_sum (m : Mat (Val K)) (xs : List (Val K)) (h : IsCells m xs) : m.sum = .ok (total xs) := by
  unfold Mat.sum
  rw [← h.len, scanCells_eq m.mem 0 _ _ xs (isCells_read h), ← total_eq]
  congr 1
  have : ∀ (l : List (Val K)) (s : Val K) (i : Int), foldPos (fun s (_ : Int) d => vadd s d) s l i = l.foldl (fun s a => vadd s a) s := by
    intro l; induction l with
    | nil => intro s i; rfl
    | cons a t ih => intro s i; exact ih _ _
  exact this xs _ _

/-- `Trace`: the sum of the diagonal of a square matrix. -/
theorem C66_trace (m : Mat (Val K)) :
    (m.rows = m.cols → ∀ xs : List (Val K), (xs.length : Int) = m.rows →
      (∀ (k : Nat) x, xs[k]? = some x → m.get k k = .ok x) → m.trace = .ok (total xs)) ∧
    (m.rows ≠ m.cols → m.trace = .throws) := by
  unfold Mat.trace
  refine ⟨fun h xs hl hx => ?_, fun h => if_pos h⟩
  rw [if_neg (by omega), ← hl, loop_reads xs (fun i => m.get0 i i) (fun s d => vadd s d) (some 0)
    (fun k x hk => get_ok_get0 (hx k x hk)), total_eq]

/-- `RowsSum`. -/
theorem C66_rows_sum (m storage : Mat (Val K)) (w : m.Wf) (ws : storage.Wf) (inds : List Int)
    (hin : ∀ i ∈ inds, 0 ≤ i ∧ i < m.rows) :
    (storage.length = ((used inds m.rows).length : Int) → ∃ res, m.rowsSum storage inds = .ok res ∧ SameShape storage res ∧
      ∀ (q : Nat) i xs, (used inds m.rows)[q]? = some i → IsRow m i xs → res.getLin q = .ok (total xs)) ∧
    (storage.length ≠ ((used inds m.rows).length : Int) → m.rowsSum storage inds = .throws) := by
  unfold Mat.rowsSum
  rw [indsOr_eq]
  refine ⟨fun h => ?_, fun h => if_pos h⟩
  rw [if_neg (by omega)]
  have hr : ∀ i ∈ used inds m.rows, 0 ≤ i ∧ i < m.rows := by
    intro i hi
    unfold used at hi
    split_ifs at hi
    · simp at hi; omega
    · exact hin i hi
  obtain ⟨res, e, s, c⟩ := fillFrom_spec m.rowSum (used inds m.rows) storage ws h (fun i hi => by
    obtain ⟨xs, hx⟩ := exists_isRow w (hr i hi).1 (hr i hi).2
    exact ⟨_, rowSum_eq hx⟩)
  exact ⟨res, e, s, fun q i xs hq hx => by rw [c q i hq, rowSum_eq hx]⟩

theorem used_cols {m : Mat (Val K)} {inds : List Int} (hin : ∀ i ∈ inds, 0 ≤ i ∧ i < m.cols) :
    ∀ i ∈ used inds m.cols, 0 ≤ i ∧ i < m.cols := by
  intro i hi
  unfold used at hi
  split_ifs at hi
  · simp at hi; omega
  · exact hin i hi

/-- `ColumnsSum`. -/
theorem C66_columns_sum (m storage : Mat (Val K)) (w : m.Wf) (ws : storage.Wf) (inds : List Int)
    (hin : ∀ i ∈ inds, 0 ≤ i ∧ i < m.cols) :
    (storage.length = ((used inds m.cols).length : Int) → ∃ res, m.columnsSum storage inds = .ok res ∧ SameShape storage res ∧
      ∀ (q : Nat) j xs, (used inds m.cols)[q]? = some j → IsColumn m j xs → res.getLin q = .ok (total xs)) ∧
    (storage.length ≠ ((used inds m.cols).length : Int) → m.columnsSum storage inds = .throws) := by
  unfold Mat.columnsSum
  rw [indsOr_eq]
  refine ⟨fun h => ?_, fun h => if_pos h⟩
  rw [if_neg (by omega)]
  obtain ⟨res, e, s, c⟩ := fillFrom_spec m.colSum (used inds m.cols) storage ws h (fun i hi => by
    obtain ⟨xs, hx⟩ := exists_isColumn w (used_cols hin i hi).1 (used_cols hin i hi).2
    exact ⟨_, colSum_eq hx⟩)
  exact ⟨res, e, s, fun q i xs hq hx => by rw [c q i hq, colSum_eq hx]⟩

section
variable [CharZero K]

/-- The mean of cells: NaN if one is NaN or there is none. -/
def avg (xs : List (Val K)) : Val K := if none ∈ xs ∨ xs = [] then none else some (mean (numbers xs))

theorem numbers_length {xs : List (Val K)} (h : none ∉ xs) : (numbers xs).length = xs.length := by
  conv_rhs => rw [eq_map_some h]
  simp

theorem colMean_eq {m : Mat (Val K)} {j : Int} {xs : List (Val K)} (h : IsColumn m j xs) : m.colMean j = .ok (avg xs) := by
  unfold Mat.colMean
  rw [colSum_eq h, Outcome.ok_bind, ← h.len]
  unfold avg total
  by_cases hn : none ∈ xs
  · rw [if_pos hn, if_pos (Or.inl hn)]; rfl
  · rw [if_neg hn]
    by_cases h0 : xs = []
    · subst h0; simp [numbers, vdiv, vint]
    · rw [if_neg (by tauto)]
      have hl : (xs.length : K) ≠ 0 := by
        rw [Nat.cast_ne_zero]; exact fun hc => h0 (List.length_eq_zero_iff.1 hc)
      simp only [vdiv, vint, Int.cast_natCast, hl, if_false, mean, numbers_length hn]; rfl

/-- `ColumnsMean`. -/
theorem C66_columns_mean (m storage : Mat (Val K)) (w : m.Wf) (ws : storage.Wf) (inds : List Int)
    (hin : ∀ i ∈ inds, 0 ≤ i ∧ i < m.cols) :
    (storage.length = ((used inds m.cols).length : Int) → ∃ res, m.columnsMean storage inds = .ok res ∧ SameShape storage res ∧
      ∀ (q : Nat) j xs, (used inds m.cols)[q]? = some j → IsColumn m j xs → res.getLin q = .ok (avg xs)) ∧
    (storage.length ≠ ((used inds m.cols).length : Int) → m.columnsMean storage inds = .throws) := by
  unfold Mat.columnsMean
  rw [indsOr_eq]
  refine ⟨fun h => ?_, fun h => if_pos h⟩
  rw [if_neg (by omega)]
  obtain ⟨res, e, s, c⟩ := fillFrom_spec m.colMean (used inds m.cols) storage ws h (fun i hi => by
    obtain ⟨xs, hx⟩ := exists_isColumn w (used_cols hin i hi).1 (used_cols hin i hi).2
    exact ⟨_, colMean_eq hx⟩)
  exact ⟨res, e, s, fun q i xs hq hx => by rw [c q i hq, colMean_eq hx]⟩

/-! ## The covariance matrix -/

theorem count_inv {σ : Type} (l : List Int) (f : σ → Int × Int → Outcome σ) (P : Nat → σ → Prop) {s : σ} (h0 : P 0 s)
    (hs : ∀ (q : Nat) i, l[q]? = some i → ∀ s, P q s → ∃ s', f s ((q : Int), i) = .ok s' ∧ P (q + 1) s') :
    ∃ s', (countFrom 0 l).foldlM f s = .ok s' ∧ P l.length s' := by
  have gen : ∀ (t : List Int) (p : Nat) (s : σ), (∀ (q : Nat) i, t[q]? = some i → ∀ s, P (p + q) s →
      ∃ s', f s (((p + q : Nat) : Int), i) = .ok s' ∧ P (p + q + 1) s') → P p s →
      ∃ s', (countFrom p t).foldlM f s = .ok s' ∧ P (p + t.length) s' := by
    intro t
    induction t with
    | nil => intro p s _ h; exact ⟨s, rfl, h⟩
    | cons a t ih =>
      intro p s hs h
      obtain ⟨s1, e1, h1⟩ := hs 0 a rfl s h
      obtain ⟨s2, e2, h2⟩ := ih (p + 1) s1 (fun q i hq s hP => by
        obtain ⟨s', e, h⟩ := hs (q + 1) i hq s (by rw [← add_assoc, add_right_comm]; exact hP)
        refine ⟨s', ?_, ?_⟩
        · rw [← e]; congr 3; omega
        · rw [add_right_comm p 1 q, add_assoc p q 1]; exact h) h1
      refine ⟨s2, ?_, ?_⟩
      · show (f s ((p : Int), a) >>= fun s => (countFrom ((p : Int) + 1) t).foldlM f s) = _
        have : f s ((p : Int), a) = .ok s1 := e1
        rw [this, Outcome.ok_bind]; exact_mod_cast e2
      · rw [List.length_cons, ← add_assoc, add_right_comm]; exact h2
  obtain ⟨s', e, h⟩ := gen l 0 s (by simpa using hs) h0
  exact ⟨s', by exact_mod_cast e, by simpa using h⟩

theorem crossSum_eq {m : Mat (Val K)} {j k : Int} {xs ys : List (Val K)} (h1 : IsColumn m j xs) (h2 : IsColumn m k ys)
    (hx : none ∉ xs) (hy : none ∉ ys) :
    m.crossSum j k (some (mean (numbers xs))) (some (mean (numbers ys))) = .ok (some (coSum (pairs xs ys))) := by
  have hl : xs.length = ys.length := by have := h1.len; have := h2.len; omega
  obtain ⟨e1, e2⟩ := zip_some hx hy hl
  have hz : ((xs.zip ys).length : Int) = m.rows := by rw [List.length_zip, ← hl, min_self]; exact h1.len
  unfold Mat.crossSum
  have hloop := loop_reads (xs.zip ys) (fun i => do
      let a ← m.get0 i j
      let b ← m.get0 i k
      pure (a, b)) (fun (s : Val K) (p : Val K × Val K) => vadd s (vmul (vsub p.1 (some (mean (numbers xs))))
        (vsub p.2 (some (mean (numbers ys)))))) (some 0) (fun q p hq => by
    rw [List.getElem?_zip_eq_some] at hq
    show (m.get0 q j >>= _) = _
    rw [get_ok_get0 (h1.cell q _ hq.1), Outcome.ok_bind, get_ok_get0 (h2.cell q _ hq.2), Outcome.ok_bind]; rfl)
  rw [hz] at hloop
  have hsame : (upTo 0 m.rows).foldlM (fun (s : Val K) i => do
      let a ← m.get0 i j
      let b ← m.get0 i k
      pure (vadd s (vmul (vsub a (some (mean (numbers xs)))) (vsub b (some (mean (numbers ys))))))) (some 0) =
      (upTo 0 m.rows).foldlM (fun (s : Val K) i => do
        let d ← (do
          let a ← m.get0 i j
          let b ← m.get0 i k
          pure (a, b) : Outcome (Val K × Val K))
        pure (vadd s (vmul (vsub d.1 (some (mean (numbers xs)))) (vsub d.2 (some (mean (numbers ys))))))) (some 0) := by
    congr 1; funext s i
    cases m.get0 i j <;> try rfl
    cases m.get0 i k <;> rfl
  rw [hsame, hloop, e1]
  congr 1
  have hf : (pairs xs ys).map Prod.fst = numbers xs ∧ (pairs xs ys).map Prod.snd = numbers ys := by
    clear h1 h2 e1 e2 hz hloop hsame
    unfold pairs numbers
    induction xs generalizing ys with
    | nil => cases ys <;> simp at *
    | cons x t ih =>
      cases ys with
      | nil => simp at hl
      | cons y u =>
        cases x with
        | none => simp at hx
        | some x =>
          cases y with
          | none => simp at hy
          | some y =>
            obtain ⟨a, b⟩ := ih (ys := u) (by simpa using hx) (by simpa using hy) (by simpa using hl)
            simp only [List.zip_cons_cons, List.filterMap_cons, complete_some, List.map_cons, a, b, id]
            simp
  unfold coSum
  rw [hf.1, hf.2, List.foldl_map]
  have : ∀ (l : List (K × K)) (a b s : K), l.foldl (fun (s : Val K) p => vadd s (vmul (vsub (some p.1) (some a)) (vsub (some p.2) (some b))))
      (some s) = some (s + (l.map (fun p => (p.1 - a) * (p.2 - b))).sum) := by
    intro l a b
    induction l with
    | nil => intro s; simp
    | cons p t ih => intro s; simp only [List.foldl_cons, vsub_some, vmul_some, vadd_some] at ih ⊢; rw [ih]; simp [add_assoc]
  rw [this]; simp

theorem coSum_comm (l : List (K × K)) : coSum (l.map Prod.swap) = coSum l := by
  unfold coSum
  simp only [List.map_map, Function.comp_def, Prod.fst_swap, Prod.snd_swap]
  congr 1; apply List.map_congr_left; intro p _; ring

theorem pairs_swap (xs ys : List (Val K)) : pairs ys xs = (pairs xs ys).map Prod.swap := by
  unfold pairs
  induction xs generalizing ys with
  | nil => cases ys <;> simp
  | cons x t ih =>
    cases ys with
    | nil => simp
    | cons y u =>
      simp only [List.zip_cons_cons, List.filterMap_cons]
      cases x with
      | none => rw [complete_right, complete_left]; exact ih u
      | some x =>
        cases y with
        | none => rw [complete_right, complete_left]; exact ih u
        | some y => simp [ih]

/-- `ColumnsVariance` of columns without NaN: cell `(q, r)` is the covariance of the `q`-th and the `r`-th named column. -/
theorem C66_covariance_matrix (m storage : Mat (Val K)) (w : m.Wf) (ws : storage.Wf) (inds : List Int)
    (hin : ∀ i ∈ inds, 0 ≤ i ∧ i < m.cols) (hr : 1 ≤ m.rows) (sample : Bool)
    (hfin : ∀ j ∈ used inds m.cols, ∀ i, m.get i j ≠ .ok none) :
    (storage.rows = (used inds m.cols).length → storage.cols = (used inds m.cols).length →
      ∃ res, m.columnsVariance storage inds sample = .ok res ∧ SameShape storage res ∧
        ∀ (q r : Nat) j k xs ys, (used inds m.cols)[q]? = some j → (used inds m.cols)[r]? = some k →
          IsColumn m j xs → IsColumn m k ys → res.get q r = .ok (perCount sample (coSum (pairs xs ys)) xs.length)) ∧
    (storage.rows ≠ (used inds m.cols).length ∨ storage.cols ≠ (used inds m.cols).length →
      m.columnsVariance storage inds sample = .throws) := by
  unfold Mat.columnsVariance
  simp only [indsOr_eq]
  refine ⟨fun hsr hsc => ?_, fun h => if_pos h⟩
  rw [if_neg (by omega)]
  generalize hu : used inds m.cols = u at *
  have hur : ∀ j ∈ u, 0 ≤ j ∧ j < m.cols := hu ▸ used_cols hin
  have huu : used u m.cols = u := by
    unfold used
    split_ifs with h
    · subst h
      unfold used at hu
      split_ifs at hu with h2
      · exact hu
      · exact absurd hu h2
    · rfl
  -- the means
  obtain ⟨means, e, sm, cm⟩ := (C66_columns_mean m
    { rows := u.length, cols := 1, data := some (List.replicate (u.length : Int).toNat (some 0)) } w
    ⟨by simp, by simp, rfl, by simp [Mat.mem]⟩ u hur).1 (by rw [huu]; simp [Mat.length])
  rw [huu] at cm
  rw [e, Outcome.ok_bind]
  have wm : means.Wf := sm.wf ⟨by simp, by simp, rfl, by simp [Mat.mem]⟩
  have lm : means.length = u.length := by unfold Mat.length; rw [sm.rows, sm.cols]; simp
  have nonan : ∀ {j : Int} {xs}, j ∈ u → IsColumn m j xs → none ∉ xs := by
    intro j xs hj hx hc
    obtain ⟨k, hk⟩ := List.getElem?_of_mem hc
    exact hfin j hj k (hx.cell k none hk)
  have rdm : ∀ (q : Nat) j xs, u[q]? = some j → IsColumn m j xs → read means.mem q = .ok (some (mean (numbers xs))) := by
    intro q j xs hq hx
    have hq' : q < u.length := by rw [List.getElem?_eq_some_iff] at hq; exact hq.1
    have := cm q j xs hq hx
    rw [getLin_read wm (by omega) (by rw [lm]; exact_mod_cast hq')] at this
    rw [this]
    unfold avg
    rw [if_neg]
    rintro (h | h)
    · exact nonan (List.mem_of_getElem? hq) hx h
    · subst h; have := hx.len; simp at this; omega
  have hcol : ∀ j ∈ u, ∃ xs, IsColumn m j xs := fun j hj => exists_isColumn w (hur j hj).1 (hur j hj).2
  -- a value for every pair
  let C : Int → Int → Val K → Prop := fun q r v => ∀ (a b : Nat) j k xs ys, (a : Int) = q → (b : Int) = r → u[a]? = some j → u[b]? = some k →
    IsColumn m j xs → IsColumn m k ys → v = perCount sample (coSum (pairs xs ys)) xs.length
  have inR : ∀ (q r : Nat) j k, u[q]? = some j → u[r]? = some k → storage.InR q r := by
    intro q r j k hq hk
    rw [List.getElem?_eq_some_iff] at hq hk
    obtain ⟨hq, -⟩ := hq; obtain ⟨hk, -⟩ := hk
    exact ⟨by omega, by rw [hsr]; exact_mod_cast hq, by omega, by rw [hsc]; exact_mod_cast hk⟩
  obtain ⟨res, er, sr, cr⟩ := count_inv u (fun st qj =>
      (countFrom 0 u).foldlM (m.covCell means (if sample then m.rows - 1 else m.rows) qj.1 qj.2) st)
    (fun n (st : Mat (Val K)) => SameShape storage st ∧ ∀ (a b : Nat), storage.InR a b → (a < n ∨ b < n) →
      ∃ v, st.get0 a b = .ok v ∧ C a b v) (s := storage)
    ⟨SameShape.refl _, fun a b _ h => by omega⟩
    (fun q j hq st ⟨s, c⟩ => by
      obtain ⟨xs, hx⟩ := hcol j (List.mem_of_getElem? hq)
      obtain ⟨st', e', s', c'⟩ := count_inv u (m.covCell means (if sample then m.rows - 1 else m.rows) q j)
        (fun n (st : Mat (Val K)) => SameShape storage st ∧ ∀ (a b : Nat), storage.InR a b →
          (a < q ∨ b < q ∨ (a = q ∧ b < n) ∨ (b = q ∧ a < n)) → ∃ v, st.get0 a b = .ok v ∧ C a b v) (s := st)
        ⟨s, fun a b hab h => c a b hab (by omega)⟩
        (fun r k hk st ⟨s, c⟩ => by
          obtain ⟨ys, hy⟩ := hcol k (List.mem_of_getElem? hk)
          unfold Mat.covCell
          by_cases hqr : (q : Int) > r
          · rw [if_pos hqr]
            exact ⟨st, rfl, s, fun a b hab h => c a b hab (by omega)⟩
          · rw [if_neg hqr]
            simp only
            rw [rdm q j xs hq hx, Outcome.ok_bind, rdm r k ys hk hy, Outcome.ok_bind,
              crossSum_eq hx hy (nonan (List.mem_of_getElem? hq) hx) (nonan (List.mem_of_getElem? hk) hy), Outcome.ok_bind]
            have hv : vdiv (some (coSum (pairs xs ys))) (vint (if sample then m.rows - 1 else m.rows)) =
                perCount sample (coSum (pairs xs ys)) xs.length := by
              rw [← divCount_eq, hx.len]; unfold divCount; cases sample <;> rfl
            rw [hv]
            have hlen : xs.length = ys.length := by have := hx.len; have := hy.len; omega
            have good : C q r (perCount sample (coSum (pairs xs ys)) xs.length) := by
              intro a b j' k' xs' ys' ha hb hj' hk' hx' hy'
              obtain rfl : a = q := by omega
              obtain rfl : b = r := by omega
              rw [hq] at hj'; rw [hk] at hk'
              cases hj'; cases hk'
              rw [isColumn_unique hx hx', isColumn_unique hy hy']
            have good' : C r q (perCount sample (coSum (pairs xs ys)) xs.length) := by
              intro a b j' k' xs' ys' ha hb hj' hk' hx' hy'
              rw [good b a k' j' ys' xs' hb ha hk' hj' hy' hx']
              rw [pairs_swap xs' ys', coSum_comm]
              have : ys'.length = xs'.length := by have := hx'.len; have := hy'.len; omega
              rw [this]
            have hin1 := inR q r j k hq hk
            have hin2 := inR r q k j hk hq
            obtain ⟨st1, e1, s1, c1⟩ := set0_spec (s.wf ws) (s.inR.2 hin1) (perCount sample (coSum (pairs xs ys)) xs.length)
            rw [e1, Outcome.ok_bind]
            have ss1 := s.trans s1
            unfold setMirror
            by_cases hne : (q : Int) ≠ r
            · rw [if_pos hne]
              obtain ⟨st2, e2, s2, c2⟩ := set0_spec (ss1.wf ws) (ss1.inR.2 hin2) (perCount sample (coSum (pairs xs ys)) xs.length)
              refine ⟨st2, e2, ss1.trans s2, fun a b hab h => ?_⟩
              rw [c2 a b (ss1.inR.2 hab)]
              split_ifs with h1
              · refine ⟨_, rfl, ?_⟩
                have : (a : Int) = r ∧ (b : Int) = q := h1
                rw [this.1, this.2]; exact good'
              · rw [c1 a b (s.inR.2 hab)]
                split_ifs with h2
                · refine ⟨_, rfl, ?_⟩
                  rw [h2.1, h2.2]; exact good
                · exact c a b hab (by omega)
            · rw [if_neg hne]
              refine ⟨st1, rfl, ss1, fun a b hab h => ?_⟩
              rw [c1 a b (s.inR.2 hab)]
              split_ifs with h2
              · refine ⟨_, rfl, ?_⟩
                rw [h2.1, h2.2]; exact good
              · exact c a b hab (by omega))
      refine ⟨st', e', s', fun a b hab h => c' a b hab ?_⟩
      have h1 := hab.2.1
      have h2 := hab.2.2.2
      rw [hsr] at h1; rw [hsc] at h2
      omega)
  refine ⟨res, er, sr, fun q r j k xs ys hq hk hx hy => ?_⟩
  have hin := inR q r j k hq hk
  obtain ⟨v, hv, hC⟩ := cr q r hin (Or.inl (by rw [List.getElem?_eq_some_iff] at hq; exact hq.1))
  rw [get_eq_get0 (sr.wf ws) (sr.inR.2 hin), hv, hC q r j k xs ys rfl rfl hq hk hx hy]

end
end Mx
end LDT
