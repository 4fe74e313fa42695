import Verif.Lemmas.Stat
import Verif.Model.Running
import Mathlib.Algebra.Order.BigOperators.Ring.Finset
/-!
# C65: mean, variance, covariance and correlation of cells
-/
namespace LDT
namespace Mx
open Stat
open Arr (Val sqrtV)

variable {K : Type} [Field K] [DecidableEq K]

/-! ## Specification -/

/-- `xs` are all the cells of the matrix, column after column. -/
structure IsCells {α : Type} (m : Mat α) (xs : List α) : Prop where
  len : (xs.length : Int) = m.length
  cell : ∀ (k : Nat) x, xs[k]? = some x → m.getLin k = .ok x

/-- `xs` are the cells of column `j` from the top. -/
structure IsColumn {α : Type} (m : Mat α) (j : Int) (xs : List α) : Prop where
  len : (xs.length : Int) = m.rows
  cell : ∀ (k : Nat) x, xs[k]? = some x → m.get k j = .ok x

/-! ## The loops -/

theorem isCells_read {α : Type} {m : Mat α} {xs : List α} (h : IsCells m xs) (k : Nat) (x : α) (hk : xs[k]? = some x) :
    read m.mem (0 + k) = .ok x := by
  have := h.cell k x hk
  unfold Mat.getLin at this
  split_ifs at this
  rw [zero_add]; exact this

theorem isColumn_read {α : Type} {m : Mat α} {j : Int} {xs : List α} (h : IsColumn m j xs) (k : Nat) (x : α)
    (hk : xs[k]? = some x) : read m.mem (m.rows * j + k) = .ok x := by
  have := h.cell k x hk
  unfold Mat.get at this
  split_ifs at this
  unfold Mat.get0 at this
  rw [add_comm]; exact this

theorem isColumn_get0 {α : Type} {m : Mat α} {j : Int} {xs : List α} (h : IsColumn m j xs) (k : Nat) (x : α)
    (hk : xs[k]? = some x) : m.get0 k j = .ok x := by
  have := h.cell k x hk
  unfold Mat.get at this
  split_ifs at this
  exact this

/-- Every column of a matrix has such a list. -/
theorem exists_isColumn {α : Type} {m : Mat α} (w : m.Wf) {j : Int} (h0 : 0 ≤ j) (h1 : j < m.cols) :
    ∃ xs, IsColumn m j xs := by
  have hr := w.rows_nonneg
  have : ∀ n : Nat, (n : Int) ≤ m.rows → ∃ xs : List α, xs.length = n ∧ ∀ (k : Nat) x, xs[k]? = some x → m.get k j = .ok x := by
    intro n
    induction n with
    | zero => intro _; exact ⟨[], rfl, by simp⟩
    | succ n ih =>
      intro hn
      obtain ⟨xs, hl, hx⟩ := ih (by push_cast at hn; omega)
      have hin : m.InR (n : Int) j := ⟨by omega, by push_cast at hn; omega, h0, h1⟩
      obtain ⟨v, hv⟩ := get0_ok w hin
      rw [← get_eq_get0 w hin] at hv
      refine ⟨xs ++ [v], by simp [hl], fun k x hk => ?_⟩
      by_cases hkn : k < xs.length
      · rw [List.getElem?_append_left hkn] at hk; exact hx k x hk
      · rw [List.getElem?_append_right (by omega)] at hk
        have h0 : k = xs.length := by
          by_contra hc
          rw [List.getElem?_eq_none (by simp; omega)] at hk; cases hk
        subst h0
        simp only [Nat.sub_self, List.getElem?_cons_zero, Option.some.injEq] at hk
        rw [← hk, hl]; exact hv
  obtain ⟨xs, hl, hx⟩ := this m.rows.toNat (by omega)
  exact ⟨xs, ⟨by omega, hx⟩⟩

section
variable [CharZero K]

theorem meanStep_none (b : Bool) (i : Int) (d : Val K) (h : b = false) : meanStep b none i d = none := by
  subst h; cases d <;> rfl

theorem vint_pos_div (a : K) (n : Nat) : vdiv (some a) (vint ((n : Int) + 1)) = some (a / ((n : K) + 1)) := by
  unfold vdiv vint
  simp only [Int.cast_add, Int.cast_natCast, Int.cast_one]
  rw [if_neg (Nat.cast_add_one_ne_zero n)]

theorem meanFold_false (xs : List (Val K)) :
    foldPos (meanStep false) (some 0) xs 0 = if none ∈ xs then none else some (mean (numbers xs)) := by
  induction xs using List.reverseRecOn with
  | nil => simp [foldPos, numbers, mean_nil]
  | append_singleton xs x ih =>
    rw [foldPos_snoc, ih]
    by_cases h : none ∈ xs
    · rw [if_pos h, if_pos (by simp [h]), meanStep_none _ _ _ rfl]
    · rw [if_neg h]
      cases x with
      | none => rw [if_pos (by simp)]; simp [meanStep, vsub, vdiv, vadd]
      | some x =>
        rw [if_neg (by simp [h]), numbers_snoc_some, mean_snoc]
        simp only [meanStep, Bool.false_and, Bool.false_eq_true, if_false, zero_add, vsub]
        have hl : (numbers xs).length = xs.length := by
          conv_rhs => rw [eq_map_some h]
          simp
        rw [vint_pos_div, hl]; rfl

theorem meanFold_true (l : List K) (n : Nat) :
    foldPos (meanStep true) (some 0) (l.map some ++ List.replicate n none) 0 = some (mean l) := by
  induction n with
  | zero =>
    simp only [List.replicate_zero, List.append_nil]
    induction l using List.reverseRecOn with
    | nil => simp [foldPos, mean_nil]
    | append_singleton xs x ih =>
      rw [List.map_append, List.map_singleton, foldPos_snoc, ih, mean_snoc]
      simp only [meanStep, Option.isNone_some, Bool.and_false, Bool.false_eq_true, if_false, zero_add, vsub,
        List.length_map]
      rw [vint_pos_div]; rfl
  | succ n ih =>
    rw [List.replicate_succ', ← List.append_assoc, foldPos_snoc, ih]; rfl

theorem varStep_some (s : RunVar K) (c : Bool) (xs : List K) (i : Int) (x : K)
    (hs : s = ⟨some (mean xs), some (sqSum xs), xs.length⟩) (hi : c = false → i = xs.length) :
    varStep c s i (some x) = ⟨some (mean (xs ++ [x])), some (sqSum (xs ++ [x])), (xs ++ [x]).length⟩ := by
  have hj : (if c then s.j else i) = (xs.length : Int) := by
    cases c
    · simpa using hi rfl
    · simp [hs]
  unfold varStep
  simp only [hj, Option.isNone_some, Bool.and_false, Bool.false_eq_true, if_false]
  rw [hs]
  simp only [vsub]
  rw [vint_pos_div, mean_snoc, sqSum_snoc]
  simp [vadd, vmul, vint]

theorem varFold_true (xs : List (Val K)) :
    foldPos (varStep true) ⟨some 0, some 0, 0⟩ xs 0 =
      ⟨some (mean (numbers xs)), some (sqSum (numbers xs)), (numbers xs).length⟩ := by
  induction xs using List.reverseRecOn with
  | nil => simp [foldPos, numbers, mean_nil, sqSum_nil]
  | append_singleton xs x ih =>
    rw [foldPos_snoc]
    cases x with
    | none => rw [numbers_snoc_none, ih]; rfl
    | some x => rw [numbers_snoc_some, varStep_some _ _ (numbers xs) _ _ ih (fun h => by cases h)]

theorem varFold_false (l : List K) :
    foldPos (varStep false) ⟨some 0, some 0, 0⟩ (l.map some) 0 = ⟨some (mean l), some (sqSum l), l.length⟩ := by
  induction l using List.reverseRecOn with
  | nil => simp [foldPos, mean_nil, sqSum_nil]
  | append_singleton xs x ih =>
    rw [List.map_append, List.map_singleton, foldPos_snoc, varStep_some _ _ xs _ _ ih (fun _ => by simp)]

theorem varFold_nan (xs : List (Val K)) (h : none ∈ xs) (s : RunVar K) (i : Int) :
    (foldPos (varStep false) s xs i).me = none ∧ (foldPos (varStep false) s xs i).m2 = none := by
  have keep : ∀ (xs : List (Val K)) (s : RunVar K) (i : Int), s.me = none → s.m2 = none →
      (foldPos (varStep false) s xs i).me = none ∧ (foldPos (varStep false) s xs i).m2 = none := by
    intro xs
    induction xs with
    | nil => intro s i h1 h2; exact ⟨h1, h2⟩
    | cons a t ih =>
      intro s i h1 h2
      apply ih
      · simp [varStep, h1]
      · simp [varStep, h2]
  induction xs generalizing s i with
  | nil => simp at h
  | cons a t ih =>
    cases a with
    | none =>
      refine keep t _ _ ?_ ?_
      · simp [varStep]
      · simp [varStep]
    | some a => exact ih (by simpa using h) _ _

theorem divCount_eq (sample : Bool) (t : K) (n : Nat) : divCount sample (some t) (n : Int) = perCount sample t n := by
  unfold divCount perCount vdiv vint
  cases sample <;> simp

end

/-! ## Theorems: mean and variance -/

section
variable [CharZero K]

/-- Without the check for NaN the mean is the arithmetic mean of all cells, and NaN if a cell is NaN or there is none. -/
theorem C65_mean (m : Mat (Val K)) (xs : List (Val K)) (h : IsCells m xs) :
    m.mean false = .ok (if xs = [] ∨ none ∈ xs then none else some (mean (numbers xs))) := by
  unfold Mat.mean
  rw [← h.len]
  have hr := scanCells_eq m.mem 0 (meanStep false) (some 0) xs (isCells_read h)
  rw [meanFold_false] at hr
  by_cases h0 : xs = []
  · subst h0; simp
  · have : xs.length ≠ 0 := fun hc => h0 (List.length_eq_zero_iff.1 hc)
    rw [if_neg (by omega), hr]
    simp only [h0, false_or]
    by_cases h1 : xs.length = 1
    · obtain ⟨x, rfl⟩ := List.length_eq_one_iff.1 h1
      have := isCells_read h 0 x rfl
      rw [if_pos (by simp)]
      rw [show ((0 : Int) + ((0 : Nat) : Int)) = 0 from rfl] at this
      rw [this]
      cases x <;> simp [numbers, mean]
    · rw [if_neg (by omega)]

/-- Missing: NaN in front of a number (`C65_violated_mean_position`). If all NaN are at the end, `Mean(true)` is the mean
of the numbers. -/
theorem C65_mean_checked_partial (m : Mat (Val K)) (l : List K) (n : Nat) (hl : l ≠ [])
    (h : IsCells m (l.map some ++ List.replicate n none)) : m.mean true = .ok (some (mean l)) := by
  have hr := scanCells_eq m.mem 0 (meanStep true) (some 0) _ (isCells_read h)
  rw [meanFold_true] at hr
  unfold Mat.mean
  rw [← h.len]
  have : l.length ≠ 0 := fun hc => hl (List.length_eq_zero_iff.1 hc)
  rw [if_neg (by simp; omega), hr]
  split_ifs with h1
  · simp only [List.length_append, List.length_map, List.length_replicate] at h1
    obtain ⟨x, rfl⟩ : ∃ x, l = [x] := List.length_eq_one_iff.1 (by omega)
    have := isCells_read h 0 (some x) rfl
    rw [show ((0 : Int) + ((0 : Nat) : Int)) = 0 from rfl] at this
    rw [this]; simp [mean]
  · rfl

/-- `Mean(true)` of a NaN followed by `a` is `a / 2`, not `a`: the divisor counts the skipped cells. -/
theorem C65_violated_mean_position (m : Mat (Val K)) (a : K) (ha : a ≠ 0) (h : IsCells m [none, some a]) :
    m.mean true = .ok (some (a / 2)) ∧ mean [a] = a ∧ a / 2 ≠ a := by
  refine ⟨?_, by simp [mean], ?_⟩
  · have hr := scanCells_eq m.mem 0 (meanStep true) (some 0) _ (isCells_read h)
    unfold Mat.mean
    rw [← h.len]
    rw [if_neg (by simp), if_neg (by simp), hr]
    have h2 : (1 : K) + 1 ≠ 0 := by norm_num
    simp [foldPos, meanStep, vsub, vdiv, vadd, vint, h2]
  · intro hc
    have h2 : (2 : K) ≠ 0 := two_ne_zero
    field_simp at hc
    have : (1 : K) ≠ 2 := by norm_num
    exact this hc

/-- `Mean(true)` of two or more NaN is 0 although there is no number. -/
theorem C65_violated_mean_nothing (m : Mat (Val K)) (n : Nat) (hn : 2 ≤ n) (h : IsCells m (List.replicate n none)) :
    m.mean true = .ok (some 0) := by
  have hr := scanCells_eq m.mem 0 (meanStep true) (some 0) _ (isCells_read h)
  have := meanFold_true ([] : List K) n
  simp only [List.map_nil, List.nil_append] at this
  rw [this, mean_nil] at hr
  unfold Mat.mean
  rw [← h.len, if_neg (by simp; omega), if_neg (by simp; omega), hr]

/-- `Variance`: with the check, mean and variance of the numbers among the cells (at least one number, at least two
cells); without it, of all cells, or NaN as soon as one is NaN; nothing or one cell has no variance. -/
theorem C65_variance_partial (m : Mat (Val K)) (xs : List (Val K)) (h : IsCells m xs) (sample : Bool) :
    (2 ≤ xs.length → numbers xs ≠ [] → m.variance sample true =
      .ok (perCount sample (sqSum (numbers xs)) (numbers xs).length, some (mean (numbers xs)))) ∧
    (2 ≤ xs.length → none ∉ xs → m.variance sample false =
      .ok (perCount sample (sqSum (numbers xs)) (numbers xs).length, some (mean (numbers xs)))) ∧
    (2 ≤ xs.length → none ∈ xs → m.variance sample false = .ok (none, none)) ∧
    (∀ c x, xs = [x] → m.variance sample c = .ok (none, x)) ∧
    (∀ c, xs = [] → m.variance sample c = .ok (none, none)) := by
  unfold Mat.variance
  rw [← h.len]
  refine ⟨fun h2 _ => ?_, fun h2 hn => ?_, fun h2 hn => ?_, fun c x hx => ?_, fun c hx => ?_⟩
  · rw [if_neg (by omega), if_neg (by omega), scanCells_eq m.mem 0 _ _ xs (isCells_read h), Outcome.ok_bind, varFold_true]
    simp only [if_true, divCount_eq]; rfl
  · rw [if_neg (by omega), if_neg (by omega), scanCells_eq m.mem 0 _ _ xs (isCells_read h), Outcome.ok_bind]
    rw [eq_map_some hn, varFold_false, numbers_map_some]
    simp only [Bool.false_eq_true, if_false, List.length_map, divCount_eq]; rfl
  · rw [if_neg (by omega), if_neg (by omega), scanCells_eq m.mem 0 _ _ xs (isCells_read h), Outcome.ok_bind]
    obtain ⟨h1, h2⟩ := varFold_nan xs hn ⟨some 0, some 0, 0⟩ 0
    rw [h1, h2]
    cases sample <;> rfl
  · subst hx
    have := isCells_read h 0 x rfl
    rw [show ((0 : Int) + ((0 : Nat) : Int)) = 0 from rfl] at this
    simp only [List.length_singleton, Nat.cast_one, one_ne_zero, if_false, if_true]
    rw [this]; rfl
  · subst hx; simp

/-- Two or more cells that are all NaN: the sample variance and the mean are 0. -/
theorem C65_violated_variance_nothing (m : Mat (Val K)) (n : Nat) (hn : 2 ≤ n) (h : IsCells m (List.replicate n none)) :
    m.variance true true = .ok (some 0, some 0) := by
  unfold Mat.variance
  rw [← h.len, if_neg (by simp; omega), if_neg (by simp; omega), scanCells_eq m.mem 0 _ _ _ (isCells_read h), Outcome.ok_bind,
    varFold_true]
  have : numbers (List.replicate n (none : Val K)) = [] := by
    unfold numbers; rw [List.filterMap_eq_nil_iff]; intro a ha; exact (List.mem_replicate.1 ha).2
  rw [this]
  simp [sqSum_nil, mean_nil, divCount, vdiv, vint]

/-- `VarianceColumn`: the same for a column, with the number of used cells. -/
theorem C65_variance_column_partial (m : Mat (Val K)) (j : Int) (xs : List (Val K)) (h : IsColumn m j xs) (sample : Bool) :
    (2 ≤ xs.length → numbers xs ≠ [] → m.varianceColumn j sample true =
      .ok ⟨perCount sample (sqSum (numbers xs)) (numbers xs).length, some (mean (numbers xs)), (numbers xs).length⟩) ∧
    (2 ≤ xs.length → none ∉ xs → m.varianceColumn j sample false =
      .ok ⟨perCount sample (sqSum (numbers xs)) (numbers xs).length, some (mean (numbers xs)), (numbers xs).length⟩) ∧
    (2 ≤ xs.length → none ∈ xs → m.varianceColumn j sample false = .ok ⟨none, none, xs.length⟩) ∧
    (∀ c x, xs = [x] → m.varianceColumn j sample c = .ok ⟨none, x, 1⟩) ∧
    (∀ c, xs = [] → m.varianceColumn j sample c = .ok ⟨none, none, 0⟩) := by
  unfold Mat.varianceColumn
  have hl := h.len
  refine ⟨fun h2 _ => ?_, fun h2 hn => ?_, fun h2 hn => ?_, fun c x hx => ?_, fun c hx => ?_⟩
  · rw [if_neg (by omega), if_neg (by omega)]
    have e := scanCells_eq m.mem (m.rows * j) (varStep true) ⟨some 0, some 0, 0⟩ xs (isColumn_read h)
    rw [hl] at e
    rw [e, Outcome.ok_bind, varFold_true]
    simp only [if_true, divCount_eq]; rfl
  · rw [if_neg (by omega), if_neg (by omega)]
    have e := scanCells_eq m.mem (m.rows * j) (varStep false) ⟨some 0, some 0, 0⟩ xs (isColumn_read h)
    rw [hl] at e
    rw [e, Outcome.ok_bind, ← hl]
    rw [eq_map_some hn, varFold_false, numbers_map_some]
    simp only [Bool.false_eq_true, if_false, List.length_map, divCount_eq]; rfl
  · rw [if_neg (by omega), if_neg (by omega)]
    have e := scanCells_eq m.mem (m.rows * j) (varStep false) ⟨some 0, some 0, 0⟩ xs (isColumn_read h)
    rw [hl] at e
    rw [e, Outcome.ok_bind]
    obtain ⟨h1, h2⟩ := varFold_nan xs hn ⟨some 0, some 0, 0⟩ 0
    rw [h1, h2, ← hl]
    cases sample <;> rfl
  · subst hx
    have := isColumn_get0 h 0 x rfl
    simp only [List.length_singleton] at hl
    rw [if_neg (by omega), if_pos (by omega)]
    rw [show m.get0 0 j = .ok x from this, Outcome.ok_bind]
    rw [← hl]; rfl
  · subst hx
    simp only [List.length_nil] at hl
    rw [if_pos (by omega), ← hl]; rfl

end

end Mx
end LDT
