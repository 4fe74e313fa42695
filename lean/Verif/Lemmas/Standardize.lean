import Verif.Model.Standardize
import Verif.Spec.Standardize
import Verif.Props.MatrixStd
import Verif.Props.MatrixTest
import Verif.Props.MatrixOps
/-!
# Lemmas for the standardization of the columns
-/
namespace LDT
namespace Sd
open Mx Stat
open Arr (Val sqrtV)
open Co (part)

variable {r c : ℕ}

theorem Holds.inR {A : Mat (Val ℝ)} {M : Fin r → Fin c → ℝ} (h : Holds A M) (i : Fin r) (j : Fin c) :
    A.InR (i : ℕ) (j : ℕ) := by
  have := i.2; have := j.2
  exact ⟨by omega, by rw [h.rows]; omega, by omega, by rw [h.cols]; omega⟩

/-- A column as a list of cells. -/
theorem Holds.column {A : Mat (Val ℝ)} {M : Fin r → Fin c → ℝ} (h : Holds A M) (j : Fin c) :
    IsColumn A (j : ℕ) ((List.ofFn fun i => M i j).map some) := by
  refine ⟨by rw [List.length_map, List.length_ofFn, h.rows], fun k x hk => ?_⟩
  rw [List.getElem?_map, List.getElem?_ofFn] at hk
  split_ifs at hk with hkr
  · cases hk
    exact h.cell ⟨k, hkr⟩ j
  · cases hk

theorem numbers_some (l : List ℝ) : numbers (l.map some) = l := by
  unfold numbers
  induction l with
  | nil => rfl
  | cons a t ih => simpa using ih

theorem mean_ofFn (M : Fin r → Fin c → ℝ) (j : Fin c) : mean (List.ofFn fun i => M i j) = colMean M j := by
  unfold mean colMean
  rw [List.sum_ofFn, List.length_ofFn]

theorem sqSum_ofFn (M : Fin r → Fin c → ℝ) (j : Fin c) :
    sqSum (List.ofFn fun i => M i j) = ∑ i, (M i j - colMean M j) ^ 2 := by
  unfold sqSum
  rw [mean_ofFn, List.map_ofFn, List.sum_ofFn]; rfl

theorem divisor_pos (h2 : 2 ≤ r) (sample : Bool) : (0 : ℝ) < (if sample then (r : ℝ) - 1 else r) := by
  have : (2 : ℝ) ≤ r := by exact_mod_cast h2
  split_ifs <;> linarith

open Classical in
theorem stats_ofFn (h2 : 2 ≤ r) (sample : Bool) (M : Fin r → Fin c → ℝ) (j : Fin c) :
    numberStats sample ((List.ofFn fun i => M i j).map some) = (some (colVar sample M j), some (colMean M j)) := by
  unfold numberStats
  rw [numbers_some, mean_ofFn, sqSum_ofFn, List.length_ofFn]
  unfold perCount colVar
  have := divisor_pos h2 sample
  simp only
  rw [if_neg this.ne']

theorem colVar_nonneg (h2 : 2 ≤ r) (sample : Bool) (M : Fin r → Fin c → ℝ) (j : Fin c) : 0 ≤ colVar sample M j :=
  div_nonneg (Finset.sum_nonneg fun _ _ => sq_nonneg _) (divisor_pos h2 sample).le

/-- A slot of a long enough array. -/
theorem slot_wf (storage : List (Val ℝ)) (q : ℕ) (h : q + c ≤ storage.length) :
    (slot storage (q : Int) (c : Int)).Wf ∧ (slot storage (q : Int) (c : Int)).length = c := by
  refine ⟨⟨by simp [slot], by simp [slot], rfl, ?_⟩, by simp [slot, Mat.length]⟩
  simp only [slot, Mat.mem, Option.getD_some, part, List.length_take, List.length_drop, Int.toNat_natCast]
  omega

theorem same_len {A B : Mat (Val ℝ)} (s : SameShape A B) : B.length = A.length := by
  unfold Mat.length; rw [s.rows, s.cols]

section
open Classical

/-- `ColumnsMeans` of a table of numbers. -/
theorem means_ok (h2 : 2 ≤ r) {A : Mat (Val ℝ)} {M : Fin r → Fin c → ℝ} (h : Holds A M) (storage : List (Val ℝ)) (q : ℕ)
    (hs : q + c ≤ storage.length) :
    ∃ me, A.columnsMeans (slot storage (q : Int) (c : Int)) false = .ok me ∧ HoldsVec me (colMean M) := by
  obtain ⟨ws, wl⟩ := slot_wf (c := c) storage q hs
  obtain ⟨me, e, s, v⟩ := (C66_columns_means A (slot storage (q : Int) (c : Int)) h.wf ws).1 (by rw [wl, h.cols])
  refine ⟨me, e, s.wf ws, by rw [same_len s, wl], fun j => ?_⟩
  rw [v j _ (by rw [h.cols]; exact_mod_cast j.2) (h.column j)]
  unfold avg
  rw [if_neg, numbers_some, mean_ofFn]
  simp only [List.mem_map, reduceCtorEq, and_false, exists_false, List.map_eq_nil_iff, List.ofFn_eq_nil_iff, false_or]
  omega

theorem noNan {A : Mat (Val ℝ)} {M : Fin r → Fin c → ℝ} (h : Holds A M) :
    ∀ j xs, IsColumn A j xs → 0 ≤ j ∧ j < A.cols → if (false : Bool) then numbers xs ≠ [] else none ∉ xs := by
  intro j xs hx ⟨h0, h1⟩
  rw [h.cols] at h1
  obtain ⟨n, rfl⟩ := Int.eq_ofNat_of_zero_le h0
  have := isColumn_unique hx (h.column ⟨n, by omega⟩)
  rw [this]; simp

/-- `ColumnsVariances` of a table of numbers. -/
theorem variances_ok (h2 : 2 ≤ r) {A : Mat (Val ℝ)} {M : Fin r → Fin c → ℝ} (h : Holds A M) (storage : List (Val ℝ)) (q : ℕ)
    (hs : q + c ≤ storage.length) (sample : Bool) :
    ∃ va, A.columnsVariances (slot storage (q : Int) (c : Int)) sample false = .ok va ∧ HoldsVec va (colVar sample M) := by
  obtain ⟨ws, wl⟩ := slot_wf (c := c) storage q hs
  obtain ⟨va, e, s, v⟩ := (C66_columns_variances A (slot storage (q : Int) (c : Int)) (slot storage (q : Int) (c : Int)) h.wf ws ws
    (by rw [h.rows]; exact_mod_cast h2) sample false (noNan h)).1 (by rw [wl, h.cols])
  refine ⟨va, e, s.wf ws, by rw [same_len s, wl], fun j => ?_⟩
  rw [v j _ (by rw [h.cols]; exact_mod_cast j.2) (h.column j), stats_ofFn h2]

/-- `ColumnsMeansVariances` of a table of numbers. -/
theorem meansVariances_ok (h2 : 2 ≤ r) {A : Mat (Val ℝ)} {M : Fin r → Fin c → ℝ} (h : Holds A M) (storage : List (Val ℝ)) (q : ℕ)
    (hs : q + c + c ≤ storage.length) (sample : Bool) :
    ∃ me va, A.columnsMeansVariances (slot storage (q : Int) (c : Int)) (slot storage ((q : Int) + c) (c : Int)) sample false
      = .ok (me, va) ∧ HoldsVec me (colMean M) ∧ HoldsVec va (colVar sample M) := by
  obtain ⟨ws, wl⟩ := slot_wf (c := c) storage q (by omega)
  obtain ⟨ws', wl'⟩ := slot_wf (c := c) storage (q + c) hs
  have e0 : (((q + c : ℕ)) : Int) = (q : Int) + c := by push_cast; rfl
  rw [e0] at ws' wl'
  obtain ⟨me, va, e, s, s', v⟩ := (C66_columns_variances A _ _ h.wf ws ws'
    (by rw [h.rows]; exact_mod_cast h2) sample false (noNan h)).2.1 (by rw [wl, h.cols]) (by rw [wl', h.cols])
  refine ⟨me, va, e, ⟨s.wf ws, by rw [same_len s, wl], fun j => ?_⟩, ⟨s'.wf ws', by rw [same_len s', wl'], fun j => ?_⟩⟩
  · rw [(v j _ (by rw [h.cols]; exact_mod_cast j.2) (h.column j)).1, stats_ofFn h2]
  · rw [(v j _ (by rw [h.cols]; exact_mod_cast j.2) (h.column j)).2, stats_ofFn h2]

/-- A matrix with these cells, some of them NaN. -/
structure HoldsVal (A : Mat (Val ℝ)) (M : Fin r → Fin c → Val ℝ) : Prop where
  wf : A.Wf
  rows : A.rows = r
  cols : A.cols = c
  cell : ∀ (i : Fin r) (j : Fin c), A.get (i : ℕ) (j : ℕ) = .ok (M i j)

theorem scaled_value (mu v x : ℝ) :
    (if (some v : Val ℝ) = some 0 then none else vdiv (vsub (some x) (some mu)) (if true then rsqrt (some v) else some v))
      = standardValue true mu v x := by
  unfold standardValue rsqrt
  simp only [if_true, Option.bind_some, sqrtV, Option.some.injEq]
  rcases lt_trichotomy v 0 with h | h | h
  · rw [if_neg h.ne, if_pos h, if_neg (not_lt.2 h.le)]
    simp [vdiv, vsub]
  · rw [if_pos h, if_neg (by rw [h]; exact lt_irrefl _)]
  · rw [if_neg h.ne', if_neg (not_lt.2 h.le), if_pos h]
    simp [vdiv, vsub, (Real.sqrt_pos.2 h).ne']

/-- `ColumnsStandard` with means and variances. -/
theorem standard_both {A me va : Mat (Val ℝ)} {M : Fin r → Fin c → ℝ} {mu v : Fin c → ℝ} (h : Holds A M) (hm : HoldsVec me mu)
    (hv : HoldsVec va v) : ∃ res, A.columnsStandard rsqrt (some me) (some va) true = .ok res ∧
      HoldsVal res (fun i j => standardValue true (mu j) (v j) (M i j)) := by
  obtain ⟨res, e, s, cell⟩ := (C66_standardize rsqrt A h.wf true).1 me va hm.wf hv.wf (by rw [hm.len, h.cols]) (by rw [hv.len, h.cols])
  refine ⟨res, e, s.wf h.wf, by rw [s.rows, h.rows], by rw [s.cols, h.cols], fun i j => ?_⟩
  rw [cell _ _ _ _ _ (h.cell i j) (hm.cell j) (hv.cell j)]
  exact congrArg _ (scaled_value _ _ _)

/-- `ColumnsStandard` with variances. -/
theorem standard_scale {A va : Mat (Val ℝ)} {M : Fin r → Fin c → ℝ} {v : Fin c → ℝ} (h : Holds A M)
    (hv : HoldsVec va v) : ∃ res, A.columnsStandard rsqrt none (some va) true = .ok res ∧
      HoldsVal res (fun i j => standardValue true 0 (v j) (M i j)) := by
  obtain ⟨res, e, s, cell⟩ := (C66_standardize rsqrt A h.wf true).2.1 va hv.wf (by rw [hv.len, h.cols])
  refine ⟨res, e, s.wf h.wf, by rw [s.rows, h.rows], by rw [s.cols, h.cols], fun i j => ?_⟩
  rw [cell _ _ _ _ (h.cell i j) (hv.cell j), ← scaled_value]
  simp [vsub]

/-- `ColumnsStandard` with means. -/
theorem standard_center {A me : Mat (Val ℝ)} {M : Fin r → Fin c → ℝ} {mu : Fin c → ℝ} (h : Holds A M) (hm : HoldsVec me mu) :
    ∃ res, A.columnsStandard rsqrt (some me) none false = .ok res ∧
      HoldsVal res (fun i j => standardValue false (mu j) 0 (M i j)) := by
  obtain ⟨res, e, s, cell⟩ := (C66_standardize rsqrt A h.wf false).2.2.1 me hm.wf (by rw [hm.len, h.cols])
  refine ⟨res, e, s.wf h.wf, by rw [s.rows, h.rows], by rw [s.cols, h.cols], fun i j => ?_⟩
  rw [cell _ _ _ _ (h.cell i j) (hm.cell j)]
  simp [vsub, standardValue]

/-- What the branches leave behind. -/
structure Branched (s : Std) (om ov : Option (Fin c → ℝ)) (M : Fin r → Fin c → ℝ) (t : StdStep ℝ) : Prop where
  cells : HoldsVal t.result (fun i j => standardValue s.scale (shift s.center om M j) (spread s.sample ov M j) (M i j))
  means : HoldsOpt t.means (if s.center = true ∧ om.isNone then some (colMean M) else none)
  vars : HoldsOpt t.vars (if s.scale = true ∧ ov.isNone then some (colVar s.sample M) else none)
  use : HoldsOpt t.useVar (if s.scale = true then some (spread s.sample ov M) else none)

theorem holdsOpt_cases {A : Option (Mat (Val ℝ))} {v : Option (Fin c → ℝ)} (h : HoldsOpt A v) :
    (A = none ∧ v = none) ∨ ∃ a w, A = some a ∧ v = some w ∧ HoldsVec a w := by
  cases A <;> cases v
  · exact Or.inl ⟨rfl, rfl⟩
  · exact h.elim
  · exact h.elim
  · exact Or.inr ⟨_, _, rfl, rfl, h⟩

theorem branch_ok (s : Std) (hn : s.checkNan = false) {A : Mat (Val ℝ)} {M : Fin r → Fin c → ℝ} (h : Holds A M)
    (storage : List (Val ℝ)) (q : ℕ) (hs : q + (if s.center then c else 0) + (if s.scale then c else 0) ≤ storage.length)
    {aom aov : Option (Mat (Val ℝ))} {om ov : Option (Fin c → ℝ)} (hm : HoldsOpt aom om) (hv : HoldsOpt aov ov)
    (h2 : 2 ≤ r ∨ ((s.center = true → om.isSome) ∧ (s.scale = true → ov.isSome))) :
    ∃ t, branch rsqrt s A storage (q : Int) (c : Int) aom aov = .ok t ∧ Branched s om ov M t := by
  unfold branch
  by_cases hc : s.center = true
  · rw [if_pos hc]
    by_cases hsc : s.scale = true
    · rw [if_pos hsc]
      rw [if_pos hc, if_pos hsc] at hs
      unfold both
      rw [hn]
      rcases holdsOpt_cases hm with ⟨rfl, rfl⟩ | ⟨a, w, rfl, rfl, ha⟩ <;> rcases holdsOpt_cases hv with ⟨rfl, rfl⟩ | ⟨b, u, rfl, rfl, hb⟩
      · have h2 : 2 ≤ r := h2.resolve_right (fun h => by simpa using h.1 hc)
        obtain ⟨me, va, e1, i1, i2⟩ := meansVariances_ok h2 h storage q hs s.sample
        obtain ⟨res, e2, i3⟩ := standard_both h i1 i2
        refine ⟨⟨res, some me, some va, some va⟩, ?_, ?_, ?_, ?_, ?_⟩
        · dsimp only; rw [e1, Outcome.ok_bind]; dsimp only; rw [e2]; rfl
        · simpa [shift, spread, hc, hsc] using i3
        · rw [if_pos (by simp [hc])]; exact i1
        · rw [if_pos (by simp [hsc])]; exact i2
        · rw [if_pos hsc]; exact i2
      · have h2 : 2 ≤ r := h2.resolve_right (fun h => by simpa using h.1 hc)
        obtain ⟨me, e1, i1⟩ := means_ok h2 h storage q (by omega)
        obtain ⟨res, e2, i3⟩ := standard_both h i1 hb
        refine ⟨⟨res, some me, none, some b⟩, ?_, ?_, ?_, ?_, ?_⟩
        · dsimp only; rw [e1, Outcome.ok_bind, e2]; rfl
        · simpa [shift, spread, hc, hsc] using i3
        · rw [if_pos (by simp [hc])]; exact i1
        · simp [HoldsOpt]
        · rw [if_pos hsc]; exact hb
      · have h2 : 2 ≤ r := h2.resolve_right (fun h => by simpa using h.2 hsc)
        obtain ⟨va, e1, i1⟩ := variances_ok h2 h storage q (by omega) s.sample
        obtain ⟨res, e2, i3⟩ := standard_both h ha i1
        refine ⟨⟨res, none, some va, some va⟩, ?_, ?_, ?_, ?_, ?_⟩
        · dsimp only; rw [e1, Outcome.ok_bind, e2]; rfl
        · simpa [shift, spread, hc, hsc] using i3
        · simp [HoldsOpt]
        · rw [if_pos (by simp [hsc])]; exact i1
        · rw [if_pos hsc]; exact i1
      · obtain ⟨res, e2, i3⟩ := standard_both h ha hb
        refine ⟨⟨res, none, none, some b⟩, ?_, ?_, ?_, ?_, ?_⟩
        · dsimp only; rw [e2]; rfl
        · simpa [shift, spread, hc, hsc] using i3
        · simp [HoldsOpt]
        · simp [HoldsOpt]
        · rw [if_pos hsc]; exact hb
    · rw [if_neg hsc]
      rw [if_pos hc, if_neg hsc] at hs
      have hsf : s.scale = false := by simpa using hsc
      unfold onlyCenter
      rw [hn]
      rcases holdsOpt_cases hm with ⟨rfl, rfl⟩ | ⟨a, w, rfl, rfl, ha⟩
      · have h2 : 2 ≤ r := h2.resolve_right (fun h => by simpa using h.1 hc)
        obtain ⟨me, e1, i1⟩ := means_ok h2 h storage q (by omega)
        obtain ⟨res, e2, i3⟩ := standard_center h i1
        refine ⟨⟨res, some me, none, none⟩, ?_, ?_, ?_, ?_, ?_⟩
        · dsimp only; rw [e1, Outcome.ok_bind, e2]; rfl
        · simpa [shift, spread, hc, hsf, standardValue] using i3
        · rw [if_pos (by simp [hc])]; exact i1
        · simp [HoldsOpt, hsf]
        · simp [HoldsOpt, hsf]
      · obtain ⟨res, e2, i3⟩ := standard_center h ha
        refine ⟨⟨res, none, none, none⟩, ?_, ?_, ?_, ?_, ?_⟩
        · dsimp only; rw [e2]; rfl
        · simpa [shift, spread, hc, hsf, standardValue] using i3
        · simp [HoldsOpt]
        · simp [HoldsOpt, hsf]
        · simp [HoldsOpt, hsf]
  · rw [if_neg hc]
    have hcf : s.center = false := by simpa using hc
    by_cases hsc : s.scale = true
    · rw [if_pos hsc]
      rw [if_neg hc, if_pos hsc] at hs
      unfold onlyScale
      rw [hn]
      rcases holdsOpt_cases hv with ⟨rfl, rfl⟩ | ⟨b, u, rfl, rfl, hb⟩
      · have h2 : 2 ≤ r := h2.resolve_right (fun h => by simpa using h.2 hsc)
        obtain ⟨va, e1, i1⟩ := variances_ok h2 h storage q (by omega) s.sample
        obtain ⟨res, e2, i3⟩ := standard_scale h i1
        refine ⟨⟨res, none, some va, some va⟩, ?_, ?_, ?_, ?_, ?_⟩
        · dsimp only; rw [e1, Outcome.ok_bind, e2]; rfl
        · simpa [shift, spread, hcf, hsc] using i3
        · simp [HoldsOpt, hcf]
        · rw [if_pos (by simp [hsc])]; exact i1
        · rw [if_pos hsc]; exact i1
      · obtain ⟨res, e2, i3⟩ := standard_scale h hb
        refine ⟨⟨res, none, none, some b⟩, ?_, ?_, ?_, ?_, ?_⟩
        · dsimp only; rw [e2]; rfl
        · simpa [shift, spread, hcf, hsc] using i3
        · simp [HoldsOpt, hcf]
        · simp [HoldsOpt]
        · rw [if_pos hsc]; exact hb
    · rw [if_neg hsc]
      have hsf : s.scale = false := by simpa using hsc
      refine ⟨_, rfl, ⟨h.wf, h.rows, h.cols, fun i j => ?_⟩, ?_, ?_, ?_⟩
      · rw [h.cell i j]; simp [standardValue, shift, hcf, hsf]
      · simp [HoldsOpt, hcf]
      · simp [HoldsOpt, hsf]
      · simp [HoldsOpt, hsf]

end
end Sd
end LDT
