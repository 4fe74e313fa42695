import Verif.Spec.Stat
import Verif.Model.MatrixStat
import Verif.Lemmas.MatrixElem
import Mathlib.Algebra.CharZero.Defs
import Mathlib.Tactic.FieldSimp
import Mathlib.Tactic.Ring
import Mathlib.Tactic.LinearCombination
namespace LDT
namespace Stat
open Arr

variable {K : Type} [Field K] [CharZero K]

theorem mean_nil : mean ([] : List K) = 0 := by simp [mean]

theorem sum_eq (l : List K) : l.sum = (l.length : K) * mean l := by
  unfold mean
  by_cases h : l = []
  · subst h; simp
  · have : (l.length : K) ≠ 0 := by
      rw [Nat.cast_ne_zero]; exact fun hc => h (List.length_eq_zero_iff.1 hc)
    field_simp

theorem mean_snoc (l : List K) (x : K) : mean (l ++ [x]) = mean l + (x - mean l) / ((l.length : K) + 1) := by
  have h : (l.length : K) + 1 ≠ 0 := Nat.cast_add_one_ne_zero _
  have e := sum_eq l
  conv_lhs => unfold mean
  rw [List.sum_append, List.length_append, e]
  simp only [List.sum_singleton, List.length_singleton, Nat.cast_add, Nat.cast_one]
  field_simp; ring

/-- Products of deviations from arbitrary centres. -/
theorem coSum_centre (l : List (K × K)) (a b a' b' : K) :
    (l.map (fun p => (p.1 - a') * (p.2 - b'))).sum =
      (l.map (fun p => (p.1 - a) * (p.2 - b))).sum + (a - a') * ((l.map Prod.snd).sum - (l.length : K) * b)
        + (b - b') * ((l.map Prod.fst).sum - (l.length : K) * a) + (l.length : K) * ((a - a') * (b - b')) := by
  induction l with
  | nil => simp
  | cons p t ih =>
    simp only [List.map_cons, List.sum_cons, List.length_cons, ih]
    push_cast; ring

theorem coSum_snoc (l : List (K × K)) (x y : K) :
    coSum (l ++ [(x, y)]) =
      coSum l + (x - mean (l.map Prod.fst)) * (y - mean ((l ++ [(x, y)]).map Prod.snd)) := by
  have h : (l.length : K) + 1 ≠ 0 := Nat.cast_add_one_ne_zero _
  unfold coSum
  have e1 : mean ((l ++ [(x, y)]).map Prod.fst) = mean (l.map Prod.fst) + (x - mean (l.map Prod.fst)) / (((l.map Prod.fst).length : K) + 1) := by
    rw [List.map_append]; exact mean_snoc (l.map Prod.fst) x
  have e2 : mean ((l ++ [(x, y)]).map Prod.snd) = mean (l.map Prod.snd) + (y - mean (l.map Prod.snd)) / (((l.map Prod.snd).length : K) + 1) := by
    rw [List.map_append]; exact mean_snoc (l.map Prod.snd) y
  rw [e1, e2, List.map_append, List.sum_append,
    coSum_centre l (mean (l.map Prod.fst)) (mean (l.map Prod.snd)), sum_eq (l.map Prod.fst), sum_eq (l.map Prod.snd)]
  simp only [List.length_map, List.map_singleton, List.sum_singleton]
  field_simp; ring

theorem coSum_nil : coSum ([] : List (K × K)) = 0 := by simp [coSum]

theorem sqSum_eq (l : List K) : sqSum l = coSum (l.map (fun x => (x, x))) := by
  unfold sqSum coSum
  simp only [List.map_map, Function.comp_def, List.map_id']
  congr 1; apply List.map_congr_left; intro x _; ring

theorem sqSum_fst (l : List (K × K)) : sqSum (l.map Prod.fst) = (l.map (fun p => (p.1 - mean (l.map Prod.fst)) ^ 2)).sum := by
  unfold sqSum; rw [List.map_map]; rfl

theorem sqSum_snoc (l : List K) (x : K) :
    sqSum (l ++ [x]) = sqSum l + (x - mean l) * ((x - mean l) / ((l.length : K) + 1)) * (l.length : K) := by
  have h : (l.length : K) + 1 ≠ 0 := Nat.cast_add_one_ne_zero _
  rw [sqSum_eq, sqSum_eq, List.map_append]
  show coSum (l.map (fun x => (x, x)) ++ [(x, x)]) = _
  rw [coSum_snoc]
  have e1 : (l.map (fun x => (x, x))).map Prod.fst = l := by simp [Function.comp_def]
  have e2 : (l.map (fun x => (x, x)) ++ [(x, x)]).map Prod.snd = l ++ [x] := by simp [Function.comp_def]
  rw [e1, e2, mean_snoc]
  field_simp; ring

theorem sqSum_nil : sqSum ([] : List K) = 0 := by simp [sqSum]

theorem numbers_snoc_some (l : List (Val K)) (x : K) : numbers (l ++ [some x]) = numbers l ++ [x] := by simp [numbers]
theorem numbers_snoc_none (l : List (Val K)) : numbers (l ++ [none]) = numbers l := by simp [numbers]

theorem numbers_map_some (l : List K) : numbers (l.map some) = l := by
  induction l with
  | nil => rfl
  | cons a t ih => unfold numbers at *; simpa using ih

/-- A list of cells without NaN. -/
theorem eq_map_some {l : List (Val K)} (h : none ∉ l) : l = (numbers l).map some := by
  induction l with
  | nil => rfl
  | cons a t ih =>
    cases a with
    | none => exact absurd (by simp) h
    | some a =>
      have := ih (fun hc => h (by simp [hc]))
      unfold numbers at *
      simpa using this

@[simp] theorem complete_left (y : Val K) : complete ((none : Val K), y) = none := rfl
@[simp] theorem complete_right (x : Val K) : complete (x, (none : Val K)) = none := by cases x <;> rfl
@[simp] theorem complete_some (x y : K) : complete (some x, some y) = some (x, y) := rfl

theorem pairs_snoc {xs ys : List (Val K)} (h : xs.length = ys.length) (x y : Val K) :
    pairs (xs ++ [x]) (ys ++ [y]) = pairs xs ys ++ (match x, y with | some x, some y => [(x, y)] | _, _ => []) := by
  unfold pairs
  rw [List.zip_append h, List.filterMap_append]
  cases x <;> cases y <;> rfl

end Stat

namespace Mx
open Arr Stat
variable {K : Type} [Field K] [DecidableEq K]

@[simp] theorem vadd_some (a b : K) : vadd (some a) (some b) = some (a + b) := rfl
@[simp] theorem vsub_some (a b : K) : vsub (some a) (some b) = some (a - b) := rfl
@[simp] theorem vmul_some (a b : K) : vmul (some a) (some b) = some (a * b) := rfl
theorem vdiv_some (a b : K) : vdiv (some a) (some b) = if b = 0 then none else some (a / b) := rfl
@[simp] theorem vadd_none (a : Val K) : vadd a none = none := by cases a <;> rfl
@[simp] theorem none_vadd (a : Val K) : vadd none a = none := rfl
@[simp] theorem vsub_none (a : Val K) : vsub a none = none := by cases a <;> rfl
@[simp] theorem none_vsub (a : Val K) : vsub none a = none := rfl
@[simp] theorem vmul_none (a : Val K) : vmul a none = none := by cases a <;> rfl
@[simp] theorem none_vmul (a : Val K) : vmul none a = none := rfl
@[simp] theorem vdiv_none (a : Val K) : vdiv a none = none := by cases a <;> rfl
@[simp] theorem none_vdiv (a : Val K) : vdiv none a = none := rfl

theorem upTo_snoc (n : Nat) : upTo 0 ((n + 1 : Nat) : Int) = upTo 0 (n : Int) ++ [(n : Int)] := by
  unfold upTo
  have e1 : (((n + 1 : Nat) : Int) - 0).toNat = n + 1 := by omega
  have e2 : ((n : Int) - 0).toNat = n := by omega
  rw [e1, e2, List.range_succ, List.map_append]
  simp

/-- The left fold of a step that also sees the position. -/
def foldPos {σ β : Type} (step : σ → Int → β → σ) (s : σ) : List β → Int → σ
  | [], _ => s
  | x :: t, i => foldPos step (step s i x) t (i + 1)

theorem foldPos_snoc {σ β : Type} (step : σ → Int → β → σ) (l : List β) (x : β) : ∀ (s : σ) (i : Int),
    foldPos step s (l ++ [x]) i = step (foldPos step s l i) (i + l.length) x := by
  induction l with
  | nil => intro s i; simp [foldPos]
  | cons a t ih =>
    intro s i
    simp only [List.cons_append, foldPos, ih, List.length_cons]
    congr 1; push_cast; ring

theorem scanCells_eq {σ : Type} (l : List (Val K)) (start : Int) (step : σ → Int → Val K → σ) (s : σ) (xs : List (Val K))
    (h : ∀ k : Nat, ∀ x, xs[k]? = some x → read l (start + k) = .ok x) :
    scanCells l start xs.length step s = .ok (foldPos step s xs 0) := by
  unfold scanCells
  induction xs using List.reverseRecOn with
  | nil => simp [upTo, foldPos]
  | append_singleton xs x ih =>
    rw [List.length_append, List.length_singleton, upTo_snoc, List.foldlM_append,
      ih (fun k y hy => h k y (by
        rw [List.getElem?_append_left]; · exact hy
        · rw [List.getElem?_eq_some_iff] at hy; exact hy.1)), Outcome.ok_bind]
    rw [List.foldlM_cons, h xs.length x (by simp), Outcome.ok_bind, foldPos_snoc]
    simp only [Outcome.pure_eq, Outcome.ok_bind, List.foldlM_nil, zero_add]

theorem scanPairs_eq {σ : Type} (l : List (Val K)) (start1 start2 : Int) (step : σ → Int → Val K → Val K → σ) (s : σ)
    (xs : List (Val K × Val K))
    (h : ∀ k : Nat, ∀ x, xs[k]? = some x → read l (start1 + k) = .ok x.1 ∧ read l (start2 + k) = .ok x.2) :
    scanPairs l start1 start2 xs.length step s = .ok (foldPos (fun s i p => step s i p.1 p.2) s xs 0) := by
  unfold scanPairs
  induction xs using List.reverseRecOn with
  | nil => simp [upTo, foldPos]
  | append_singleton xs x ih =>
    rw [List.length_append, List.length_singleton, upTo_snoc, List.foldlM_append,
      ih (fun k y hy => h k y (by
        rw [List.getElem?_append_left]; · exact hy
        · rw [List.getElem?_eq_some_iff] at hy; exact hy.1)), Outcome.ok_bind]
    rw [List.foldlM_cons, (h xs.length x (by simp)).1, Outcome.ok_bind, (h xs.length x (by simp)).2, Outcome.ok_bind,
      foldPos_snoc]
    simp only [Outcome.pure_eq, Outcome.ok_bind, List.foldlM_nil, zero_add]

end Mx
end LDT
