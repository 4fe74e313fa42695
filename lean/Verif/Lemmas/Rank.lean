import Verif.Model.Rank
import Verif.Lemmas.Sort
import Verif.Lemmas.Varma
import Verif.Props.MatrixStat
import Verif.Props.Dataset
import Verif.Props.MatrixCols
/-!
# Sorting columns and finding ranks
-/
namespace LDT
namespace Mx
open Arr (Val)

section
variable {α : Type}

/-- `n` cells from position `a` on. -/
def slice (l : List α) (a n : Nat) : List α := (l.drop a).take n

theorem getElem?_slice (l : List α) (a n k : Nat) : (slice l a n)[k]? = if k < n then l[a + k]? else none := by
  unfold slice
  rw [List.getElem?_take]
  split_ifs with h
  · rw [List.getElem?_drop]
  · rfl

theorem isColumn_slice {m : Mat α} (w : m.Wf) {j : Int} (h0 : 0 ≤ j) (h1 : j < m.cols) {xs : List α} (h : IsColumn m j xs) :
    slice m.mem (m.rows * j).toNat m.rows.toNat = xs := by
  have hr := w.rows_nonneg
  have hp : 0 ≤ m.rows * j := mul_nonneg hr h0
  have hl := h.len
  apply List.ext_getElem?
  intro k
  rw [getElem?_slice]
  split_ifs with hk
  · have hkl : k < xs.length := by omega
    have := isColumn_read h k xs[k] (List.getElem?_eq_getElem hkl)
    rw [read_eq_ok] at this
    rw [List.getElem?_eq_getElem hkl, ← this.2]
    congr 1; omega
  · rw [List.getElem?_eq_none (by omega)]

theorem isColumn_of_slice {m : Mat α} (w : m.Wf) {j : Int} (h0 : 0 ≤ j) (h1 : j < m.cols) {xs : List α}
    (h : slice m.mem (m.rows * j).toNat m.rows.toNat = xs) : IsColumn m j xs := by
  obtain ⟨ys, hy⟩ := exists_isColumn w h0 h1
  rw [isColumn_slice w h0 h1 hy] at h
  rwa [← h]

theorem column_end {m : Mat α} (w : m.Wf) {j : Int} (h0 : 0 ≤ j) (h1 : j < m.cols) : m.rows * j + m.rows ≤ m.mem.length := by
  have := w.size
  nlinarith [w.rows_nonneg]

end

variable {K : Type} [LinearOrder K]

theorem sortRange_spec (asc : Bool) (l : List (Val K)) (a n : Int) (ha : 0 ≤ a) (hn : 0 ≤ n) (h : a + n ≤ l.length)
    (hs : Arr.swo (slice l a.toNat n.toNat) = true) :
    ∃ l', sortRange asc l a n = .ok l' ∧ l'.length = l.length ∧
      slice l' a.toNat n.toNat = Arr.stableSort (cellLt asc) (slice l a.toNat n.toNat) ∧
      ∀ k : Nat, ((k : Int) < a ∨ a + n ≤ k) → l'[k]? = l[k]? := by
  have hp := (Arr.stableSort_perm (cellLt asc) (slice l a.toNat n.toNat)).length_eq
  have hl : (slice l a.toNat n.toNat).length = n.toNat := by
    unfold slice; rw [List.length_take, List.length_drop]; omega
  refine ⟨l.take a.toNat ++ Arr.stableSort (cellLt asc) (slice l a.toNat n.toNat) ++ l.drop (a + n).toNat, ?_, ?_, ?_, ?_⟩
  · unfold sortRange
    rw [if_pos ⟨ha, hn, h⟩, if_pos (show Arr.swo ((l.drop a.toNat).take n.toNat) = true from hs)]; rfl
  · rw [List.length_append, List.length_append, hp, hl, List.length_take, List.length_drop]; omega
  · have e : (l.take a.toNat).length = a.toNat := by rw [List.length_take]; omega
    have g : ∀ q : List (Val K), q.length = n.toNat → slice (l.take a.toNat ++ q ++ l.drop (a + n).toNat) a.toNat n.toNat = q := by
      intro q hq
      unfold slice
      rw [List.append_assoc, List.drop_left' e, List.take_left' hq]
    exact g _ (hp.trans hl)
  · intro k hk
    rcases hk with hk | hk
    · rw [List.append_assoc, List.getElem?_append_left (by rw [List.length_take]; omega), List.getElem?_take,
        if_pos (by omega)]
    · have e : (l.take a.toNat ++ Arr.stableSort (cellLt asc) (slice l a.toNat n.toNat)).length = (a + n).toNat := by
        rw [List.length_append, hp, hl, List.length_take]; omega
      rw [List.getElem?_append_right (by rw [e]; omega), e, List.getElem?_drop]
      congr 1; omega

/-- A column that a C++ sort accepts: no missing cell, or nothing to compare. -/
def Sortable (xs : List (Val K)) : Prop := none ∉ xs ∨ ∀ x y, some x ∈ xs → some y ∈ xs → x = y

theorem swo_iff (xs : List (Val K)) : Arr.swo xs = true ↔ Sortable xs := by
  unfold Arr.swo Sortable
  rw [Bool.or_eq_true, List.all_eq_true, List.all_eq_true]
  apply or_congr
  · constructor
    · intro h hn
      exact absurd (h none hn) (by simp)
    · intro h x hx
      cases x with
      | none => exact absurd hx h
      | some x => rfl
  · constructor
    · intro h x y hx hy
      have h1 := List.all_eq_true.1 (h _ hx) _ hy
      have h2 := List.all_eq_true.1 (h _ hy) _ hx
      simp [Arr.vlt] at h1 h2
      exact le_antisymm h2 h1
    · intro h x hx
      rw [List.all_eq_true]
      intro y hy
      cases x <;> cases y <;> simp [Arr.vlt]
      exact le_of_eq (h _ _ hy hx)

theorem sortColumn_spec (asc : Bool) {d : Mat (Val K)} (w : d.Wf) {j : Int} (h0 : 0 ≤ j) (h1 : j < d.cols) {xs : List (Val K)}
    (hx : IsColumn d j xs) :
    (Sortable xs → ∃ d', sortColumn asc d.rows d j = .ok d' ∧ SameShape d d' ∧ IsColumn d' j (Arr.stableSort (cellLt asc) xs) ∧
      ∀ c ys, 0 ≤ c → c < d.cols → c ≠ j → IsColumn d c ys → IsColumn d' c ys) ∧
    (¬ Sortable xs → sortColumn asc d.rows d j = .ub) := by
  have hr := w.rows_nonneg
  have he := column_end w h0 h1
  have hp : 0 ≤ d.rows * j := mul_nonneg hr h0
  have hsl := isColumn_slice w h0 h1 hx
  constructor
  · intro hs
    obtain ⟨l', e, ll, ls, lo⟩ := sortRange_spec asc d.mem (d.rows * j) d.rows hp hr he (by rw [hsl]; exact (swo_iff _).2 hs)
    have hsh : SameShape d { d with data := some l' } := by
      refine ⟨rfl, rfl, by rw [w.alloc]; rfl, ll, fun k hk => lo k ?_⟩
      right
      nlinarith
    refine ⟨_, by unfold sortColumn; rw [e]; rfl, hsh, ?_, ?_⟩
    · apply isColumn_of_slice (hsh.wf w) h0 h1
      show slice l' _ _ = _
      rw [ls, hsl]
    · intro c ys hc0 hc1 hcj hy
      apply isColumn_of_slice (hsh.wf w) hc0 hc1
      rw [← isColumn_slice w hc0 hc1 hy]
      apply List.ext_getElem?
      intro k
      rw [getElem?_slice, getElem?_slice]
      split_ifs with hk
      · apply lo
        have hk' : (k : Int) < d.rows := by have : k < d.rows.toNat := hk; omega
        have hpc : 0 ≤ d.rows * c := mul_nonneg hr hc0
        show (((d.rows * c).toNat + k : Nat) : Int) < _ ∨ _
        push_cast
        rw [Int.toNat_of_nonneg hpc]
        rcases lt_or_gt_of_ne hcj with h | h
        · left; nlinarith
        · right; nlinarith
      · rfl
  · intro hs
    unfold sortColumn sortRange
    rw [if_pos ⟨hp, hr, he⟩, if_neg (by
      rw [show (d.mem.drop (d.rows * j).toNat).take d.rows.toNat = xs from hsl, swo_iff]; exact hs)]
    rfl

/-- `Matrix::Sort` sorts every column. -/
theorem sort_spec (m storage : Mat (Val K)) (asc : Bool) (w : m.Wf) (ws : storage.Wf) (hr : storage.rows = m.rows)
    (hc : storage.cols = m.cols) (hs : ∀ j xs, 0 ≤ j → j < m.cols → IsColumn m j xs → Sortable xs) :
    ∃ r, m.sort storage asc = .ok r ∧ SameShape storage r ∧
      ∀ j xs, 0 ≤ j → j < m.cols → IsColumn m j xs → IsColumn r j (Arr.stableSort (cellLt asc) xs) := by
  obtain ⟨d0, e0, s0, v0⟩ := copyTo00_spec m storage w ws hr hc
  obtain ⟨r, e, sr, vr⟩ := loop_inv (a := 0) (b := m.cols) w.cols_nonneg (sortColumn asc m.rows)
    (fun j d => SameShape storage d ∧ ∀ c xs, 0 ≤ c → c < m.cols → IsColumn m c xs →
      IsColumn d c (if c < j then Arr.stableSort (cellLt asc) xs else xs)) (s := d0)
    ⟨s0, by
      intro c xs h0 h1 hx
      rw [if_neg (by omega)]
      refine ⟨by rw [hx.len, s0.rows, hr], fun k x hk => ?_⟩
      rw [v0 _ _ ⟨by omega, ?_, h0, h1⟩]
      · exact hx.cell k x hk
      · have := List.getElem?_eq_some_iff.1 hk
        obtain ⟨h, -⟩ := this
        rw [← hx.len]; omega⟩
    (by
      intro j hj0 hj1 d ⟨sd, vd⟩
      obtain ⟨xs, hx⟩ := exists_isColumn w hj0 hj1
      have hd := vd j xs hj0 hj1 hx
      rw [if_neg (by omega)] at hd
      have er : d.rows = m.rows := by rw [sd.rows, hr]
      have ec : d.cols = m.cols := by rw [sd.cols, hc]
      obtain ⟨d', e', s', v', o'⟩ := (sortColumn_spec asc (sd.wf ws) hj0 (by rw [ec]; exact hj1) hd).1 (hs j xs hj0 hj1 hx)
      rw [er] at e'
      refine ⟨d', e', sd.trans s', fun c ys h0 h1 hy => ?_⟩
      by_cases hcj : c = j
      · subst hcj
        rw [if_pos (by omega)]
        rw [isColumn_unique hy hx]; exact v'
      · have := o' c _ h0 (by rw [ec]; exact h1) hcj (vd c ys h0 h1 hy)
        by_cases hlt : c < j
        · rw [if_pos hlt] at this; rw [if_pos (by omega)]; exact this
        · rw [if_neg hlt] at this; rw [if_neg (by omega)]; exact this)
  refine ⟨r, ?_, sr, fun j xs h0 h1 hx => ?_⟩
  · unfold Mat.sort
    rw [if_neg (by rw [hr, hc]; simp)]
    show (_ >>= _) = _
    rw [e0, Outcome.ok_bind]; exact e
  · have := vr j xs h0 h1 hx
    rwa [if_pos h1] at this

/-- The comparison of numbers. -/
def numLt (asc : Bool) (x y : K) : Bool := if asc then decide (x < y) else decide (y < x)

theorem insStable_map (asc : Bool) (a : K) (l : List K) :
    Arr.insStable (cellLt asc) (some a) (l.map some) = (Arr.insStable (numLt asc) a l).map some := by
  induction l with
  | nil => rfl
  | cons b l ih =>
    have : cellLt asc (some b) (some a) = numLt asc b a := by unfold cellLt numLt; cases asc <;> rfl
    rw [List.map_cons, Arr.insStable, Arr.insStable, this, ih]
    split_ifs <;> rfl

theorem stableSort_map (asc : Bool) (l : List K) :
    Arr.stableSort (cellLt asc) (l.map some) = (Arr.stableSort (numLt asc) l).map some := by
  induction l with
  | nil => rfl
  | cons a l ih => rw [List.map_cons, Arr.stableSort, Arr.stableSort, ih, insStable_map]

/-- A sorted list of numbers. -/
theorem stableSort_numbers (asc : Bool) (l : List K) :
    ∃ l' : List K, Arr.stableSort (cellLt asc) (l.map some) = l'.map some ∧ l'.Perm l ∧
      l'.Pairwise (fun x y => numLt asc y x = false) := by
  refine ⟨_, stableSort_map asc l, Arr.stableSort_perm _ _, ?_⟩
  refine (Arr.stableSort_pairwise (numLt asc) (fun _ _ => True) ?_ ?_ l (List.pairwise_of_forall (fun _ _ => trivial))).imp
    (fun h => h.1)
  · intro a b c h1 h2
    unfold numLt at *
    cases asc <;> simp at * <;> exact le_trans (by assumption) (by assumption)
  · intro a b h
    unfold numLt at *
    cases asc <;> simp at * <;> exact le_of_lt h

/-- In a sorted list a number is found first behind all the numbers before it. -/
theorem first_of_sorted (asc : Bool) (v : K) (l : List K) (hp : l.Pairwise (fun x y => numLt asc y x = false)) (hv : v ∈ l) :
    l[l.countP (fun y => numLt asc y v)]? = some v ∧ ∀ k < l.countP (fun y => numLt asc y v), l[k]? ≠ some v := by
  induction l with
  | nil => cases hv
  | cons a l ih =>
    rw [List.pairwise_cons] at hp
    by_cases ha : numLt asc a v = true
    · have hne : a ≠ v := by
        rintro rfl
        unfold numLt at ha; cases asc <;> simp at ha
      have hv' : v ∈ l := (List.mem_cons.1 hv).resolve_left (Ne.symm hne)
      obtain ⟨h1, h2⟩ := ih hp.2 hv'
      rw [List.countP_cons_of_pos (p := fun y => numLt asc y v) ha]
      refine ⟨by rw [List.getElem?_cons_succ]; exact h1, fun k hk => ?_⟩
      cases k with
      | zero => rw [List.getElem?_cons_zero]; simpa using hne
      | succ k => rw [List.getElem?_cons_succ]; exact h2 k (by omega)
    · have hav : a = v := by
        rcases List.mem_cons.1 hv with h | h
        · exact h.symm
        · have := hp.1 v h
          unfold numLt at *
          cases asc <;> simp at * <;> exact le_antisymm (by assumption) (by assumption)
      subst hav
      rw [List.countP_cons_of_neg (p := fun y => numLt asc y a) ha]
      have : l.countP (fun y => numLt asc y a) = 0 := by
        rw [List.countP_eq_zero]
        intro y hy
        rw [hp.1 y hy]; simp
      rw [this]
      simp

end Mx

namespace Rk
open Mx
open Arr (Val)

variable {K : Type} [Field K] [LinearOrder K]

theorem firstEqual_find (l : List (Val K)) (r : Int) (v : Val K) (g : Int → Val K) (ks : List Int)
    (h : ∀ k ∈ ks, read l (r + k) = .ok (g k)) : firstEqual l r v ks = .ok (ks.find? (fun k => veq (g k) v)) := by
  induction ks with
  | nil => rfl
  | cons k ks ih =>
    unfold firstEqual
    rw [h k (by simp), Outcome.ok_bind, List.find?_cons]
    cases hb : veq (g k) v with
    | true => rfl
    | false => exact ih (fun k hk => h k (List.mem_cons_of_mem _ hk))

theorem veq_some (a : Val K) (x : K) : veq a (some x) = true ↔ a = some x := by
  cases a <;> simp [veq]

/-- Searching a sorted column. -/
theorem firstEqual_sorted (asc : Bool) {s : Mat (Val K)} (w : s.Wf) {j : Int} (l : List K)
    (hs : IsColumn s j (l.map some)) (hp : l.Pairwise (fun x y => numLt asc y x = false)) {v : K} (hv : v ∈ l) :
    firstEqual s.mem (j * s.rows) (some v) (upTo 0 s.rows) = .ok (some ((l.countP (fun y => numLt asc y v) : Nat) : Int)) := by
  have hlen := hs.len
  rw [List.length_map] at hlen
  have hread : ∀ k ∈ upTo 0 s.rows, read s.mem (j * s.rows + k) = .ok ((l.map some)[k.toNat]?.getD none) := by
    intro k hk
    rw [mem_upTo] at hk
    have hkl : k.toNat < (l.map (some : K → Val K)).length := by rw [List.length_map]; omega
    have := isColumn_read hs k.toNat _ (List.getElem?_eq_getElem hkl)
    rw [show ((k.toNat : Nat) : Int) = k by omega] at this
    rw [mul_comm, this, List.getElem?_eq_getElem hkl]; rfl
  rw [firstEqual_find _ _ _ _ _ hread]
  obtain ⟨h1, h2⟩ := first_of_sorted asc v l hp hv
  congr 1
  rw [List.find?_eq_some_iff_getElem]
  have hc : l.countP (fun y => numLt asc y v) < l.length := by
    rw [List.getElem?_eq_some_iff] at h1
    exact h1.1
  have key : ∀ k : Nat, ((l.map some)[k]?.getD none : Val K) = l[k]? := by
    intro k
    rw [List.getElem?_map]
    cases l[k]? <;> rfl
  refine ⟨by rw [veq_some, key]; simpa using h1, l.countP (fun y => numLt asc y v), by rw [length_upTo]; omega, ?_, ?_⟩
  · apply Option.some.inj
    rw [← List.getElem?_eq_getElem, getElem?_upTo, if_pos (by omega)]; simp
  · intro k hk
    have e : (upTo 0 s.rows)[k]'(by rw [length_upTo]; omega) = (k : Int) := by
      apply Option.some.inj
      rw [← List.getElem?_eq_getElem, getElem?_upTo, if_pos (by omega)]; simp
    rw [e, Bool.not_eq_true', ← Bool.not_eq_true, veq_some, key]
    simpa using h2 k hk

theorem firstEqual_nan (l : List (Val K)) (r : Int) (g : Int → Val K) (ks : List Int)
    (h : ∀ k ∈ ks, read l (r + k) = .ok (g k)) : firstEqual l r none ks = .ok none := by
  rw [firstEqual_find l r none g ks h]
  congr 1
  rw [List.find?_eq_none]
  intro k _
  cases g k <;> simp [veq]

end Rk
end LDT
