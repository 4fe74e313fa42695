import Verif.Lemmas.Variable
/-!
# C10 trimming, C13 tables of variables
-/
namespace LDT
namespace Var
open Fq Arr
variable {K : Type}

/-- Observation `i` of the variable is `x` and its date is `g` (`i` steps after the start). -/
def ObsAt (v : Variable K) (i : Nat) (x : K) (g : Freq) : Prop :=
  v.data[i]? = some (some x) ∧ v.start.next i = .ok g

/-! ## C10 -/

/-- **C10**: trimming a variable with at least one observation removes exactly `s` leading and the trailing
cells after `e`, all of them missing; the first and last remaining cells are observed; every remaining cell
keeps its value, and its date (the same period). -/
theorem C10_trim (v : Variable K) (hw : v.start.WF) (hobs : ∃ i, Obs v.data i) :
    ∃ (v' : Variable K) (s e : Nat), v.trim = .ok (v', ⟨s, e⟩) ∧ v'.name = v.name ∧ s ≤ e ∧ e < v.data.length ∧
      v'.data.length = e - s + 1 ∧ Obs v'.data 0 ∧ Obs v'.data (e - s) ∧
      (∀ i, i < v.data.length → (i < s ∨ e < i) → Miss v.data i) ∧
      (∀ j, j ≤ e - s → v'.data[j]? = v.data[s + j]? ∧
        ∃ g g', v.start.next ((s + j : Nat) : Int) = .ok g ∧ v'.start.next (j : Int) = .ok g' ∧ g'.Same g) := by
  have hne : v.data ≠ [] := by rintro h; obtain ⟨i, x, hx⟩ := hobs; rw [h] at hx; simp at hx
  obtain ⟨h1, h2, h3, h4, h5, h6, h7⟩ := getRange_of_obs v.data hne hobs
  obtain ⟨mm, hm, -⟩ := C09_missing_flag v.data hne
  generalize hS : scanStart v.data = s at *
  generalize hE : scanEnd v.data v.data.length = e at *
  have hvalid : (getRange v.data).isNotValid = false := (C09_range_tight v.data hobs).1
  have hmiss : ∀ i, i < v.data.length → (i < s ∨ e < i) → Miss v.data i := by
    rintro i hi (h | h)
    · exact h6 i h
    · exact h7 i h hi
  have hcount : (getRange v.data).count = (e : Int) - s + 1 := by rw [h1]; rfl
  by_cases hc : ((e : Int) - s + 1) ≠ v.data.length
  · obtain ⟨g, hg, -⟩ := freq_next v.start hw s
    refine ⟨{ v with data := (v.data.take (e + 1)).drop s, start := g }, s, e, ?_, rfl, h2, h3, ?_, ?_, ?_, hmiss, ?_⟩
    · unfold Variable.trim
      rw [hm]
      simp only [Outcome.ok_bind, hvalid, hcount]
      rw [h1]
      simp only [Bool.false_eq_true, if_false, if_pos hc, hg, Outcome.ok_bind, Outcome.pure_eq]
      congr 1
    · simp; omega
    · obtain ⟨x, hx⟩ := h4
      exact ⟨x, by simp only [List.getElem?_drop, Nat.add_zero, List.getElem?_take]; rw [if_pos (by omega), hx]⟩
    · obtain ⟨x, hx⟩ := h5
      refine ⟨x, ?_⟩
      simp only [List.getElem?_drop, List.getElem?_take]; rw [if_pos (by omega), ← hx]; congr 1; omega
    · intro j hj
      refine ⟨by simp only [List.getElem?_drop, List.getElem?_take]; rw [if_pos (by omega)], ?_⟩
      obtain ⟨f1, f2, f3, e1, e2, e3, es⟩ := C01_next_add v.start hw s j
      rw [hg] at e1; cases e1
      exact ⟨f3, f2, by rw [← e3]; push_cast; rfl, e2, es⟩
  · have hc : ((e : Int) - s + 1) = v.data.length := by simpa using hc
    have hs0 : s = 0 := by omega
    subst hs0
    refine ⟨v, 0, e, ?_, rfl, h2, h3, by omega, h4, by simpa using h5, hmiss, ?_⟩
    · unfold Variable.trim
      rw [hm]
      simp only [Outcome.ok_bind, hvalid, hcount]
      rw [h1]
      simp only [Bool.false_eq_true, if_false, ne_eq, hc, not_true_eq_false, Outcome.pure_eq]
    · intro j hj
      refine ⟨by simp, ?_⟩
      obtain ⟨g, hg, -⟩ := freq_next v.start hw (j : Int)
      refine ⟨g, g, by simpa using hg, hg, ?_⟩
      cases g <;> first | rfl | exact ⟨rfl, rfl, fun _ => rfl⟩

/-- **C10**: a non-empty variable without any observation is left unchanged. -/
theorem C10_all_missing (v : Variable K) (hne : v.data ≠ []) (h : ∀ i, i < v.data.length → Miss v.data i) :
    ∃ r, v.trim = .ok (v, r) ∧ r.isNotValid = true := by
  obtain ⟨mm, hm, -⟩ := C09_missing_flag v.data hne
  have hv := (C09_invalid_iff_partial v.data hne).2 h
  refine ⟨getRange v.data, ?_, hv⟩
  unfold Variable.trim
  rw [hm]
  simp [hv]

/-- Trimming a variable without data reads outside the array. -/
theorem C10_empty_undefined (v : Variable K) (h : v.data = []) : v.trim = .ub := by
  unfold Variable.trim getRangeM
  rw [h]; rfl

/-- Non-vacuity of `C10_trim`, on a quarterly variable with leading and trailing missing values. -/
example : Variable.trim (⟨"x".toList, [none, none, some 3, none, some 4, none], .year ⟨.quarterly, 2000, 4, 4, 1⟩⟩ : Variable Rat)
    = .ok (⟨"x".toList, [some 3, none, some 4], .year ⟨.quarterly, 2001, 4, 2, 1⟩⟩, ⟨2, 4⟩) := by decide +kernel

/-! ## C13 -/

/-- **C13**: variables on a common grid (all starts are some number of steps away from one frequency `f0`)
give a table which
* starts at the start of one variable and not later than any start,
* ends at the end of one variable and not earlier than any end,
* has the names in order and exactly `numObs` rows per column,
* contains every cell of every variable in the row of its own date, and
* is missing in every other cell.

Partial: `f0` is not a list and not a daily-in-week range of a single weekday, where the order or the difference
of the frequencies is wrong (C02, C03); variables whose starts are not on one grid (e.g. two weekly series
starting at different weekdays) are accepted and mixed up: `C13_violated_off_grid`. -/
theorem C13_table_partial [Zero K] (f0 : Freq) (hf : Grid f0) (v0 : Variable K) (vs : List (Variable K))
    (hv : ∀ v ∈ v0 :: vs, ∃ a, f0.next a = .ok v.start)
    (hsome : ∃ v ∈ v0 :: vs, v.data ≠ []) :
    ∃ t : Table K, Table.make (v0 :: vs) = .ok t ∧
      t.names = (v0 :: vs).map (·.name) ∧ t.data.length = t.numObs * (v0 :: vs).length ∧
      (∃ v ∈ v0 :: vs, v.start = t.start) ∧
      (∀ v ∈ v0 :: vs, ∃ k : Nat, t.start.next k = .ok v.start) ∧
      (∃ last, t.start.next t.numObs = .ok last ∧ (∃ v ∈ v0 :: vs, v.endFreq = .ok last) ∧
        ∀ v ∈ v0 :: vs, ∃ (k : Nat) (e : Freq), v.endFreq = .ok e ∧ e.next k = .ok last) ∧
      (∀ (i : Nat) (v : Variable K), (v0 :: vs)[i]? = some v → ∀ (j : Nat) (x : Val K), v.data[j]? = some x →
        ∃ r, r < t.numObs ∧ (∃ g, t.start.next r = .ok g ∧ v.start.next j = .ok g) ∧ t.cell i r = some x) ∧
      (∀ (i : Nat) (v : Variable K), (v0 :: vs)[i]? = some v → ∀ r, r < t.numObs →
        (∀ j g, j < v.data.length → v.start.next (j : Int) = .ok g → t.start.next r ≠ .ok g) →
        t.cell i r = some none) := by
  obtain ⟨a0, ha0⟩ := hv v0 (by simp)
  obtain ⟨e0, he0, he0'⟩ := grid_end hf v0 ha0
  obtain ⟨m, M, s, e, k1, k2, k3, k4, k5, k6, k7, k8⟩ := boundLoop_spec hf (v0 :: vs) hv a0 (a0 + v0.data.length)
    v0.start e0 ha0 he0'
  have k7' : ∃ v ∈ v0 :: vs, f0.next m = .ok v.start := by
    rcases k7 with rfl | h
    · exact ⟨v0, by simp, ha0⟩
    · exact h
  have k8' : ∃ v ∈ v0 :: vs, ∃ a, f0.next a = .ok v.start ∧ M = a + v.data.length := by
    rcases k8 with h | h
    · exact ⟨v0, by simp, a0, ha0, h⟩
    · exact h
  have hpos : m < M := by
    obtain ⟨v, hv', hd⟩ := hsome
    obtain ⟨a, ha⟩ := hv v hv'
    have := k6 v hv' a ha
    have := List.length_pos_iff.2 hd
    omega
  obtain ⟨cells, c1, c2, c3⟩ := columns_spec hf k2 k3 (v0 :: vs) (by
    intro v hv'
    obtain ⟨a, ha⟩ := hv v hv'
    exact ⟨a, ha, k6 v hv' a ha⟩)
  have hw : writeAll ((M - m).toNat * (v0 :: vs).length) cells = .ok cells := by
    unfold writeAll
    rw [if_pos (by omega), c2]; simp
  -- dates relative to the start of the table
  have hrow : ∀ r : Int, ∃ g, s.next r = .ok g ∧ f0.next (m + r) = .ok g := by
    intro r
    obtain ⟨g, hg⟩ := grid_next hf (m + r)
    exact ⟨g, grid_next_add hf k2 hg, hg⟩
  refine ⟨⟨(v0 :: vs).map (·.name), s, (M - m).toNat, cells⟩, ?_, rfl, c2, ?_, ?_, ?_, ?_, ?_⟩
  · unfold Table.make
    simp only [he0, Outcome.ok_bind, k1, grid_minus hf k3 k2, c1, hw, Outcome.pure_eq]
    rw [if_neg (by omega)]
  · obtain ⟨v, hv', h⟩ := k7'
    rw [k2] at h; cases h
    exact ⟨v, hv', rfl⟩
  · intro v hv'
    obtain ⟨a, ha⟩ := hv v hv'
    have := k6 v hv' a ha
    refine ⟨(a - m).toNat, ?_⟩
    have e1 : (((a - m).toNat : Nat) : Int) = a - m := by omega
    simp only [e1]
    exact grid_next_add hf k2 (by rw [show m + (a - m) = a by omega]; exact ha)
  · refine ⟨e, ?_, ?_, ?_⟩
    · have e1 : (((M - m).toNat : Nat) : Int) = M - m := by omega
      simp only [e1]
      exact grid_next_add hf k2 (by rw [show m + (M - m) = M by omega]; exact k3)
    · obtain ⟨v, hv', a, ha, hM⟩ := k8'
      obtain ⟨g, g1, g2⟩ := grid_end hf v ha
      rw [← hM, k3] at g2; cases g2
      exact ⟨v, hv', g1⟩
    · intro v hv'
      obtain ⟨a, ha⟩ := hv v hv'
      have := k6 v hv' a ha
      obtain ⟨g, g1, g2⟩ := grid_end hf v ha
      refine ⟨(M - (a + v.data.length)).toNat, g, g1, ?_⟩
      have e1 : (((M - (a + v.data.length)).toNat : Nat) : Int) = M - (a + v.data.length) := by omega
      rw [e1]
      exact grid_next_add hf g2 (by rw [show a + v.data.length + (M - (a + v.data.length)) = M by omega]; exact k3)
  · intro i v hi j x hx
    have hv' := List.mem_of_getElem? hi
    obtain ⟨a, ha⟩ := hv v hv'
    have hb := k6 v hv' a ha
    have hj : j < v.data.length := (List.getElem?_eq_some_iff.1 hx).1
    refine ⟨(a + j - m).toNat, by simp; omega, ?_, ?_⟩
    · obtain ⟨g, g1, g2⟩ := hrow ((a + j - m).toNat : Nat)
      have e1 : m + (((a + j - m).toNat : Nat) : Int) = a + j := by omega
      rw [e1] at g2
      exact ⟨g, g1, grid_next_add hf ha g2⟩
    · show cells[_]? = _
      rw [c3 i v hi a ha _ (by omega), if_pos (by omega)]
      have e1 : (m + (((a + j - m).toNat : Nat) : Int) - a).toNat = j := by omega
      rw [e1, hx]; rfl
  · intro i v hi r hr hno
    have hr : r < (M - m).toNat := hr
    have hv' := List.mem_of_getElem? hi
    obtain ⟨a, ha⟩ := hv v hv'
    show cells[_]? = _
    rw [c3 i v hi a ha r hr]
    by_cases hle : a ≤ m + r
    · rw [if_pos hle]
      by_cases hlt : (m + r - a).toNat < v.data.length
      · exfalso
        obtain ⟨g, g1, g2⟩ := hrow r
        refine hno (m + r - a).toNat g hlt ?_ g1
        apply grid_next_add hf ha
        rw [← g2]; congr 1; omega
      · rw [List.getElem?_eq_none (by omega)]; rfl
    · rw [if_neg hle]

/-- **C13**: no variables, or no observations at all, are rejected. -/
theorem C13_empty [Zero K] : Table.make ([] : List (Variable K)) = .throws := rfl

/-- **C13**: variables of different classes are rejected. -/
theorem C13_mixed_class [Zero K] (v0 v1 : Variable K) (vs : List (Variable K)) (hw : v0.start.WF) (hl : v0.start.NotList)
    (hc : v0.start.cls ≠ v1.start.cls) : Table.make (v0 :: v1 :: vs) = .throws := by
  obtain ⟨e0, he0, -⟩ := freq_next v0.start hw v0.data.length
  have he0 : v0.endFreq = .ok e0 := he0
  obtain ⟨f1, f2, h1, h2, h3⟩ := C03_compare_next_partial v0.start hw hl 0 0
  rw [h1] at h2; cases h2
  obtain ⟨g, g1, g2⟩ := C01_next_zero v0.start hw
  rw [h1] at g1; cases g1
  have hf1 : f1 = v0.start := by
    rcases same_cases f1 v0.start g2 with h | ⟨x, y, rfl, hy, -⟩ | ⟨x, y, rfl, hy, -⟩
    · exact h
    · rw [hy] at hl; exact absurd hl (by simp [Freq.NotList])
    · rw [hy] at hl; exact absurd hl (by simp [Freq.NotList])
  subst hf1
  obtain ⟨a1, a2, b1, b2, b3⟩ := C03_compare_next_partial v0.start hw hl v0.data.length v0.data.length
  rw [show v0.start.next v0.data.length = .ok e0 from he0] at b1 b2
  cases b1; cases b2
  have hs0 : boundStep (v0.start, e0) v0 = .ok (v0.start, e0) := by
    unfold boundStep Freq.isNewerThan Freq.isOlderThan
    simp [h3, he0, b3]
  have hs1 : boundStep (v0.start, e0) v1 = .throws := by
    unfold boundStep Freq.isNewerThan Freq.compareTo checkClassEquality
    simp [hc]
  unfold Table.make
  simp only [he0, Outcome.ok_bind, boundLoop, hs0, hs1, Outcome.throws_bind]

/-- C13 is false for variables of one class that are not on one grid: three weekly series, the second
starting on another weekday.  The second column receives one cell only, so the third variable is written
one cell too early: its first observation (20) lands in the second column, its second observation in row 0 of
its own column, and the last cell is an invented 0. -/
theorem C13_violated_off_grid :
    Table.make ([⟨"a".toList, [some 1, some 2], .week ⟨.weekly, 2451600, DRange.default, 1⟩⟩,
                 ⟨"b".toList, [some 10], .week ⟨.weekly, 2451603, DRange.default, 1⟩⟩,
                 ⟨"c".toList, [some 20, some 21], .week ⟨.weekly, 2451600, DRange.default, 1⟩⟩] : List (Variable Rat))
      = .ok ⟨["a".toList, "b".toList, "c".toList], .week ⟨.weekly, 2451600, DRange.default, 1⟩, 2,
             [some 1, some 2, some 10, some 20, some 21, some 0]⟩ := by decide +kernel

/-- C13 is false for lists: outside the list an end compares by a stale item, so the latest end is not found
and a variable covering the whole list does not fit next to a shorter one (an exception from `at`). -/
theorem C13_violated_list :
    Table.make ([⟨"a".toList, [some 1], .listS ⟨"A".toList, some ["A".toList, "B".toList, "C".toList], 0⟩⟩,
                 ⟨"b".toList, [some 2, some 3, some 4],
                   .listS ⟨"A".toList, some ["A".toList, "B".toList, "C".toList], 0⟩⟩] : List (Variable Rat))
      = .throws := by decide +kernel

/-- Non-vacuity of `C13_table_partial`: two monthly variables with different starts. -/
example : Table.make ([⟨"a".toList, [some 1, some 2], .year ⟨.monthly, 2000, 12, 12, 1⟩⟩,
                       ⟨"b".toList, [some 3], .year ⟨.monthly, 2001, 12, 2, 1⟩⟩] : List (Variable Rat))
      = .ok ⟨["a".toList, "b".toList], .year ⟨.monthly, 2000, 12, 12, 1⟩, 3,
             [some 1, some 2, none, none, none, some 3]⟩ := by decide +kernel

example : Grid (.year ⟨.monthly, 2000, 12, 12, 1⟩) := ⟨⟨rfl, by decide, by decide, by decide⟩, trivial, trivial⟩

end Var
end LDT
