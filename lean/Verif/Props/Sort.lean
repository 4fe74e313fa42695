import Verif.Lemmas.Sort
import Mathlib.Algebra.Order.Field.Rat
/-!
# C32 index sort
-/
namespace LDT
namespace Arr
variable {K : Type} [LinearOrder K]

/-- **C32**: for data without missing values the call succeeds; the result is a permutation of `0..n-1`;
going along the result the values never decrease (never increase in the descending direction) and equal
values keep their original order.  Partial: with missing values the call may be undefined
(`C32_violated_nan`). -/
theorem C32_sort_partial (d : List K) (ascending : Bool) :
    ∃ r, sortIndexes (d.map some) ascending = .ok r ∧ r.Perm (List.range d.length) ∧
      ∀ p q : Nat, p < q → ∀ i j, r[p]? = some i → r[q]? = some j →
        (∃ x y, d[i]? = some x ∧ d[j]? = some y ∧ if ascending then x < y else y < x) ∨
          (d[i]? = d[j]? ∧ i < j) := by
  have hswo : swo (d.map some) = true := by simp [swo]
  refine ⟨stableSort (indexLt (d.map some) ascending) (List.range (d.map some).length),
    by rw [sortIndexes, if_pos hswo], ?_, ?_⟩
  · simpa using stableSort_perm (indexLt (d.map some) ascending) (List.range (d.map some).length)
  -- on indices in range the comparison is that of the values
  · let f : Nat → Val K := fun i => d[i]?
    have hlt : ∀ i j, indexLt (d.map some) ascending i j =
        if ascending then vlt (f i) (f j) else vlt (f j) (f i) := by
      intro i j
      simp only [indexLt, List.getElem?_map, f]
      cases d[i]? <;> cases d[j]? <;> rfl
    -- use a total comparison agreeing on valid indices
    have hmem : ∀ i, i ∈ List.range d.length → ∃ x, d[i]? = some x := by
      intro i hi; exact ⟨_, List.getElem?_eq_getElem (by simpa using hi)⟩
    by_cases hn : d = []
    · subst hn; intro p q _ i j hi; simp [stableSort] at hi
    · obtain ⟨x0, hx0⟩ : ∃ x0, x0 ∈ d := List.exists_mem_of_ne_nil d hn
      let g : Nat → K := fun i => (d[i]?).getD x0
      let lt' : Nat → Nat → Bool := fun i j => if ascending then decide (g i < g j) else decide (g j < g i)
      have hins : ∀ (a : Nat) (l : List Nat), a < d.length → (∀ b ∈ l, b < d.length) →
          insStable (indexLt (d.map some) ascending) a l = insStable lt' a l := by
        intro a l ha hl
        induction l with
        | nil => rfl
        | cons b l ih =>
          have hb := hl b (by simp)
          have e : indexLt (d.map some) ascending b a = lt' b a := by
            rw [hlt]
            simp only [f, g, lt', List.getElem?_eq_getElem ha, List.getElem?_eq_getElem hb, vlt,
              Option.getD_some]
          simp only [insStable, e, ih (fun c hc => hl c (List.mem_cons_of_mem _ hc))]
      have hsort : ∀ l : List Nat, (∀ b ∈ l, b < d.length) →
          stableSort (indexLt (d.map some) ascending) l = stableSort lt' l := by
        intro l hl
        induction l with
        | nil => rfl
        | cons a l ih =>
          simp only [stableSort]
          rw [ih (fun c hc => hl c (List.mem_cons_of_mem _ hc)), hins a _ (hl a (by simp))]
          intro b hb
          exact hl b (List.mem_cons_of_mem _ ((stableSort_perm lt' l).mem_iff.1 hb))
      have hr := hsort (List.range d.length) (by simp)
      rw [List.length_map, hr]
      have hpw := stableSort_pairwise lt' (· < ·)
        (by intro a b c h1 h2
            simp only [lt'] at *
            cases ascending <;> simp_all <;> first | exact le_trans h1 h2 | exact le_trans h2 h1)
        (by intro a b h
            simp only [lt'] at *
            cases ascending <;> simp_all <;> exact le_of_lt h)
        (List.range d.length) (List.pairwise_lt_range)
      intro p q hpq i j hi hj
      have hbound : ∀ (k m : Nat), (stableSort lt' (List.range d.length))[k]? = some m → m < d.length := by
        intro k m hk
        have := List.mem_of_getElem? hk
        simpa using (stableSort_perm lt' (List.range d.length)).mem_iff.1 this
      have hij := (List.pairwise_iff_getElem.1 hpw) p q (List.getElem?_eq_some_iff.1 hi).1
        (List.getElem?_eq_some_iff.1 hj).1 hpq
      rw [(List.getElem?_eq_some_iff.1 hi).2, (List.getElem?_eq_some_iff.1 hj).2] at hij
      have hi' := List.getElem?_eq_getElem (hbound p i hi)
      have hj' := List.getElem?_eq_getElem (hbound q j hj)
      obtain ⟨h1, h2⟩ := hij
      simp only [lt', g, hi', hj', Option.getD_some] at h1 h2
      rw [hi', hj']
      cases ascending
      · simp only [Bool.false_eq_true, if_false, decide_eq_false_iff_not, not_lt] at *
        rcases lt_or_eq_of_le h1 with h | h
        · exact Or.inl ⟨_, _, rfl, rfl, h⟩
        · exact Or.inr ⟨by rw [h], h2 (le_of_eq h.symm)⟩
      · simp only [if_true, decide_eq_false_iff_not, not_lt] at *
        rcases lt_or_eq_of_le h1 with h | h
        · exact Or.inl ⟨_, _, rfl, rfl, h⟩
        · exact Or.inr ⟨by rw [h], h2 (le_of_eq h.symm)⟩

/-- Non-vacuity: ties really occur and keep their order. -/
example : sortIndexes ([some 3, some 1, some 3, some 2] : List (Val Rat)) false = .ok [0, 2, 3, 1] := by
  decide +kernel

/-- A missing value next to two different numbers leaves the comparison without a strict weak order: the
call is then undefined behaviour. -/
theorem C32_violated_nan :
    sortIndexes ([some 3, none, some 1] : List (Val Rat)) true = .ub := by decide +kernel

end Arr
end LDT
