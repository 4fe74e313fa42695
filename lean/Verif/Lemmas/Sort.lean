import Verif.Model.Sort
import Mathlib.Data.List.Sort
import Mathlib.Data.List.Range
/-! # Stable sorting -/
namespace LDT
namespace Arr

theorem insStable_perm {α : Type} (lt : α → α → Bool) (a : α) (l : List α) :
    (insStable lt a l).Perm (a :: l) := by
  induction l with
  | nil => rfl
  | cons b l ih =>
    unfold insStable
    split
    · exact (List.Perm.cons b ih).trans (List.Perm.swap a b l)
    · rfl

theorem stableSort_perm {α : Type} (lt : α → α → Bool) (l : List α) : (stableSort lt l).Perm l := by
  induction l with
  | nil => rfl
  | cons a l ih => exact (insStable_perm lt a _).trans (List.Perm.cons a ih)

/-- Sorted by the comparison, ties in the order `R`. -/
def StableRel {α : Type} (lt : α → α → Bool) (R : α → α → Prop) (a b : α) : Prop :=
  lt b a = false ∧ (lt a b = false → R a b)

theorem insStable_pairwise {α : Type} (lt : α → α → Bool) (R : α → α → Prop)
    (htrans : ∀ a b c, lt a b = false → lt b c = false → lt a c = false)
    (hasym : ∀ a b, lt a b = true → lt b a = false)
    (a : α) (l : List α) (ha : ∀ b ∈ l, R a b) (hl : l.Pairwise (StableRel lt R)) :
    (insStable lt a l).Pairwise (StableRel lt R) := by
  induction l with
  | nil => simp [insStable]
  | cons b l ih =>
    rw [List.pairwise_cons] at hl
    unfold insStable
    split
    · rename_i h
      rw [List.pairwise_cons]
      refine ⟨?_, ih (fun c hc => ha c (List.mem_cons_of_mem _ hc)) hl.2⟩
      intro c hc
      rw [(insStable_perm lt a l).mem_iff, List.mem_cons] at hc
      rcases hc with rfl | hc
      · exact ⟨hasym _ _ h, fun h' => by simp [h] at h'⟩
      · exact hl.1 c hc
    · rename_i h
      have h : lt b a = false := by simpa using h
      rw [List.pairwise_cons, List.pairwise_cons]
      refine ⟨?_, hl⟩
      intro c hc
      refine ⟨?_, fun _ => ha c hc⟩
      rw [List.mem_cons] at hc
      rcases hc with rfl | hc
      · exact h
      · exact htrans _ _ _ (hl.1 c hc).1 h

theorem stableSort_pairwise {α : Type} (lt : α → α → Bool) (R : α → α → Prop)
    (htrans : ∀ a b c, lt a b = false → lt b c = false → lt a c = false)
    (hasym : ∀ a b, lt a b = true → lt b a = false)
    (l : List α) (hl : l.Pairwise R) : (stableSort lt l).Pairwise (StableRel lt R) := by
  induction l with
  | nil => simp [stableSort]
  | cons a l ih =>
    rw [List.pairwise_cons] at hl
    apply insStable_pairwise lt R htrans hasym
    · intro b hb; exact hl.1 b ((stableSort_perm lt l).mem_iff.1 hb)
    · exact ih hl.2

variable {K : Type} [LinearOrder K]

theorem indexLt_asym (v : List (Val K)) (asc : Bool) (i j : Nat) (h : indexLt v asc i j = true) :
    indexLt v asc j i = false := by
  unfold indexLt at *
  generalize (v[i]?).getD none = a at *
  generalize (v[j]?).getD none = b at *
  cases a <;> cases b <;> cases asc <;> simp_all [vlt] <;> exact le_of_lt h

end Arr
end LDT
