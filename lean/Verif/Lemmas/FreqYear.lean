import Verif.Model.Freq
import Verif.Lemmas.Week
import Mathlib.Tactic.Ring
import Mathlib.Tactic.Linarith
/-! # Lemmas about year-based and day-based carry arithmetic -/
namespace LDT
namespace Fq
open Text Cal

/-- Carry lemma: the C++ forward/backward carry is floor division. -/
theorem carry_pos (p x n : Int) (hp : 0 < p) (hx : 1 ≤ x) (hx2 : x ≤ p) (hn : 0 ≤ n) :
    (if x + n.tmod p > p then (n.tdiv p + 1, x + (n.tmod p - p)) else (n.tdiv p, x + n.tmod p))
      = ((x - 1 + n) / p, (x - 1 + n) % p + 1) := by
  rw [Int.tdiv_eq_ediv_of_nonneg hn, Int.tmod_eq_emod_of_nonneg hn]
  have h0 := Int.mul_ediv_add_emod n p
  have h1 := Int.emod_nonneg n (ne_of_gt hp)
  have h2 := Int.emod_lt_of_pos n hp
  generalize n / p = q at *
  generalize n % p = r at *
  split
  · have e : x - 1 + n = (x - 1 + (r - p)) + p * (q + 1) := by linarith [mul_add p q 1]
    have l0 : 0 ≤ x - 1 + (r - p) := by omega
    have l1 : x - 1 + (r - p) < p := by omega
    rw [e, Int.add_mul_ediv_left _ _ (ne_of_gt hp), Int.add_mul_emod_self_left,
      Int.ediv_eq_zero_of_lt l0 l1, Int.emod_eq_of_lt l0 l1]
    ext <;> grind
  · have e : x - 1 + n = (x - 1 + r) + p * q := by linarith
    have l0 : 0 ≤ x - 1 + r := by omega
    have l1 : x - 1 + r < p := by omega
    rw [e, Int.add_mul_ediv_left _ _ (ne_of_gt hp), Int.add_mul_emod_self_left,
      Int.ediv_eq_zero_of_lt l0 l1, Int.emod_eq_of_lt l0 l1]
    ext <;> grind

theorem carry_neg (p x n : Int) (hp : 0 < p) (hx : 1 ≤ x) (hx2 : x ≤ p) (hn : 0 ≤ n) :
    (if x - n.tmod p ≤ 0 then (-(n.tdiv p) - 1, x - (n.tmod p - p)) else (-(n.tdiv p), x - n.tmod p))
      = ((x - 1 + -n) / p, (x - 1 + -n) % p + 1) := by
  rw [Int.tdiv_eq_ediv_of_nonneg hn, Int.tmod_eq_emod_of_nonneg hn]
  have h0 := Int.mul_ediv_add_emod n p
  have h1 := Int.emod_nonneg n (ne_of_gt hp)
  have h2 := Int.emod_lt_of_pos n hp
  generalize n / p = q at *
  generalize n % p = r at *
  split
  · have e : x - 1 + -n = (x - 1 - (r - p)) + p * (-q - 1) := by
      have : p * (-q - 1) = -(p * q) - p := by ring
      omega
    have l0 : 0 ≤ x - 1 - (r - p) := by omega
    have l1 : x - 1 - (r - p) < p := by omega
    rw [e, Int.add_mul_ediv_left _ _ (ne_of_gt hp), Int.add_mul_emod_self_left,
      Int.ediv_eq_zero_of_lt l0 l1, Int.emod_eq_of_lt l0 l1]
    ext <;> grind
  · have e : x - 1 + -n = (x - 1 - r) + p * (-q) := by
      have : p * (-q) = -(p * q) := by ring
      omega
    have l0 : 0 ≤ x - 1 - r := by omega
    have l1 : x - 1 - r < p := by omega
    rw [e, Int.add_mul_ediv_left _ _ (ne_of_gt hp), Int.add_mul_emod_self_left,
      Int.ediv_eq_zero_of_lt l0 l1, Int.emod_eq_of_lt l0 l1]
    ext <;> grind

/-- Closed form of the year-based advance. -/
theorem yb_next (f : YB) (hp : 0 < f.partitionCount) (h1 : 1 ≤ f.position)
    (h2 : f.position ≤ f.partitionCount) (n : Int) :
    f.next n = .ok { f with year := f.year + (f.position - 1 + n) / f.partitionCount * f.yearMulti
                            position := (f.position - 1 + n) % f.partitionCount + 1 } := by
  unfold YB.next
  rcases Int.lt_trichotomy n 0 with hn | hn | hn
  · have c := carry_neg f.partitionCount f.position (n.natAbs) hp h1 h2 (by omega)
    rw [show f.position - 1 + -(n.natAbs : Int) = f.position - 1 + n by omega] at c
    rw [if_neg (by omega), if_neg (by omega)]
    simp only
    rw [if_neg (by omega)]
    split at c <;> rename_i hh <;> simp only [Prod.mk.injEq] at c
    · rw [if_pos hh, c.2, ← c.1]
      congr 2; ring
    · rw [if_neg hh, c.2, ← c.1]
      congr 2; ring
  · subst hn
    rw [if_pos rfl]
    have e0 : (f.position - 1 + 0) / f.partitionCount = 0 :=
      Int.ediv_eq_zero_of_lt (by omega) (by omega)
    have e1 : (f.position - 1 + 0) % f.partitionCount = f.position - 1 :=
      (Int.emod_eq_of_lt (by omega) (by omega)).trans (by omega)
    rw [e0, e1]
    cases f; simp
  · have c := carry_pos f.partitionCount f.position (n.natAbs) hp h1 h2 (by omega)
    rw [show f.position - 1 + (n.natAbs : Int) = f.position - 1 + n by omega] at c
    rw [if_neg (by omega), if_neg (by omega)]
    simp only
    rw [if_pos (by omega)]
    split at c <;> rename_i hh <;> simp only [Prod.mk.injEq] at c
    · rw [if_pos hh, c.2, ← c.1]
    · rw [if_neg hh, c.2, ← c.1]

theorem db_next (f : DB) (hp : 0 < f.partitionCount) (h1 : 1 ≤ f.position)
    (h2 : f.position ≤ f.partitionCount) (n : Int) :
    f.next n = (do
      let d ← f.day.next ((f.position - 1 + n) / f.partitionCount)
      pure { f with day := d, position := (f.position - 1 + n) % f.partitionCount + 1 }) := by
  unfold DB.next
  rw [if_neg (by omega)]
  simp only
  by_cases hn : n > 0
  · have c := carry_pos f.partitionCount f.position (n.natAbs) hp h1 h2 (by omega)
    rw [show f.position - 1 + (n.natAbs : Int) = f.position - 1 + n by omega] at c
    rw [if_pos hn]
    split at c <;> rename_i hh <;> simp only [Prod.mk.injEq] at c
    · rw [if_pos hh, c.2, ← c.1]
    · rw [if_neg hh, c.2, ← c.1]
  · have c := carry_neg f.partitionCount f.position (n.natAbs) hp h1 h2 (by omega)
    rw [show f.position - 1 + -(n.natAbs : Int) = f.position - 1 + n by omega] at c
    rw [if_neg hn]
    split at c <;> rename_i hh <;> simp only [Prod.mk.injEq] at c
    · rw [if_pos hh, c.2, ← c.1]
    · rw [if_neg hh, c.2, ← c.1]

/-- Splitting a carry in two. -/
theorem carry_add (p x a b : Int) (hp : 0 < p) :
    (x + (a + b)) / p = (x + a) / p + (((x + a) % p + 1 - 1 + b) / p) ∧
    (x + (a + b)) % p = ((x + a) % p + 1 - 1 + b) % p := by
  have h0 := Int.mul_ediv_add_emod (x + a) p
  have e : x + (a + b) = ((x + a) % p + 1 - 1 + b) + p * ((x + a) / p) := by omega
  constructor
  · conv => lhs; rw [e, Int.add_mul_ediv_left _ _ (ne_of_gt hp)]
    omega
  · conv => lhs; rw [e, Int.add_mul_emod_self_left]

end Fq
end LDT
