import Verif.Model.Running
import Mathlib.Tactic.FieldSimp
import Mathlib.Tactic.Ring
import Mathlib.Tactic.LinearCombination
/-! # Central sums and the update formulas -/
namespace LDT
namespace Arr
variable {K : Type} [Field K]

/-- Sum of the weights of a sample of (value, weight) pairs. -/
def wsum (l : List (K × K)) : K := (l.map (fun p => p.2)).sum

/-- `Σ w (x - c)^k`. -/
def csum (k : Nat) (c : K) (l : List (K × K)) : K := (l.map (fun p => p.2 * (p.1 - c) ^ k)).sum

/-- Weighted mean `Σ w x / Σ w`. -/
def wmean (l : List (K × K)) : K := (l.map (fun p => p.2 * p.1)).sum / wsum l

/-- Central sum of order `k`: `Σ w (x - mean)^k`. -/
def wcentral (k : Nat) (l : List (K × K)) : K := csum k (wmean l) l

/-- The accumulated numbers describe the sample. -/
structure Rep (l : List (K × K)) (w : K) (m : Mom K) : Prop where
  hw : w = wsum l
  mean : w * m.mean = (l.map (fun p => p.2 * p.1)).sum
  m2 : m.m2 = csum 2 m.mean l
  m3 : m.m3 = csum 3 m.mean l
  m4 : m.m4 = csum 4 m.mean l

theorem shift (l : List (K × K)) (c e : K) :
    csum 1 c l = (l.map (fun p => p.2 * p.1)).sum - c * wsum l ∧
    csum 2 c l = csum 2 e l + 2 * (e - c) * csum 1 e l + (e - c) ^ 2 * wsum l ∧
    csum 3 c l = csum 3 e l + 3 * (e - c) * csum 2 e l + 3 * (e - c) ^ 2 * csum 1 e l + (e - c) ^ 3 * wsum l ∧
    csum 4 c l = csum 4 e l + 4 * (e - c) * csum 3 e l + 6 * (e - c) ^ 2 * csum 2 e l +
      4 * (e - c) ^ 3 * csum 1 e l + (e - c) ^ 4 * wsum l := by
  induction l with
  | nil => simp [csum, wsum]
  | cons p l ih =>
    obtain ⟨h1, h2, h3, h4⟩ := ih
    simp only [csum, wsum, List.map_cons, List.sum_cons] at *
    refine ⟨?_, ?_, ?_, ?_⟩
    · linear_combination h1
    · linear_combination h2
    · linear_combination h3
    · linear_combination h4

theorem csum_append (k : Nat) (c : K) (l1 l2 : List (K × K)) : csum k c (l1 ++ l2) = csum k c l1 + csum k c l2 := by
  simp [csum]

theorem wsum_append (l1 l2 : List (K × K)) : wsum (l1 ++ l2) = wsum l1 + wsum l2 := by simp [wsum]

theorem rep_csum1 {l : List (K × K)} {w : K} {m : Mom K} (h : Rep l w m) : csum 1 m.mean l = 0 := by
  rw [(shift l m.mean m.mean).1, ← h.mean, h.hw]; ring

variable [DecidableEq K]

/-- The combination formulas are correct for arbitrary samples with a non-zero total weight. -/
theorem rep_combine (l1 l2 : List (K × K)) (w1 w2 : K) (a b : Mom K) (h1 : Rep l1 w1 a) (h2 : Rep l2 w2 b)
    (hw : w1 + w2 ≠ 0) : ∃ m, combine w1 a w2 b = some m ∧ Rep (l1 ++ l2) (w1 + w2) m := by
  have z1 := rep_csum1 h1
  have z2 := rep_csum1 h2
  unfold combine
  simp only [if_neg hw]
  refine ⟨_, rfl, ?_⟩
  have e1 := h1.hw
  have e2 := h2.hw
  constructor
  · rw [wsum_append, ← h1.hw, ← h2.hw]
  · simp only [List.map_append, List.sum_append]
    rw [← h1.mean, ← h2.mean]
    field_simp
  · simp only
    rw [csum_append, (shift l1 _ a.mean).2.1, (shift l2 _ b.mean).2.1, z1, z2, ← h1.hw, ← h2.hw, ← h1.m2, ← h2.m2]
    field_simp
    ring
  · simp only
    rw [csum_append, (shift l1 _ a.mean).2.2.1, (shift l2 _ b.mean).2.2.1, z1, z2, ← h1.hw, ← h2.hw, ← h1.m2, ← h2.m2,
      ← h1.m3, ← h2.m3]
    field_simp
    ring
  · simp only
    rw [csum_append, (shift l1 _ a.mean).2.2.2, (shift l2 _ b.mean).2.2.2, z1, z2, ← h1.hw, ← h2.hw, ← h1.m2, ← h2.m2,
      ← h1.m3, ← h2.m3, ← h1.m4, ← h2.m4]
    field_simp
    ring

theorem rep_single (x w : K) : Rep [(x, w)] w ⟨x, 0, 0, 0⟩ := by
  constructor <;> simp [wsum, csum]

theorem rep_nil (c : K) : Rep ([] : List (K × K)) 0 ⟨c, 0, 0, 0⟩ := by
  constructor <;> simp [wsum, csum]

theorem update_eq_combine (x w sumW : K) (a : Mom K) : update x w sumW a = combine sumW a w ⟨x, 0, 0, 0⟩ := by
  unfold update combine
  by_cases h : sumW + w = 0
  · simp [h]
  · simp only [if_neg h, Option.some.injEq, Mom.mk.injEq]
    refine ⟨trivial, by ring, by ring, by ring⟩

theorem rep_update (l : List (K × K)) (x w sumW : K) (a : Mom K) (h : Rep l sumW a) (hw : sumW + w ≠ 0) :
    ∃ m, update x w sumW a = some m ∧ Rep (l ++ [(x, w)]) (sumW + w) m := by
  rw [update_eq_combine]
  exact rep_combine l [(x, w)] sumW w a _ h (rep_single x w) hw

theorem rep_unique {l : List (K × K)} {w : K} {m : Mom K} (h : Rep l w m) (hw : w ≠ 0) :
    m = ⟨wmean l, wcentral 2 l, wcentral 3 l, wcentral 4 l⟩ := by
  have hm : m.mean = wmean l := by
    rw [wmean, ← h.mean, ← h.hw]; field_simp
  cases m with
  | mk mean m2 m3 m4 =>
    simp only at hm
    subst hm
    have h2 := h.m2; have h3 := h.m3; have h4 := h.m4
    simp only at h2 h3 h4
    rw [h2, h3, h4]; rfl

theorem rep_perm {l1 l2 : List (K × K)} {w : K} {m : Mom K} (h : Rep l1 w m) (hp : l1.Perm l2) : Rep l2 w m := by
  constructor
  · rw [h.hw]; exact (hp.map _).sum_eq
  · rw [h.mean]; exact (hp.map _).sum_eq
  · rw [h.m2]; exact (hp.map _).sum_eq
  · rw [h.m3]; exact (hp.map _).sum_eq
  · rw [h.m4]; exact (hp.map _).sum_eq

end Arr
end LDT
