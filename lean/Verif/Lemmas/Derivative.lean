import Verif.Model.Derivative
import Verif.Spec.Derivative
import Mathlib.Tactic.Ring
import Mathlib.Tactic.FieldSimp
import Mathlib.Tactic.Linarith
import Mathlib.Algebra.BigOperators.Ring.Finset
import Mathlib.Algebra.BigOperators.Field
/-!
# The table of difference quotients
-/
namespace LDT
namespace Dv
open Mx

variable {K : Type} [Field K] [LinearOrder K] {n : Nat}

/-- The cell of `A0` in row `c`: once a quotient is tiny all later ones count as zero. -/
def cell (d : Nat → K) : Nat → K
  | 0 => chop (d 0)
  | c + 1 => if cell d c = 0 then 0 else chop (d (c + 1))

theorem sweep_spec {τ : Type} (eval : (Fin n → K) → τ → K × (Fin n → K)) (x : Fin n → K) (d : τ → K)
    (he : ∀ t, eval x t = (d t, x)) :
    (∀ ts : List τ, sweep eval ts [] x = (ts.map (fun t => chop (d t)), x)) ∧
    ∀ (ts : List τ) (p : τ → K), sweep eval ts (ts.map p) x = (ts.map (fun t => if p t = 0 then 0 else chop (d t)), x) := by
  constructor
  · intro ts
    induction ts with
    | nil => rfl
    | cons t ts ih => simp [sweep, he, ih]
  · intro ts p
    induction ts with
    | nil => rfl
    | cons t ts ih =>
      simp only [List.map_cons, sweep, List.head?_cons, List.tail_cons, Option.some.injEq, he, ih]
      split_ifs <;> rfl

theorem diffRows_step {τ : Type} (eval : (Fin n → K) → (Fin n → K) → (Fin n → K) → τ → K × (Fin n → K)) (T : K) (x : Fin n → K)
    (d : τ → Nat → K) (ts : List τ) (hl hr : Fin n → K)
    (he : ∀ c t, eval (fun i => hl i / T ^ c) (fun i => hr i / T ^ c) x t = (d t c, x)) (k : Nat) :
    ∀ c, diffRows eval T ts k (ts.map (fun t => cell (d t) c)) x (fun i => hl i / T ^ (c + 1)) (fun i => hr i / T ^ (c + 1)) =
      (List.range k).map (fun m => ts.map (fun t => cell (d t) (c + 1 + m))) := by
  induction k with
  | zero => intro c; rfl
  | succ k ih =>
    intro c
    have hs := (sweep_spec (eval (fun i => hl i / T ^ (c + 1)) (fun i => hr i / T ^ (c + 1))) x (fun t => d t (c + 1))
      (fun t => he (c + 1) t)).2 ts (fun t => cell (d t) c)
    have hc : (fun t => if cell (d t) c = 0 then 0 else chop (d t (c + 1))) = (fun t => cell (d t) (c + 1)) := rfl
    rw [hc] at hs
    have e1 : (fun i => hl i / T ^ (c + 1) / T) = fun i => hl i / T ^ (c + 1 + 1) := by
      funext i; rw [div_div, ← pow_succ]
    have e2 : (fun i => hr i / T ^ (c + 1) / T) = fun i => hr i / T ^ (c + 1 + 1) := by
      funext i; rw [div_div, ← pow_succ]
    simp only [diffRows, hs, e1, e2, ih (c + 1), List.range_succ_eq_map, List.map_cons, List.map_map, add_zero]
    congr 1
    apply List.map_congr_left
    intro m _
    simp only [Function.comp, Nat.succ_eq_add_one]
    apply List.map_congr_left
    intro t _
    congr 1; omega

theorem diffRows_spec {τ : Type} (eval : (Fin n → K) → (Fin n → K) → (Fin n → K) → τ → K × (Fin n → K)) (T : K) (x : Fin n → K)
    (d : τ → Nat → K) (ts : List τ) (hl hr : Fin n → K)
    (he : ∀ c t, eval (fun i => hl i / T ^ c) (fun i => hr i / T ^ c) x t = (d t c, x)) (k : Nat) :
    diffRows eval T ts k [] x hl hr = (List.range k).map (fun m => ts.map (fun t => cell (d t) m)) := by
  cases k with
  | zero => rfl
  | succ k =>
    have h0 : ∀ t, eval hl hr x t = (d t 0, x) := by
      intro t; have := he 0 t; simpa using this
    have hs := (sweep_spec (eval hl hr) x (fun t => d t 0) h0).1 ts
    have hc : (fun t => chop (d t 0)) = (fun t => cell (d t) 0) := rfl
    rw [hc] at hs
    have hr' := diffRows_step eval T x d ts hl hr he k 0
    simp only [zero_add, pow_one] at hr'
    simp only [diffRows, hs, hr', List.range_succ_eq_map, List.map_cons, List.map_map]
    congr 1
    apply List.map_congr_left
    intro m _
    simp only [Function.comp, Nat.succ_eq_add_one]
    apply List.map_congr_left
    intro t _
    congr 1; omega

omit [LinearOrder K] in
theorem extrapolate_spec {τ : Type} (tki : K) (ts : List τ) (a : τ → Nat → K) (m : Nat) :
    extrapolate tki ((List.range m).map (fun c => ts.map (fun t => a t c))) =
      (List.range (m - 1)).map (fun c => ts.map (fun t => (a t (c + 1) * tki - a t c) / (tki - 1))) := by
  unfold extrapolate
  apply List.ext_getElem
  · simp
  · intro k h1 h2
    simp only [List.length_map, List.length_range] at h2
    simp only [List.getElem_zipWith, List.getElem_tail, List.getElem_map, List.getElem_range]
    apply List.ext_getElem
    · simp
    · intro l h3 h4
      simp

omit [LinearOrder K] in
theorem levels_spec {τ : Type} (T : K) (ts : List τ) (a : τ → Nat → K) :
    ∀ k c m, levels T k (c + 1) ((List.range m).map (fun r => ts.map (fun t => richardson T (a t) c r))) =
      (List.range (m - k)).map (fun r => ts.map (fun t => richardson T (a t) (c + k) r)) := by
  intro k
  induction k with
  | zero => intro c m; rfl
  | succ k ih =>
    intro c m
    have h := extrapolate_spec (T ^ (c + 1)) ts (fun t r => richardson T (a t) c r) m
    have hr : (fun r => ts.map (fun t => (richardson T (a t) c (r + 1) * T ^ (c + 1) - richardson T (a t) c r) / (T ^ (c + 1) - 1))) =
        fun r => ts.map (fun t => richardson T (a t) (c + 1) r) := by
      funext r
      apply List.map_congr_left
      intro t _
      simp only [richardson]
      rw [mul_comm (T ^ (c + 1))]
    rw [hr] at h
    simp only [levels, h, ih (c + 1)]
    rw [show m - 1 - k = m - (k + 1) by omega, show c + 1 + k = c + (k + 1) by omega]

theorem lastRow_spec {τ : Type} (eval : (Fin n → K) → (Fin n → K) → (Fin n → K) → τ → K × (Fin n → K)) (T : K) (x : Fin n → K)
    (d : τ → Nat → K) (ts : List τ) (h : Fin n → K)
    (he : ∀ c t, eval (fun i => h i / T ^ c) (fun i => -h i / T ^ c) x t = (d t c, x)) {count : Nat} (hc : 0 < count) :
    lastRow eval T ts count x h = ts.map (fun t => richardson T (cell (d t)) (count - 1) 0) := by
  unfold lastRow
  rw [diffRows_spec eval T x d ts h (fun i => -h i) he count]
  have hl := levels_spec T ts (fun t => cell (d t)) (count - 1) 0 count
  simp only [richardson, zero_add] at hl
  rw [hl, show count - (count - 1) = 1 by omega]
  rfl

/-! ## The difference quotients -/

omit [LinearOrder K] in
theorem diff1_spec (f : (Fin n → K) → K) (x h : Fin n → K) (T : K) (c : Nat) (i : Fin n) :
    diff1 f x (fun i => h i / T ^ c) (fun i => -h i / T ^ c) x i = (slope f x i (h i / T ^ c), x) := by
  unfold diff1 slope
  simp only [Function.update_idem, Function.update_eq_self]
  rw [show x i + -h i / T ^ c = x i - h i / T ^ c by ring, show h i / T ^ c - -h i / T ^ c = 2 * (h i / T ^ c) by ring]

omit [LinearOrder K] in
theorem diff2_spec (f : (Fin n → K) → K) (x h : Fin n → K) (T : K) (c : Nat) (ij : Fin n × Fin n) :
    diff2 f x (fun i => h i / T ^ c) (fun i => -h i / T ^ c) x ij = (bend f x ij.1 ij.2 (h ij.1 / T ^ c) (h ij.2 / T ^ c), x) := by
  obtain ⟨i, j⟩ := ij
  unfold diff2 bend
  by_cases hij : i = j
  · subst hij
    simp only [if_true, values2same, Function.update_idem, Function.update_eq_self]
    rw [show x i + h i / T ^ c + -h i / T ^ c = x i by ring, Function.update_eq_self,
      show x i + 2 * (-h i / T ^ c) = x i - 2 * (h i / T ^ c) by ring]
    congr 2 <;> ring
  · simp only [if_neg hij, values2diff]
    have hu : ∀ a b c' d : K, Function.update (Function.update (Function.update (Function.update x i a) j b) i c') j d =
        Function.update (Function.update x i c') j d := by
      intro a b c' d
      funext k
      by_cases hj : k = j
      · subst hj; simp
      · by_cases hi : k = i
        · subst hi; simp [Function.update_of_ne hj]
        · simp [Function.update_of_ne hj, Function.update_of_ne hi]
    simp only [hu, moved, Function.update_eq_self]
    rw [show x i + -h i / T ^ c = x i + -(h i / T ^ c) by ring, show x j + -h j / T ^ c = x j + -(h j / T ^ c) by ring]
    congr 2; ring

/-! ## Cells -/

theorem cell_noticeable [IsStrictOrderedRing K] (d : Nat → K) {count : Nat} (h : Noticeable count d) : ∀ c < count, cell d c = d c := by
  intro c
  have pos : ∀ c < count, chop (d c) = d c := fun c hc => by unfold chop; rw [if_neg (not_le.2 (h c hc))]
  induction c with
  | zero => intro hc; exact pos 0 hc
  | succ c ih =>
    intro hc
    have hne : d c ≠ 0 := by
      intro h0
      have := h c (by omega)
      rw [h0, abs_zero] at this
      have hp : (0 : K) ≤ 1 / 10 ^ 16 := by positivity
      exact absurd this (not_lt.2 hp)
    simp only [cell]; rw [ih (by omega), if_neg hne]; exact pos _ hc

theorem cell_tiny (d : Nat → K) (h : |d 0| ≤ 1 / 10 ^ 16) : ∀ c, cell d c = 0 := by
  intro c
  induction c with
  | zero => simp only [cell, chop]; rw [if_pos h]
  | succ c ih => simp only [cell]; rw [if_pos ih]

omit [LinearOrder K] in
theorem richardson_congr (T : K) {a b : Nat → K} : ∀ k c, (∀ m, c ≤ m → m ≤ c + k → a m = b m) → richardson T a k c = richardson T b k c := by
  intro k
  induction k with
  | zero => intro c h; exact h c (le_refl _) (by omega)
  | succ k ih =>
    intro c h
    simp only [richardson]
    rw [ih (c + 1) (fun m h1 h2 => h m (by omega) (by omega)), ih c (fun m h1 h2 => h m (by omega) (by omega))]

omit [LinearOrder K] in
theorem richardson_zero (T : K) (k c : Nat) : richardson T (fun _ => 0) k c = 0 := by
  induction k generalizing c with
  | zero => rfl
  | succ k ih => simp [richardson, ih]

/-! ## Exactness for polynomials -/

omit [LinearOrder K] in
/-- If entry `c` of the sequence is `Q(T^-c)`, level `k` removes the powers `1, ..., k`. -/
theorem richardson_poly (T : K) (hT : T ≠ 0) (N : Nat) (b : Nat → K) (k : Nat) (hk : ∀ m, 1 ≤ m → m ≤ k → T ^ m ≠ 1) :
    ∃ b' : Nat → K, b' 0 = b 0 ∧ (∀ m, 1 ≤ m → m ≤ k → b' m = 0) ∧ (∀ m, b m = 0 → b' m = 0) ∧
      ∀ c, richardson T (fun c => ∑ m ∈ Finset.range N, b m * (1 / T ^ c) ^ m) k c = ∑ m ∈ Finset.range N, b' m * (1 / T ^ c) ^ m := by
  induction k with
  | zero => exact ⟨b, rfl, fun m h1 h2 => by omega, fun m h => h, fun c => rfl⟩
  | succ k ih =>
    obtain ⟨b', h0, hz, hb, he⟩ := ih (fun m h1 h2 => hk m h1 (by omega))
    have hd : T ^ (k + 1) - 1 ≠ 0 := sub_ne_zero.2 (hk (k + 1) (by omega) (le_refl _))
    refine ⟨fun m => b' m * (T ^ (k + 1) * (1 / T) ^ m - 1) / (T ^ (k + 1) - 1), ?_, ?_, ?_, ?_⟩
    · simp only [pow_zero, mul_one]
      rw [mul_div_assoc, div_self hd, mul_one, h0]
    · intro m h1 h2
      rcases Nat.lt_or_ge m (k + 1) with h | h
      · simp only; rw [hz m h1 (by omega)]; simp
      · have : m = k + 1 := by omega
        subst this
        simp only
        rw [← mul_pow, mul_one_div, div_self hT]; simp
    · intro m h
      simp only; rw [hb m h]; simp
    · intro c
      simp only [richardson]
      rw [he, he, Finset.mul_sum, ← Finset.sum_sub_distrib, Finset.sum_div]
      apply Finset.sum_congr rfl
      intro m _
      have e1 : (1 / T ^ (c + 1)) ^ m = (1 / T ^ c) ^ m * (1 / T) ^ m := by
        rw [← mul_pow]; congr 1; rw [pow_succ]; simp [mul_comm]
      rw [e1]
      ring

end Dv
end LDT
