import Verif.Model.Array
import Mathlib.Tactic.FieldSimp
import Mathlib.Tactic.Ring
import Mathlib.Tactic.Linarith
import Mathlib.Algebra.CharZero.Defs
import Mathlib.Data.Nat.Cast.Defs
import Mathlib.Data.List.Basic
/-! # Lemmas about array scanning, interpolation, partitioning -/
namespace LDT
namespace Arr
variable {K : Type}

theorem scanStart_spec (d : List (Val K)) :
    scanStart d ≤ d.length ∧ (∀ i, i < scanStart d → d[i]? = some none) ∧
    (scanStart d < d.length → ∃ x, d[scanStart d]? = some (some x)) := by
  induction d with
  | nil => simp [scanStart]
  | cons a r ih =>
    cases a with
    | some x => simp [scanStart]
    | none =>
      obtain ⟨h1, h2, h3⟩ := ih
      refine ⟨by simp [scanStart, h1], ?_, ?_⟩
      · intro i hi
        cases i with
        | zero => simp
        | succ i => simp [scanStart] at hi; simpa using h2 i hi
      · intro h; simp [scanStart] at h; simpa [scanStart] using h3 h

theorem scanEnd_spec (d : List (Val K)) (e : Nat) (he : e ≤ d.length) :
    (scanEnd d e = 0 ∧ ∀ i, i < e → d[i]? = some none) ∨
    (scanEnd d e < e ∧ (∃ x, d[scanEnd d e]? = some (some x)) ∧
      ∀ i, scanEnd d e < i → i < e → d[i]? = some none) := by
  induction e with
  | zero => left; simp [scanEnd]
  | succ e ih =>
    have hlt : e < d.length := by omega
    have hg : d[e]? = some d[e] := List.getElem?_eq_getElem hlt
    unfold scanEnd
    cases hx : d[e] with
    | some x =>
      rw [hg, hx]
      right
      exact ⟨by simp, ⟨x, by simp [hg, hx]⟩, by intro i h1 h2; simp at h1; omega⟩
    | none =>
      rw [hg, hx]
      simp only
      rcases ih (by omega) with ⟨h1, h2⟩ | ⟨h1, h2, h3⟩
      · left
        refine ⟨h1, fun i hi => ?_⟩
        rcases Nat.lt_succ_iff_lt_or_eq.1 hi with h | h
        · exact h2 i h
        · subst h; rw [hg, hx]
      · right
        refine ⟨by omega, h2, fun i hi1 hi2 => ?_⟩
        rcases Nat.lt_succ_iff_lt_or_eq.1 hi2 with h | h
        · exact h3 i hi1 h
        · subst h; rw [hg, hx]

/-- What `GetRange` computes: either no value is observed, or `s`, `e` are the first and last observed. -/
theorem range_cases (d : List (Val K)) (hne : d ≠ []) :
    (scanStart d = d.length ∧ scanEnd d d.length = 0 ∧ ∀ i, i < d.length → d[i]? = some none) ∨
    (scanStart d ≤ scanEnd d d.length ∧ scanEnd d d.length < d.length ∧
      (∃ x, d[scanStart d]? = some (some x)) ∧ (∃ x, d[scanEnd d d.length]? = some (some x)) ∧
      (∀ i, i < scanStart d → d[i]? = some none) ∧
      (∀ i, scanEnd d d.length < i → i < d.length → d[i]? = some none)) := by
  obtain ⟨s1, s2, s3⟩ := scanStart_spec d
  have hlen : 0 < d.length := List.length_pos_iff.2 hne
  rcases scanEnd_spec d d.length (Nat.le_refl _) with ⟨e1, e2⟩ | ⟨e1, ⟨x, hx⟩, e3⟩
  · left
    refine ⟨?_, e1, e2⟩
    by_contra hc
    obtain ⟨y, hy⟩ := s3 (by omega)
    rw [e2 _ (by omega)] at hy
    simp at hy
  · right
    have hle : scanStart d ≤ scanEnd d d.length := by
      by_contra hc
      rw [s2 _ (by omega)] at hx
      simp at hx
    exact ⟨hle, e1, s3 (by omega), ⟨x, hx⟩, s2, e3⟩

theorem scanMissing_spec (d : List (Val K)) (n : Nat) : ∀ i, i + n ≤ d.length →
    ∃ b, scanMissing d i n = .ok b ∧ (b = true ↔ ∃ j, i ≤ j ∧ j < i + n ∧ d[j]? = some none) := by
  induction n with
  | zero => intro i hi; exact ⟨false, rfl, by simp; omega⟩
  | succ n ih =>
    intro i hi
    have hg : d[i]? = some d[i] := List.getElem?_eq_getElem (by omega)
    unfold scanMissing
    cases hx : d[i] with
    | none =>
      rw [hg, hx]
      exact ⟨true, rfl, by simp; exact ⟨i, by omega, by omega, by rw [hg, hx]⟩⟩
    | some x =>
      rw [hg, hx]
      obtain ⟨b, hb, hiff⟩ := ih (i + 1) (by omega)
      refine ⟨b, hb, hiff.trans ⟨?_, ?_⟩⟩
      · rintro ⟨j, h1, h2, h3⟩; exact ⟨j, by omega, by omega, h3⟩
      · rintro ⟨j, h1, h2, h3⟩
        refine ⟨j, ?_, by omega, h3⟩
        rcases Nat.lt_or_ge i j with h | h
        · omega
        · have : j = i := by omega
          subst this; rw [hg, hx] at h3; simp at h3

/-! ## Interpolation -/
section
variable [Field K]

theorem fillBack_length (i : Nat) (v step : K) (n : Nat) : ∀ p d, (fillBack i v step p n d).length = d.length := by
  induction n with
  | zero => intro p d; rfl
  | succ n ih => intro p d; rw [fillBack, ih]; simp

theorem fillBack_get (i : Nat) (v step : K) (n : Nat) : ∀ p d, 1 ≤ p → p + n ≤ i + 1 → i < d.length →
    ∀ j, (fillBack i v step p n d)[j]? =
      if i + 1 ≤ j + p + n ∧ j + p ≤ i then some (some (v - ((i - j : Nat) : K) * step)) else d[j]? := by
  induction n with
  | zero =>
    intro p d hp h1 h2 j
    rw [fillBack, if_neg (by omega)]
  | succ n ih =>
    intro p d hp h1 h2 j
    rw [fillBack, ih (p + 1) _ (by omega) (by omega) (by simpa using h2) j]
    by_cases h : i + 1 ≤ j + (p + 1) + n ∧ j + (p + 1) ≤ i
    · rw [if_pos h, if_pos (by omega)]
    · rw [if_neg h]
      by_cases hj : j = i - p
      · subst hj
        rw [if_pos (by omega)]
        rw [List.getElem?_set_self (by omega)]
        have : i - (i - p) = p := by omega
        rw [this]
      · rw [if_neg (by omega)]
        rw [List.getElem?_set_ne (by omega)]

end

/-- Index `a` holds an observation and `a+1, …, b-1` do not. -/
def GapFrom (d : List (Val K)) (a b : Nat) : Prop :=
  (∃ x, d[a]? = some (some x)) ∧ ∀ k, a < k → k < b → d[k]? = some none

/-- Specification of a filled cell: the value at `j` lies on the straight line through the neighbouring
observations `(a, x)` and `(b, y)`. -/
def OnLine [Field K] (d out : List (Val K)) (j : Nat) : Prop :=
  ∃ a b x y, a < j ∧ j < b ∧ d[a]? = some (some x) ∧ d[b]? = some (some y) ∧
    (∀ k, a < k → k < b → d[k]? = some none) ∧
    out[j]? = some (some (x + (y - x) * ((j : K) - (a : K)) / ((b : K) - (a : K))))

/-- Number of missing values among the first `n` cells from `s` on. -/
def missingIn (d : List (Val K)) (s e : Nat) : Nat :=
  ((List.range' s (e - s)).filter (fun i => decide ((d[i]?).join.isNone))).length

theorem missingIn_self (d : List (Val K)) (s : Nat) : missingIn d s s = 0 := by simp [missingIn]

theorem missingIn_succ (d : List (Val K)) (s e : Nat) (h : s ≤ e) :
    missingIn d s (e + 1) = missingIn d s e + (if (d[e]?).join.isNone then 1 else 0) := by
  unfold missingIn
  have : e + 1 - s = (e - s) + 1 := by omega
  rw [this, List.range'_concat, List.filter_append, List.length_append]
  congr 1
  simp only [Nat.one_mul]
  rw [show s + (e - s) = e by omega]
  cases hx : (d[e]?).join <;> simp [List.filter_cons, hx]

/-- Invariant of the interpolation loop before index `i`: `a` is the last observation before `i`. -/
structure Inv [Field K] (d : List (Val K)) (s : Nat) (st : IState K) (i : Nat) (a : Nat) : Prop where
  lo : s ≤ a
  hi : a < i
  len : st.data.length = d.length
  gap : GapFrom d a i
  keep : ∀ j, (j ≤ a → ∀ x, d[j]? = some (some x) → st.data[j]? = some (some x)) ∧ (a < j → st.data[j]? = d[j]?) ∧
    (j < s → st.data[j]? = d[j]?)
  fill : ∀ j, s ≤ j → j < a → d[j]? = some none → OnLine d st.data j
  length : st.length = i - a
  inM : st.inMissing = decide (a + 1 < i)
  fst : a + 1 < i → st.first = (d[a]?).join
  cnt : st.count = missingIn d s a

theorem missingIn_gap (d : List (Val K)) (s a : Nat) (n : Nat) (hs : s ≤ a) (ha : ∃ x, d[a]? = some (some x))
    (h : ∀ k, a < k → k < a + 1 + n → d[k]? = some none) : missingIn d s (a + 1 + n) = missingIn d s a + n := by
  induction n with
  | zero =>
    obtain ⟨x, hx⟩ := ha
    rw [Nat.add_zero, missingIn_succ d s a hs, hx]; simp
  | succ n ih =>
    rw [show a + 1 + (n + 1) = (a + 1 + n) + 1 by omega, missingIn_succ d s _ (by omega),
      ih (fun k h1 h2 => h k h1 (by omega)), h _ (by omega) (by omega)]
    simp; omega

theorem inv_step [Field K] [CharZero K] (d : List (Val K)) (s : Nat) (st : IState K) (i a : Nat)
    (h : Inv d s st i a) (hi : i < d.length) : ∃ a', Inv d s (interStep st i) (i + 1) a' := by
  obtain ⟨hlo, hhi, hlen, ⟨⟨xa, hxa⟩, hgap⟩, hkeep, hfill, hL, hM, hF, hC⟩ := h
  have hcur : st.data[i]? = d[i]? := (hkeep i).2.1 hhi
  have hg : d[i]? = some d[i] := List.getElem?_eq_getElem hi
  cases hx : d[i] with
  | none =>
    rw [hx] at hg
    refine ⟨a, ?_⟩
    unfold interStep
    rw [hcur, hg]
    simp only [Option.getD_some, Option.isNone_none, if_true]
    by_cases hm : a + 1 < i
    · have : st.inMissing = true := by rw [hM]; simp [hm]
      simp only [this, Bool.true_eq_false, and_false, if_false]
      refine ⟨hlo, by omega, hlen, ⟨⟨xa, hxa⟩, ?_⟩, hkeep, hfill, ?_, ?_, ?_, hC⟩
      · intro k h1 h2
        rcases Nat.lt_succ_iff_lt_or_eq.1 h2 with h3 | h3
        · exact hgap k h1 h3
        · subst h3; exact hg
      · simp; omega
      · simp; omega
      · intro _; exact hF hm
    · have hia : i = a + 1 := by omega
      have : st.inMissing = false := by rw [hM]; simp [hm]
      simp only [this, and_self, if_true]
      refine ⟨hlo, by omega, hlen, ⟨⟨xa, hxa⟩, ?_⟩, hkeep, hfill, ?_, ?_, ?_, hC⟩
      · intro k h1 h2
        have : k = i := by omega
        subst this; exact hg
      · simp; omega
      · simp; omega
      · intro _
        simp only
        rw [show i - 1 = a by omega, (hkeep a).1 (Nat.le_refl _) xa hxa, hxa]; rfl
  | some x =>
    rw [hx] at hg
    refine ⟨i, ?_⟩
    unfold interStep
    rw [hcur, hg]
    simp only [Option.getD_some, Option.isNone_some, Bool.false_eq_true, if_false, false_and]
    by_cases hm : a + 1 < i
    · have h1 : st.inMissing = true := by rw [hM]; simp [hm]
      have h2 : st.first = some xa := by rw [hF hm, hxa]; rfl
      simp only [h1, if_true, h2]
      have hget := fillBack_get i x ((x - xa) / (st.length : K)) (st.length - 1) 1 st.data (by omega)
        (by omega) (by omega)
      have hin : ∀ j, (i + 1 ≤ j + 1 + (st.length - 1) ∧ j + 1 ≤ i) ↔ (a < j ∧ j < i) := by
        intro j; omega
      refine ⟨by omega, by omega, ?_, ⟨⟨x, hg⟩, by intro k h1 h2; omega⟩, ?_, ?_, ?_, ?_, ?_, ?_⟩
      · simp only [fillBack_length, hlen]
      · intro j
        simp only [hget j, hin j]
        refine ⟨?_, ?_, ?_⟩
        · intro hj y hy
          rw [if_neg]
          · rcases Nat.lt_or_ge a j with h3 | h3
            · rw [(hkeep j).2.1 h3, hy]
            · exact (hkeep j).1 h3 y hy
          · rintro ⟨h3, h4⟩
            rw [hgap j h3 h4] at hy; simp at hy
        · intro hj
          rw [if_neg (by omega)]
          exact (hkeep j).2.1 (by omega)
        · intro hj
          rw [if_neg (by omega)]
          exact (hkeep j).2.2 hj
      · intro j hj1 hj2 hj3
        rcases Nat.lt_or_ge a j with h3 | h3
        · refine ⟨a, i, xa, x, h3, hj2, hxa, hg, fun k h4 h5 => hgap k h4 h5, ?_⟩
          simp only [hget j, hin j]
          rw [if_pos ⟨h3, hj2⟩]
          congr 2
          have hne : ((i : K) - (a : K)) ≠ 0 := by
            rw [sub_ne_zero]; exact fun e => by have := Nat.cast_injective e; omega
          rw [hL, Nat.cast_sub (by omega : a ≤ i), Nat.cast_sub (by omega : j ≤ i)]
          field_simp
          ring
        · have hja : j ≠ a := by rintro rfl; rw [hxa] at hj3; simp at hj3
          obtain ⟨a', b', x', y', q1, q2, q3, q4, q5, q6⟩ := hfill j hj1 (by omega) hj3
          refine ⟨a', b', x', y', q1, q2, q3, q4, q5, ?_⟩
          simp only [hget j, hin j]
          rw [if_neg (by omega)]; exact q6
      · simp
      · simp
      · intro h; omega
      · simp only
        rw [hC]
        have := missingIn_gap d s a (i - a - 1) hlo ⟨xa, hxa⟩ (fun k h3 h4 => hgap k h3 (by omega))
        rw [show a + 1 + (i - a - 1) = i by omega] at this
        rw [this]; omega
    · have hia : i = a + 1 := by omega
      have h1 : st.inMissing = false := by rw [hM]; simp [hm]
      simp only [h1, Bool.false_eq_true, if_false]
      refine ⟨by omega, by omega, hlen, ⟨⟨x, hg⟩, by intro k h1 h2; omega⟩, ?_, ?_, ?_, ?_, ?_, ?_⟩
      · intro j
        refine ⟨?_, ?_, (hkeep j).2.2⟩
        · intro hj y hy
          rcases Nat.lt_or_ge a j with h3 | h3
          · rw [(hkeep j).2.1 h3, hy]
          · exact (hkeep j).1 h3 y hy
        · intro hj; exact (hkeep j).2.1 (by omega)
      · intro j hj1 hj2 hj3
        have hja : j ≠ a := by rintro rfl; rw [hxa] at hj3; simp at hj3
        exact hfill j hj1 (by omega) hj3
      · simp; omega
      · simp [h1]
      · intro h; omega
      · rw [hC, hia, missingIn_succ d s a hlo, hxa]; simp

theorem inv_loop [Field K] [CharZero K] (d : List (Val K)) (s n : Nat) : ∀ (st : IState K) (i a : Nat),
    Inv d s st i a → i + n ≤ d.length → ∃ a', Inv d s (interLoop i n st) (i + n) a' := by
  induction n with
  | zero => intro st i a h _; exact ⟨a, h⟩
  | succ n ih =>
    intro st i a h hl
    obtain ⟨a1, h1⟩ := inv_step d s st i a h (by omega)
    obtain ⟨a2, h2⟩ := ih _ (i + 1) a1 h1 (by omega)
    exact ⟨a2, by rw [interLoop, show i + (n + 1) = i + 1 + n by omega]; exact h2⟩

/-! ## Partitioning -/
section
variable {α : Type}

theorem partFwd_spec (d : List α) (size : Nat) (hs : 0 < size) (fuel : Nat) :
    ∀ i acc, d.length - i < fuel → acc.flatten = d.take i → (∀ c ∈ acc, 0 < c.length ∧ c.length ≤ size) →
    (∀ c ∈ acc.dropLast, c.length = size) → (i ≤ d.length → ∀ c ∈ acc, c.length = size) →
    ∃ r, partFwd d size fuel i acc = .ok r ∧ r.flatten = d ∧
      (∀ c ∈ r, 0 < c.length ∧ c.length ≤ size) ∧ (∀ c ∈ r.dropLast, c.length = size) := by
  induction fuel with
  | zero => intro i acc h; omega
  | succ fuel ih =>
    intro i acc hf hfl h1 h2 h3
    unfold partFwd
    by_cases hi : i < d.length
    · rw [if_pos hi]
      have hlen : ((d.take (min (i + size) d.length)).drop i).length = min size (d.length - i) := by
        simp; omega
      refine ih _ _ (by omega) ?_ ?_ ?_ ?_
      · rw [List.flatten_append, hfl]
        simp only [List.flatten_cons, List.flatten_nil, List.append_nil]
        have : d.take i = (d.take (min (i + size) d.length)).take i := by
          rw [List.take_take]; congr 1; omega
        rw [this, List.take_append_drop]
        rcases Nat.le_total (i + size) d.length with h | h
        · rw [Nat.min_eq_left h]
        · rw [Nat.min_eq_right h, List.take_of_length_le (Nat.le_refl _), List.take_of_length_le h]
      · intro c hc
        rcases List.mem_append.1 hc with h | h
        · exact h1 c h
        · simp only [List.mem_singleton] at h; subst h; rw [hlen]; omega
      · intro c hc
        rw [List.dropLast_concat] at hc
        exact h3 (by omega) c hc
      · intro hle c hc
        rcases List.mem_append.1 hc with h | h
        · exact h3 (by omega) c h
        · simp only [List.mem_singleton] at h; subst h; rw [hlen]; omega
    · rw [if_neg hi]
      refine ⟨acc, rfl, ?_, h1, h2⟩
      rw [hfl, List.take_of_length_le (by omega)]

theorem partBack_spec (d : List α) (size : Nat) (hs : 0 < size) (fuel : Nat) :
    ∀ (i : Nat) acc, i + 1 < fuel → i ≤ d.length → acc.flatten = d.drop i → (∀ c ∈ acc, c.length = size) →
    ∃ h t, partBack d size fuel i acc = .ok (h :: t) ∧ (h :: t).flatten = d ∧
      h.length = i % size ∧ (∀ c ∈ t, c.length = size) := by
  induction fuel with
  | zero => intro i acc h; omega
  | succ fuel ih =>
    intro i acc hf hi hfl h1
    unfold partBack
    rw [if_pos (by omega)]
    simp only [Int.toNat_natCast]
    by_cases hlt : i < size
    · -- last iteration
      have e1 : max ((i : Int) - size) 0 = 0 := by omega
      rw [e1]
      cases fuel with
      | zero => omega
      | succ fuel =>
        unfold partBack
        rw [if_neg (by omega)]
        refine ⟨_, _, rfl, ?_, ?_, h1⟩
        · simp [hfl]
        · simp [Nat.mod_eq_of_lt hlt]; omega
    · have e1 : max ((i : Int) - size) 0 = ((i - size : Nat) : Int) := by omega
      have e2 : (i : Int) - size = ((i - size : Nat) : Int) := by omega
      rw [e1, e2]
      simp only [Int.toNat_natCast]
      obtain ⟨h, t, q1, q2, q3, q4⟩ := ih (i - size) (((d.take i).drop (i - size)) :: acc) (by omega) (by omega)
        (by
          rw [List.flatten_cons, hfl]
          have : d.drop (i - size) = ((d.take i) ++ (d.drop i)).drop (i - size) := by rw [List.take_append_drop]
          rw [this, List.drop_append_of_le_length (by simp; omega)])
        (by
          intro c hc
          rcases List.mem_cons.1 hc with h | h
          · subst h; simp; omega
          · exact h1 c h)
      refine ⟨h, t, q1, q2, ?_, q4⟩
      rw [q3]
      conv_rhs => rw [show i = i - size + size by omega]
      rw [Nat.add_mod_right]

end

end Arr
end LDT
