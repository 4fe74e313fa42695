import Verif.Lemmas.Poly
import Mathlib.Data.Matrix.Basic
import Mathlib.LinearAlgebra.Matrix.Notation
namespace LDT
namespace Poly
open Mx Polynomial

variable {R : Type}

/-! ## C46: products -/

/-- The product of two polynomials holds the coefficients of the mathematical product, cut at `maxLength`;
storage behind the result is untouched. -/
theorem C46_multiply [Semiring R] {size maxLength : Int} {a b storage : List R} (ha : a ≠ []) (hb : b ≠ [])
    (hm : 0 ≤ maxLength) (h1 : min ((a.length : Int) + b.length - 1) maxLength ≤ size)
    (h2 : min ((a.length : Int) + b.length - 1) maxLength ≤ storage.length) :
    ∃ s, multiply size a b storage maxLength = .ok s ∧ s.length = storage.length ∧
      (∀ k : Nat, (k : Int) < min ((a.length : Int) + b.length - 1) maxLength →
        s[k]? = some ((toPoly a * toPoly b).coeff k)) ∧
      (∀ k : Nat, min ((a.length : Int) + b.length - 1) maxLength ≤ (k : Int) → s[k]? = storage[k]?) ∧
      mulResult size a b storage maxLength =
        .ok (s.take (min ((a.length : Int) + b.length - 1) maxLength).toNat) := by
  have e : mulSize (degree a) (degree b) maxLength = min ((a.length : Int) + b.length - 1) maxLength := by
    unfold mulSize degree; congr 1; ring
  obtain ⟨s, e1, l1, c1⟩ := multiply_spec (size := size) (maxLength := maxLength) (a := a) (b := b)
    (storage := storage) (by rw [e]; exact h1) (by rw [e]; exact h2)
  rw [e] at c1
  refine ⟨s, e1, l1, ?_, ?_, ?_⟩
  · intro k hk
    rw [getElem?_coef (by omega), c1, if_pos hk]
  · intro k hk
    by_cases hl : k < storage.length
    · rw [getElem?_coef (by omega), getElem?_coef hl, c1, if_neg (by omega)]
    · rw [List.getElem?_eq_none (by omega), List.getElem?_eq_none (by omega)]
  · unfold mulResult; rw [e1, Outcome.ok_bind, e]; rfl

/-- Without a restricting `maxLength` the result is exactly the product. -/
theorem C46_multiply_exact [Semiring R] {size maxLength : Int} {a b storage : List R} (ha : a ≠ []) (hb : b ≠ [])
    (hm : (a.length : Int) + b.length - 1 ≤ maxLength) (h1 : (a.length : Int) + b.length - 1 ≤ size)
    (h2 : (a.length : Int) + b.length - 1 ≤ storage.length) :
    ∃ r, mulResult size a b storage maxLength = .ok r ∧ toPoly r = toPoly a * toPoly b ∧
      (r.length : Int) = a.length + b.length - 1 := by
  have hal : a.length ≠ 0 := by simpa using ha
  have hbl : b.length ≠ 0 := by simpa using hb
  have hmin : min ((a.length : Int) + b.length - 1) maxLength = (a.length : Int) + b.length - 1 := by omega
  obtain ⟨s, e1, l1, c1, c2, e2⟩ := C46_multiply (size := size) (maxLength := maxLength) (storage := storage) ha hb
    (by omega) (by omega) (by omega)
  rw [hmin] at c1 e2
  have hlen : (s.take ((a.length : Int) + b.length - 1).toNat).length = a.length + b.length - 1 := by
    rw [List.length_take]; omega
  refine ⟨_, e2, toPoly_ext ?_ ?_, by rw [hlen]; omega⟩
  · intro k hk
    rw [coef_take (by omega)]
    have := c1 k (by omega)
    unfold coef; rw [this]; rfl
  · intro k hk
    apply coeff_eq_zero_of_natDegree_lt
    have h1 := natDegree_toPoly_le a
    have h2 := natDegree_toPoly_le b
    have h3 : (toPoly a * toPoly b).natDegree ≤ _ := natDegree_mul_le
    omega

/-- A storage declared too small is refused, before anything is written. -/
theorem C46_multiply_throws [Semiring R] {size maxLength : Int} {a b storage : List R}
    (h1 : size < min ((a.length : Int) + b.length - 1) maxLength) :
    multiply size a b storage maxLength = .throws := by
  have e : mulSize (degree a) (degree b) maxLength = min ((a.length : Int) + b.length - 1) maxLength := by
    unfold mulSize degree; congr 1; ring
  unfold multiply; simp only [e]; rw [if_pos h1]

theorem trimLen_le [Zero R] [DecidableEq R] (a : List R) (n : Nat) : trimLen a n ≤ n := by
  induction n with
  | zero => simp [trimLen]
  | succ n ih => unfold trimLen; split_ifs <;> omega

theorem trimLen_zero_above [Zero R] [DecidableEq R] (a : List R) (n k : Nat) (h : trimLen a n ≤ k) (hk : k < n) :
    coef a k = 0 := by
  induction n with
  | zero => omega
  | succ n ih =>
    unfold trimLen at h
    split_ifs at h with hz
    · rcases Nat.lt_or_ge k n with h' | h'
      · exact ih h h'
      · have : k = n := by omega
        subst this; exact hz
    · omega

theorem trimLen_last [Zero R] [DecidableEq R] (a : List R) (n : Nat) (h : trimLen a n ≠ 0) :
    coef a (trimLen a n - 1) ≠ 0 := by
  induction n with
  | zero => simp [trimLen] at h
  | succ n ih =>
    unfold trimLen at h ⊢
    split_ifs at h ⊢ with hz
    · exact ih h
    · simpa [coef] using hz

/-- Trimming keeps the polynomial and leaves a non-zero leading coefficient; it refuses exactly the zero
polynomial. -/
theorem C46_trim [Semiring R] [DecidableEq R] (a : List R) :
    (toPoly a = 0 ∧ data a true = .throws) ∨
    (toPoly a ≠ 0 ∧ ∃ r, data a true = .ok r ∧ toPoly r = toPoly a ∧ ∃ x, r.getLast? = some x ∧ x ≠ 0) := by
  by_cases h : trimLen a a.length = 0
  · left
    constructor
    · ext k
      rw [toPoly_coeff, coeff_zero]
      by_cases hk : k < a.length
      · exact trimLen_zero_above a a.length k (by omega) hk
      · exact coef_of_ge (by omega)
    · simp [data, h]
  · right
    have hle := trimLen_le a a.length
    have hlast := trimLen_last a a.length h
    constructor
    · intro h0
      apply hlast
      rw [← toPoly_coeff, h0, coeff_zero]
    · refine ⟨_, by simp only [data, if_true, if_neg h]; rfl, ?_, coef a (trimLen a a.length - 1), ?_, hlast⟩
      · apply toPoly_ext
        · intro k hk
          rw [List.length_take] at hk
          rw [coef_take (by omega), toPoly_coeff]
        · intro k hk
          rw [List.length_take] at hk
          rw [toPoly_coeff]
          by_cases hk' : k < a.length
          · exact trimLen_zero_above a a.length k (by omega) hk'
          · exact coef_of_ge (by omega)
      · rw [List.getLast?_eq_getElem?, List.length_take, Nat.min_eq_left hle,
          List.getElem?_take_of_lt (by omega), getElem?_coef (by omega)]

example : mulResult 4 [1, 2, 3] [4, 5] [9, 9, 9, 9, 7] intMax = .ok [(4 : Int), 13, 22, 15] := by decide +kernel
example : mulResult 4 [1, 2, 3] [4, 5] [9, 9, 9, 9, 7] 3 = .ok [(4 : Int), 13, 22] := by decide +kernel
example : data [1, 0, 2, 0, 0] true = .ok [(1 : Int), 0, 2] := by decide +kernel
example : data [0, 0] true = (.throws : Outcome (List Int)) := by decide +kernel

/-! ## C47: powers -/

/-- `PolynomialPower` computes the power, cut at `maxLength`, if `maxLength` is at least the length of the base. -/
theorem C47_power [Semiring R] {size wsize maxLength n : Int} {a storage work : List R}
    (ha : a ≠ []) (hn : 0 ≤ n) (hm : (a.length : Int) ≤ maxLength)
    (h1 : powSize n (degree a) maxLength ≤ size) (h2 : powWork n (degree a) maxLength ≤ wsize)
    (hs : powSize n (degree a) maxLength ≤ storage.length) (hw : powWork n (degree a) maxLength ≤ work.length) :
    ∃ r, powResult size wsize a n storage work maxLength = .ok r ∧
      (r.length : Int) = min (n * ((a.length : Int) - 1) + 1) maxLength ∧
      ∀ k : Nat, k < r.length → r[k]? = some ((toPoly a ^ n.toNat).coeff k) := by
  have hal : a.length ≠ 0 := by simpa using ha
  obtain ⟨s, e1, l1, c1⟩ := power_spec ha hn hm h1 h2 hs hw
  have hL : powSize n (degree a) maxLength = min (n * ((a.length : Int) - 1) + 1) maxLength := rfl
  have hnn : 0 ≤ n * ((a.length : Int) - 1) := mul_nonneg hn (by omega)
  rw [hL] at c1 hs
  have hlen : ((s.take (powSize n (degree a) maxLength).toNat).length : Int)
      = min (n * ((a.length : Int) - 1) + 1) maxLength := by
    rw [List.length_take, hL]; omega
  refine ⟨s.take (powSize n (degree a) maxLength).toNat, ?_, hlen, ?_⟩
  · unfold powResult; rw [e1]; rfl
  · intro k hk
    rw [getElem?_coef hk, coef_take (by omega), c1, if_pos (by omega)]

/-- Without a restricting `maxLength` the result is exactly the power. -/
theorem C47_power_exact [Semiring R] {size wsize maxLength n : Int} {a storage work : List R}
    (ha : a ≠ []) (hn : 0 ≤ n) (hm : (a.length : Int) ≤ maxLength)
    (hm2 : n * ((a.length : Int) - 1) + 1 ≤ maxLength)
    (h1 : powSize n (degree a) maxLength ≤ size) (h2 : powWork n (degree a) maxLength ≤ wsize)
    (hs : powSize n (degree a) maxLength ≤ storage.length) (hw : powWork n (degree a) maxLength ≤ work.length) :
    ∃ r, powResult size wsize a n storage work maxLength = .ok r ∧ toPoly r = toPoly a ^ n.toNat ∧
      (r.length : Int) = n * ((a.length : Int) - 1) + 1 := by
  obtain ⟨r, e, l, c⟩ := C47_power ha hn hm h1 h2 hs hw
  have hal : a.length ≠ 0 := by simpa using ha
  have l' : (r.length : Int) = n * ((a.length : Int) - 1) + 1 := by omega
  refine ⟨r, e, toPoly_ext ?_ ?_, l'⟩
  · intro k hk
    unfold coef; rw [c k hk]; rfl
  · intro k hk
    apply coeff_eq_zero_of_natDegree_lt
    have h1 := natDegree_toPoly_le a
    have h2 : (toPoly a ^ n.toNat).natDegree ≤ n.toNat * (toPoly a).natDegree := natDegree_pow_le
    have h3 : n.toNat * (toPoly a).natDegree ≤ n.toNat * (a.length - 1) := Nat.mul_le_mul_left _ h1
    have h4 : ((n.toNat * (a.length - 1) : Nat) : Int) = n * ((a.length : Int) - 1) := by
      push_cast
      rw [Int.toNat_of_nonneg hn, Nat.cast_sub (by omega)]; rfl
    omega

/-- Storage or work declared too small is refused. -/
theorem C47_power_throws [Semiring R] {size wsize maxLength n : Int} {a storage work : List R}
    (h : size < powSize n (degree a) maxLength ∨ wsize < powWork n (degree a) maxLength) :
    power size wsize a n storage work maxLength = .throws := by
  simp only [power]; rw [if_pos h]

/-- The base is copied whole: with `maxLength` below its length the declared storage is overrun (undefined
behaviour), for every power `≥ 1`, every base and every content. -/
theorem C47_power_violated_overflow [Semiring R] {size wsize maxLength n : Int} {a storage work : List R}
    (hn : 1 ≤ n) (h0 : 0 ≤ maxLength) (hm : maxLength < (a.length : Int))
    (h1 : powSize n (degree a) maxLength ≤ size) (h2 : powWork n (degree a) maxLength ≤ wsize)
    (hs : (storage.length : Int) = powSize n (degree a) maxLength) :
    power size wsize a n storage work maxLength = .ub := by
  simp only [power]
  rw [if_neg (by omega)]
  obtain ⟨s0, e0, l0, c0⟩ := fill_spec storage _ 0 (by omega : powSize n (degree a) maxLength ≤ storage.length)
  rw [e0, Outcome.ok_bind, if_neg (by omega), copyCells_ub]
  · rfl
  · have : powSize n (degree a) maxLength ≤ maxLength := by unfold powSize; omega
    omega
  · omega

example : powResult 4 5 [1, -1] 3 [9, 9, 9, 9] [8, 8, 8, 8, 8] intMax = .ok [(1 : Int), -3, 3, -1] := by
  decide +kernel
example : power 1 1 [1, -1] 3 [9] [8] 1 = (.ub : Outcome (List Int)) := by decide +kernel

/-! ## C48: the differencing polynomial -/

theorem powDefault_spec [Semiring R] (junk : R) {a : List R} {n : Int} (ha : a ≠ []) (hn : 0 ≤ n)
    (hm : (a.length : Int) ≤ intMax) (hm2 : n * ((a.length : Int) - 1) + 1 ≤ intMax) :
    ∃ r, powDefault junk a n = .ok r ∧ toPoly r = toPoly a ^ n.toNat ∧
      (r.length : Int) = n * ((a.length : Int) - 1) + 1 := by
  unfold powDefault
  refine C47_power_exact ha hn hm hm2 le_rfl le_rfl ?_ ?_
  · rw [List.length_replicate]; omega
  · rw [List.length_replicate]; omega

theorem toPoly_one_neg : toPoly [(1 : Int), -1] = 1 - X := by
  ext k
  rw [toPoly_coeff, coeff_sub, coeff_one, coeff_X]
  rcases k with _ | _ | k <;> simp [coef]

/-- `DiffPoly` holds the coefficients of `(1 - L)^d (1 - L^s)^D`, whatever the work array contained. -/
theorem C48_diffPoly (junk : Int) {d D s : Int} (hd : 0 ≤ d) (hD : 0 ≤ D) (hs : D ≠ 0 → 1 ≤ s)
    (hdm : d + 1 ≤ intMax) (hDm : s + 1 ≤ intMax) (hmax : d + D * s + 1 ≤ intMax) :
    ∃ r, diffPoly junk d D s = .ok r ∧ toPoly r = (1 - X) ^ d.toNat * (1 - X ^ s.toNat) ^ D.toNat ∧
      (r.length : Int) = d + D * s + 1 := by
  have hDs : 0 ≤ D * s := by
    by_cases h : D = 0
    · simp [h]
    · exact mul_nonneg hD (by have := hs h; omega)
  unfold diffPoly
  by_cases h0 : d = 0 ∧ D = 0
  · rw [if_pos h0]
    refine ⟨[1], rfl, ?_, by simp [h0.1, h0.2]⟩
    rw [h0.1, h0.2]
    ext k
    rw [toPoly_coeff]
    rcases k with _ | k <;> simp [coef, coeff_one]
  rw [if_neg h0]
  have P1 : ∀ (_ : d ≠ 0), ∃ r, diffRegular junk d = .ok r ∧ toPoly r = (1 - X) ^ d.toNat ∧
      (r.length : Int) = d + 1 := by
    intro hd0
    unfold diffRegular; rw [if_pos hd0]
    obtain ⟨r, e, t, l⟩ := powDefault_spec junk (a := [(1 : Int), -1]) (n := d) (by simp) hd
      (by unfold intMax; simp) (by simp; omega)
    rw [toPoly_one_neg] at t
    exact ⟨r, e, t, by simpa using l⟩
  have P2 : ∀ (_ : D ≠ 0), ∃ r, diffSeasonal junk D s = .ok r ∧ toPoly r = (1 - X ^ s.toNat) ^ D.toNat ∧
      (r.length : Int) = D * s + 1 := by
    intro hD0
    have hs' := hs hD0
    unfold diffSeasonal; rw [if_pos hD0]
    obtain ⟨j0, e0, l0, c0⟩ := fill_spec (List.replicate (s + 1).toNat junk) (s + 1) 0
      (by rw [List.length_replicate]; omega)
    rw [List.length_replicate] at l0
    rw [e0, Outcome.ok_bind, write_ok_of _ (by omega) (by omega), Outcome.ok_bind,
      write_ok_of _ (by omega) (by simp; omega), Outcome.ok_bind]
    have hl : ((j0.set (0 : Int).toNat 1).set s.toNat (-1)).length = s.toNat + 1 := by
      rw [List.length_set, List.length_set]; omega
    have hp : toPoly ((j0.set (0 : Int).toNat 1).set s.toNat (-1)) = 1 - X ^ s.toNat := by
      ext k
      rw [toPoly_coeff, coeff_sub, coeff_one, coeff_X_pow, coef_set _ (by omega) (by simp; omega),
        coef_set _ (by omega) (by omega), c0]
      by_cases hk : (k : Int) = s
      · rw [if_pos hk, if_neg (by omega), if_pos (by omega)]; rfl
      · rw [if_neg hk, if_neg (by omega : ¬ k = s.toNat), sub_zero]
        by_cases hk0 : k = 0
        · rw [if_pos (by omega), if_pos hk0]
        · rw [if_neg (by omega), if_neg hk0]
          split_ifs with h
          · rfl
          · rw [coef_of_ge]; rw [List.length_replicate]; omega
    generalize (j0.set (0 : Int).toNat 1).set s.toNat (-1) = j1 at hl hp ⊢
    obtain ⟨r, e, t, l⟩ := powDefault_spec junk (a := j1) (n := D) (by intro h; rw [h] at hl; simp at hl) hD
      (by omega) (by rw [hl]; push_cast; rw [Int.toNat_of_nonneg (by omega), add_sub_cancel_right]; omega)
    rw [hp] at t
    refine ⟨r, e, t, ?_⟩
    rw [l, hl]; push_cast; rw [Int.toNat_of_nonneg (by omega), add_sub_cancel_right]
  by_cases hd0 : d = 0
  · have hD0 : D ≠ 0 := fun h => h0 ⟨hd0, h⟩
    obtain ⟨r, e, t, l⟩ := P2 hD0
    rw [show diffRegular junk d = .ok [] by simp [diffRegular, hd0], Outcome.ok_bind, e, Outcome.ok_bind, if_pos hd0]
    refine ⟨r, rfl, by rw [t, hd0]; simp, by rw [l, hd0]; ring⟩
  · obtain ⟨r1, e1, t1, l1⟩ := P1 hd0
    rw [e1, Outcome.ok_bind]
    by_cases hD0 : D = 0
    · rw [show diffSeasonal junk D s = .ok [] by simp [diffSeasonal, hD0], Outcome.ok_bind, if_neg hd0, if_pos hD0]
      refine ⟨r1, rfl, by rw [t1, hD0]; simp, by rw [l1, hD0]; ring⟩
    · obtain ⟨r2, e2, t2, l2⟩ := P2 hD0
      rw [e2, Outcome.ok_bind, if_neg hd0, if_neg hD0]
      have hz : mulSize (powSize d 1 intMax - 1) (powSize D s intMax - 1) intMax = d + D * s + 1 := by
        unfold mulSize powSize
        rw [mul_one]; omega
      rw [hz]
      obtain ⟨r, e, t, l⟩ := C46_multiply_exact (size := d + D * s + 1) (maxLength := intMax) (a := r1) (b := r2)
        (storage := List.replicate (d + D * s + 1).toNat junk)
        (by intro h; rw [h] at l1; simp at l1; omega) (by intro h; rw [h] at l2; simp at l2; omega)
        (by omega) (by omega) (by rw [List.length_replicate]; omega)
      exact ⟨r, e, by rw [t, t1, t2], by omega⟩

/-- Consequence the estimator and the forecast rely on: the leading coefficient is one and, with any differencing,
the coefficients sum to zero (constants are annihilated). -/
theorem C48_diffPoly_annihilates (junk : Int) {d D s : Int} (hd : 0 ≤ d) (hD : 0 ≤ D) (hs : D ≠ 0 → 1 ≤ s)
    (hdm : d + 1 ≤ intMax) (hDm : s + 1 ≤ intMax) (hmax : d + D * s + 1 ≤ intMax) {r : List Int}
    (hr : diffPoly junk d D s = .ok r) :
    r.head? = some 1 ∧ (0 < d ∨ 0 < D → r.sum = 0) := by
  obtain ⟨r', e, t, l⟩ := C48_diffPoly junk hd hD hs hdm hDm hmax
  rw [hr] at e; cases e
  have hDs : 0 ≤ D * s := by
    by_cases h : D = 0
    · simp [h]
    · exact mul_nonneg hD (by have := hs h; omega)
  constructor
  · have h0 : coef r 0 = 1 := by
      rw [← toPoly_coeff, t, coeff_zero_eq_eval_zero, eval_mul, eval_pow, eval_pow]
      by_cases h : D = 0
      · simp [h]
      · have := hs h
        simp [show s.toNat ≠ 0 by omega]
    rw [List.head?_eq_getElem?, getElem?_coef (by omega), h0]
  · intro hdD
    have hsum : ∀ l : List Int, (toPoly l).eval 1 = l.sum := by
      intro l
      unfold toPoly
      rw [eval_finset_sum]
      simp only [eval_monomial, one_pow, mul_one]
      induction l with
      | nil => simp
      | cons x l ih =>
        rw [List.length_cons, Finset.sum_range_succ', List.sum_cons, ← ih]
        simp [add_comm]
    rw [← hsum, t, eval_mul, eval_pow, eval_pow]
    rcases hdD with h | h
    · simp [show d.toNat ≠ 0 by omega]
    · simp [show D.toNat ≠ 0 by omega]

example : diffPoly 77 1 1 4 = .ok [1, -1, 0, 0, -1, 1] := by decide +kernel
example : diffPoly 77 2 0 0 = .ok [1, -2, 1] := by decide +kernel
example : diffPoly 77 0 2 2 = .ok [1, 0, -2, 0, 1] := by decide +kernel

/-! ## C49: inverse of a matrix polynomial -/

/-- `PolynomialMInvert` computes the first `maxLength` coefficients of a two-sided inverse: `A·B` and `B·A` are
`1` up to terms of degree `≥ maxLength`. -/
theorem C49_invert [Ring R] {inv : R → Option R} {size wsize maxLength : Int} {a0 b0 : R} {rest storage : List R}
    (hinv : inv a0 = some b0) (hr : a0 * b0 = 1) (hl : b0 * a0 = 1)
    (h1 : maxLength ≤ size) (h2 : ((a0 :: rest).length : Int) ≤ wsize) (hm : 1 ≤ maxLength)
    (hs : maxLength ≤ storage.length) :
    ∃ r, invResult inv size wsize (a0 :: rest) storage maxLength = .ok r ∧ (r.length : Int) = maxLength ∧
      ∀ k : Nat, (k : Int) < maxLength →
        (toPoly (a0 :: rest) * toPoly r).coeff k = (if k = 0 then 1 else 0) ∧
        (toPoly r * toPoly (a0 :: rest)).coeff k = (if k = 0 then 1 else 0) := by
  obtain ⟨s, e, l, c⟩ := invert_spec (size := size) (wsize := wsize) (storage := storage) (rest := rest) hinv h1
    (by simpa using h2) hm hs
  refine ⟨s.take maxLength.toNat, by unfold invResult; rw [e]; rfl, by rw [List.length_take]; omega, ?_⟩
  intro k hk
  obtain ⟨i1, i2⟩ := series_inv (a0 :: rest) b0 (by simpa [coef] using hr) (by simpa [coef] using hl)
  have hcoef : ∀ j, j ≤ k → (toPoly (s.take maxLength.toNat)).coeff j = invSeq (a0 :: rest) b0 j := by
    intro j hj
    rw [toPoly_coeff, coef_take (by omega), c, if_pos (by omega)]
  constructor
  · have := congrArg (PowerSeries.coeff k) i1
    rw [PowerSeries.coeff_mul, PowerSeries.coeff_one] at this
    rw [← this, coeff_mul]
    refine Finset.sum_congr rfl (fun x hx => ?_)
    have hx' := Finset.mem_antidiagonal.1 hx
    rw [hcoef x.2 (by omega), toPoly_coeff, PowerSeries.coeff_mk, PowerSeries.coeff_mk]
  · have := congrArg (PowerSeries.coeff k) i2
    rw [PowerSeries.coeff_mul, PowerSeries.coeff_one] at this
    rw [← this, coeff_mul]
    refine Finset.sum_congr rfl (fun x hx => ?_)
    have hx' := Finset.mem_antidiagonal.1 hx
    rw [hcoef x.1 (by omega), toPoly_coeff, PowerSeries.coeff_mk, PowerSeries.coeff_mk]

/-- The result is the only list of that length which is a right inverse up to `maxLength`. -/
theorem C49_invert_unique [Ring R] {inv : R → Option R} {size wsize maxLength : Int} {a0 b0 : R}
    {rest storage : List R} (hinv : inv a0 = some b0) (hr : a0 * b0 = 1) (hl : b0 * a0 = 1)
    (h1 : maxLength ≤ size) (h2 : ((a0 :: rest).length : Int) ≤ wsize) (hm : 1 ≤ maxLength)
    (hs : maxLength ≤ storage.length) {r : List R} (hlen : (r.length : Int) = maxLength)
    (hprod : ∀ k : Nat, (k : Int) < maxLength → (toPoly (a0 :: rest) * toPoly r).coeff k = if k = 0 then 1 else 0) :
    invResult inv size wsize (a0 :: rest) storage maxLength = .ok r := by
  obtain ⟨r', e, l', c⟩ := C49_invert (storage := storage) (rest := rest) hinv hr hl h1 h2 hm hs
  rw [e]; congr 1
  apply list_eq_of_coef (by omega)
  intro k hk
  rw [← toPoly_coeff, ← toPoly_coeff]
  have e1 : (toPoly r' * (toPoly (a0 :: rest) * toPoly r)).coeff k = (toPoly r').coeff k := by
    rw [mul_coeff_congr (Q := 1), mul_one]
    intro j hj
    rw [hprod j (by omega), coeff_one]
  have e2 : (toPoly r' * (toPoly (a0 :: rest) * toPoly r)).coeff k = (toPoly r).coeff k := by
    rw [← mul_assoc, mul_coeff_congr_left (Q := 1), one_mul]
    intro j hj
    rw [(c j (by omega)).2, coeff_one]
  rw [← e1, e2]

/-- A singular leading coefficient, a too small storage or work area, and an empty polynomial are refused. -/
theorem C49_invert_throws [Ring R] {inv : R → Option R} {size wsize maxLength : Int} {a storage : List R}
    (h : a = [] ∨ maxLength < 1 ∨ size < maxLength ∨ wsize < (a.length : Int) ∨ ∃ a0 ∈ a.head?, inv a0 = none) :
    invert inv size wsize a storage maxLength = .throws := by
  cases a with
  | nil => rfl
  | cons a0 rest =>
    have hdeg : degree (a0 :: rest) + 1 = ((a0 :: rest).length : Int) := by simp [degree]
    simp only [invert]
    rw [hdeg]
    by_cases hc : maxLength > size ∨ ((a0 :: rest).length : Int) > wsize
    · rw [if_pos hc]
    rw [if_neg hc]
    by_cases hm : maxLength < 1
    · rw [if_pos hm]
    rw [if_neg hm]
    rcases h with h | h | h | h | ⟨b, hb, hi⟩
    · simp at h
    · omega
    · omega
    · omega
    · simp at hb; subst hb; rw [hi]

/-- (1 - L)⁻¹ = 1 + L + L² + … -/
example : invResult (fun x : Int => if x = 1 then some 1 else none) 4 2 [1, -1] [9, 9, 9, 9] 4 = .ok [1, 1, 1, 1] := by
  decide +kernel

/-- A 2×2 case: the hypotheses of `C49_invert` are met by a non-commuting pair of coefficient matrices. -/
example : ∃ r, invResult (fun m : Matrix (Fin 2) (Fin 2) ℤ => if m = 1 then some 1 else none) 3 3
      [1, !![1, 1; 0, 1], !![0, 0; 1, 0]] [0, 0, 0] 3 = .ok r ∧ (r.length : Int) = 3 ∧
      ∀ k : Nat, (k : Int) < 3 →
        (toPoly [1, !![1, 1; 0, 1], !![0, 0; 1, 0]] * toPoly r).coeff k = (if k = 0 then 1 else 0) ∧
        (toPoly r * toPoly [1, !![1, 1; 0, 1], !![0, 0; 1, 0]]).coeff k = (if k = 0 then 1 else 0) :=
  C49_invert (by simp) (one_mul 1) (one_mul 1) (by omega) (by simp) (by omega) (by simp)

end Poly
end LDT
