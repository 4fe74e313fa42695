import Verif.Model.Descriptive
import Verif.Spec.Trend
import Verif.Props.MatrixStat
import Verif.Lemmas.Poly
import Verif.Lemmas.Vector
import Mathlib.Algebra.Order.BigOperators.Ring.Finset
import Mathlib.Tactic.Positivity
import Mathlib.Tactic.FieldSimp
import Mathlib.Tactic.LinearCombination
import Mathlib.Tactic.Linarith
/-!
# C83: the time trend of a series, and the inverse of a 2 x 2 matrix
-/
namespace LDT
namespace De
open Mx Stat

section
variable {K : Type} [Field K] [DecidableEq K]

theorem inv2x2_cells (a b c d : K) (t : List K) :
    inv2x2 { rows := 2, cols := 2, data := some (a :: b :: c :: d :: t) } =
      if a * d - b * c = 0 then .ok (-1, { rows := 2, cols := 2, data := some (a :: b :: c :: d :: t) })
      else .ok (0, { rows := 2, cols := 2, data := some ((d / (a * d - b * c)) :: (-b / (a * d - b * c)) ::
        (-c / (a * d - b * c)) :: (a / (a * d - b * c)) :: t) }) := by
  have r0 : read (a :: b :: c :: d :: t) 0 = .ok a := rfl
  have r1 : read (a :: b :: c :: d :: t) 1 = .ok b := rfl
  have r2 : read (a :: b :: c :: d :: t) 2 = .ok c := rfl
  have r3 : read (a :: b :: c :: d :: t) 3 = .ok d := rfl
  unfold inv2x2
  simp only [Mat.mem, Option.getD_some, r0, r1, r2, r3, Outcome.ok_bind]
  by_cases h : a * d - b * c = 0
  · simp only [h, if_true]; rfl
  · rw [if_neg h, if_neg h]
    have w : ∀ (l : List K) (k : Nat) (v : K), k < l.length →
        put { rows := 2, cols := 2, data := some l } (k : Int) v =
          .ok { rows := 2, cols := 2, data := some (l.set k v) } := by
      intro l k v hk
      unfold put
      simp only [Mat.mem, Option.getD_some]
      rw [write_ok_of v (by omega) (by simpa using hk)]
      simp
    have w0 := w (a :: b :: c :: d :: t) 0 (1 / (a * d - b * c) * d) (by simp)
    simp only [Nat.cast_zero, List.set_cons_zero] at w0
    rw [w0]
    simp only [Outcome.ok_bind]
    have w1 := w (1 / (a * d - b * c) * d :: b :: c :: d :: t) 1 (1 / (a * d - b * c) * (-b)) (by simp)
    simp only [Nat.cast_one, List.set_cons_zero, List.set_cons_succ] at w1
    rw [w1]
    simp only [Outcome.ok_bind]
    have w2 := w (1 / (a * d - b * c) * d :: 1 / (a * d - b * c) * (-b) :: c :: d :: t) 2 (1 / (a * d - b * c) * (-c)) (by simp)
    simp only [Nat.cast_ofNat, List.set_cons_zero, List.set_cons_succ] at w2
    rw [w2]
    simp only [Outcome.ok_bind]
    have w3 := w (1 / (a * d - b * c) * d :: 1 / (a * d - b * c) * (-b) :: 1 / (a * d - b * c) * (-c) :: d :: t) 3
      (1 / (a * d - b * c) * a) (by simp)
    simp only [Nat.cast_ofNat, List.set_cons_zero, List.set_cons_succ] at w3
    rw [w3]
    simp only [Outcome.ok_bind, Outcome.pure_eq, one_div_mul_eq_div]

/-- The cells of the product of a 2 x 2 matrix and a vector. -/
theorem dot2 (p q r s u v s0 s1 : K) (t : List K) :
    Mat.dot { rows := 2, cols := 2, data := some [p, q, r, s] } { rows := 2, cols := 1, data := some [u, v] }
      { rows := 2, cols := 1, data := some (s0 :: s1 :: t) } 1 0 =
      .ok { rows := 2, cols := 1, data := some ((p * u + r * v) :: (q * u + s * v) :: t) } := by
  have u2 : upTo 0 2 = [0, 1] := by decide
  have u1 : upTo 0 1 = [0] := by decide
  have r0 : read [p, q, r, s] 0 = .ok p := rfl
  have r1 : read [p, q, r, s] 1 = .ok q := rfl
  have r2 : read [p, q, r, s] 2 = .ok r := rfl
  have r3 : read [p, q, r, s] 3 = .ok s := rfl
  have b0 : read [u, v] 0 = .ok u := rfl
  have b1 : read [u, v] 1 = .ok v := rfl
  have w0 : ∀ x y z : K, write (x :: y :: t) 0 z = .ok (z :: y :: t) := by
    intro x y z
    rw [write_ok_of z (by omega) (by simp; omega)]; rfl
  have w1 : ∀ x y z : K, write (x :: y :: t) 1 z = .ok (x :: z :: t) := by
    intro x y z
    rw [write_ok_of z (by omega) (by simp)]; rfl
  unfold Mat.dot gemm dotSum opGet blasWrite
  simp [u1, u2, Mat.withMem, Mat.mem, r0, r1, r2, r3, b0, b1, w0, w1, mulO, ldOk]

theorem sumNum_eq (x : Mat K) (xs : List K) (h : IsCells x xs) : sumNum x = .ok (∑ k ∈ Finset.range xs.length, xs.getD k 0) := by
  unfold sumNum
  obtain ⟨s', e, p⟩ := loop_inv (a := 0) (b := x.length) (by rw [← h.len]; omega) (fun (s : K) i => do
      let d ← read x.mem i
      pure (s + d)) (fun i s => s = ∑ k ∈ Finset.range i.toNat, xs.getD k 0) (s := 0) (by simp) (by
    rintro i hi hb s rfl
    have := isCells_read h i.toNat (xs.getD i.toNat 0) (by
      rw [List.getD_eq_getElem?_getD, List.getElem?_eq_getElem (by have := h.len; omega)]; rfl)
    rw [zero_add, Int.toNat_of_nonneg hi] at this
    refine ⟨_, by rw [this]; rfl, ?_⟩
    rw [show (i + 1).toNat = i.toNat + 1 by omega, Finset.sum_range_succ])
  rw [e, p, ← h.len]; simp

theorem sumTimes_eq (x : Mat K) (xs : List K) (h : IsCells x xs) :
    sumTimes x = .ok (∑ k ∈ Finset.range xs.length, ((k : K) + 1) * xs.getD k 0) := by
  unfold sumTimes
  obtain ⟨s', e, p⟩ := loop_inv (a := 1) (b := x.length + 1) (by rw [← h.len]; omega) (fun (s : K) i => do
      let d ← read x.mem (i - 1)
      pure (s + (i : K) * d)) (fun i s => s = ∑ k ∈ Finset.range (i - 1).toNat, ((k : K) + 1) * xs.getD k 0) (s := 0)
      (by simp) (by
    rintro i hi hb s rfl
    have := isCells_read h (i - 1).toNat (xs.getD (i - 1).toNat 0) (by
      rw [List.getD_eq_getElem?_getD, List.getElem?_eq_getElem (by have := h.len; omega)]; rfl)
    rw [zero_add, Int.toNat_of_nonneg (by omega)] at this
    refine ⟨_, by rw [this]; rfl, ?_⟩
    rw [show (i + 1 - 1).toNat = (i - 1).toNat + 1 by omega, Finset.sum_range_succ]
    congr 2
    have : (((i - 1).toNat : Int) : K) = ((i - 1 : Int) : K) := by rw [Int.toNat_of_nonneg (by omega)]
    rw [Int.cast_natCast] at this
    rw [this]; push_cast; ring)
  rw [e, p, ← h.len]; simp

theorem sum_times (n : Nat) : 2 * ∑ k ∈ Finset.range n, ((k : K) + 1) = (n : K) * (n + 1) := by
  induction n with
  | zero => simp
  | succ n ih => rw [Finset.sum_range_succ, mul_add, ih]; push_cast; ring

theorem sum_times_sq (n : Nat) : 6 * ∑ k ∈ Finset.range n, ((k : K) + 1) ^ 2 = (n : K) * (n + 1) * (2 * n + 1) := by
  induction n with
  | zero => simp
  | succ n ih => rw [Finset.sum_range_succ, mul_add, ih]; push_cast; ring

end

section
variable {K : Type} [Field K] [LinearOrder K] [IsStrictOrderedRing K]

theorem det_value (n : K) : n * (n * (n + 1) / 2 * (2 * n + 1) / 3) - n * (n + 1) / 2 * (n * (n + 1) / 2) =
    n ^ 2 * (n + 1) * (n - 1) / 12 := by ring

/-- The two numbers of the trend solve the normal equations. -/
theorem trend_normal (x : Mat K) (xs : List K) (h : IsCells x xs) (h2 : 2 ≤ xs.length) (s0 s1 : K) (t : List K) :
    ∃ a b, regressionTrend x (s0 :: s1 :: t) = .ok { rows := 2, cols := 1, data := some (a :: b :: t) } ∧
      (∑ k ∈ Finset.range xs.length, (xs.getD k 0 - (a + b * ((k : K) + 1)))) = 0 ∧
      (∑ k ∈ Finset.range xs.length, ((k : K) + 1) * (xs.getD k 0 - (a + b * ((k : K) + 1)))) = 0 := by
  have hn : (2 : K) ≤ xs.length := by exact_mod_cast h2
  have hl : ((x.length : Int) : K) = xs.length := by rw [← h.len]; simp
  have hd : (xs.length : K) ^ 2 * (xs.length + 1) * (xs.length - 1) / 12 ≠ 0 := by
    have : 0 < (xs.length : K) - 1 := by linarith
    have : 0 < (xs.length : K) := by linarith
    positivity
  unfold regressionTrend
  rw [hl]
  simp only [inv2x2_cells, det_value, if_neg hd, Outcome.ok_bind, sumNum_eq x xs h, sumTimes_eq x xs h, dot2,
    ne_eq, not_true, if_false]
  refine ⟨_, _, rfl, ?_, ?_⟩
  · have e1 := sum_times (K := K) xs.length
    simp only [Finset.sum_sub_distrib, Finset.sum_add_distrib, Finset.sum_const, Finset.card_range, nsmul_eq_mul,
      ← Finset.mul_sum] at e1 ⊢
    generalize ∑ k ∈ Finset.range xs.length, xs.getD k 0 = B0
    generalize ∑ k ∈ Finset.range xs.length, ((k : K) + 1) * xs.getD k 0 = B1
    generalize ∑ k ∈ Finset.range xs.length, (k : K) = T at *
    generalize (xs.length : K) = n at *
    have p0 : n ≠ 0 := by intro h; rw [h] at hn; linarith
    have p1 : n - 1 ≠ 0 := by intro h; linarith
    have p2 : n + 1 ≠ 0 := by intro h; linarith
    have hT : T + n * 1 = n * (n + 1) / 2 := by linarith
    rw [hT]
    field_simp
    ring
  · have e1 := sum_times (K := K) xs.length
    have e2 := sum_times_sq (K := K) xs.length
    have : ∀ a b : K, (∑ k ∈ Finset.range xs.length, ((k : K) + 1) * (xs.getD k 0 - (a + b * ((k : K) + 1)))) =
        (∑ k ∈ Finset.range xs.length, ((k : K) + 1) * xs.getD k 0) - a * (∑ k ∈ Finset.range xs.length, ((k : K) + 1)) -
          b * ∑ k ∈ Finset.range xs.length, ((k : K) + 1) ^ 2 := by
      intro a b
      rw [Finset.mul_sum, Finset.mul_sum, ← Finset.sum_sub_distrib, ← Finset.sum_sub_distrib]
      exact Finset.sum_congr rfl fun k _ => by ring
    rw [this]
    generalize ∑ k ∈ Finset.range xs.length, xs.getD k 0 = B0
    generalize ∑ k ∈ Finset.range xs.length, ((k : K) + 1) * xs.getD k 0 = B1
    generalize ∑ k ∈ Finset.range xs.length, ((k : K) + 1) = T1 at *
    generalize ∑ k ∈ Finset.range xs.length, ((k : K) + 1) ^ 2 = T2 at *
    generalize (xs.length : K) = n at *
    have p0 : n ≠ 0 := by intro h; rw [h] at hn; linarith
    have p1 : n - 1 ≠ 0 := by intro h; linarith
    have p2 : n + 1 ≠ 0 := by intro h; linarith
    have h1 : T1 = n * (n + 1) / 2 := by linarith
    have h2 : T2 = n * (n + 1) * (2 * n + 1) / 6 := by linarith
    rw [h1, h2]
    field_simp
    ring

/-- **C83**, the trend of at least two numbers: the line with the least sum of squared distances, and the only one; the two
numbers are the constant and the slope, and what lies behind them in the storage is left as it was. -/
theorem C83_least_squares (x : Mat K) (xs : List K) (h : IsCells x xs) (h2 : 2 ≤ xs.length) (s0 s1 : K) (t : List K) :
    ∃ a b, regressionTrend x (s0 :: s1 :: t) = .ok { rows := 2, cols := 1, data := some (a :: b :: t) } ∧
      ∀ a' b', lineError xs a b ≤ lineError xs a' b' ∧ (lineError xs a' b' ≤ lineError xs a b → a' = a ∧ b' = b) := by
  obtain ⟨a, b, e, n0, n1⟩ := trend_normal x xs h h2 s0 s1 t
  refine ⟨a, b, e, fun a' b' => ?_⟩
  have key : lineError xs a' b' = lineError xs a b +
      ∑ k ∈ Finset.range xs.length, ((a - a') + (b - b') * ((k : K) + 1)) ^ 2 := by
    have : lineError xs a' b' = lineError xs a b +
        (∑ k ∈ Finset.range xs.length, ((a - a') + (b - b') * ((k : K) + 1)) ^ 2) +
        2 * (a - a') * (∑ k ∈ Finset.range xs.length, (xs.getD k 0 - (a + b * ((k : K) + 1)))) +
        2 * (b - b') * (∑ k ∈ Finset.range xs.length, ((k : K) + 1) * (xs.getD k 0 - (a + b * ((k : K) + 1)))) := by
      unfold lineError
      rw [Finset.mul_sum, Finset.mul_sum, ← Finset.sum_add_distrib, ← Finset.sum_add_distrib, ← Finset.sum_add_distrib]
      exact Finset.sum_congr rfl fun k _ => by ring
    rw [this, n0, n1]; ring
  have hnn : ∀ k ∈ Finset.range xs.length, (0 : K) ≤ ((a - a') + (b - b') * ((k : K) + 1)) ^ 2 := fun _ _ => sq_nonneg _
  refine ⟨by rw [key]; linarith [Finset.sum_nonneg hnn], fun hle => ?_⟩
  have hz : ∑ k ∈ Finset.range xs.length, ((a - a') + (b - b') * ((k : K) + 1)) ^ 2 = 0 :=
    le_antisymm (by linarith) (Finset.sum_nonneg hnn)
  rw [Finset.sum_eq_zero_iff_of_nonneg hnn] at hz
  have z0 := pow_eq_zero_iff (two_ne_zero) |>.1 (hz 0 (Finset.mem_range.2 (by omega)))
  have z1 := pow_eq_zero_iff (two_ne_zero) |>.1 (hz 1 (Finset.mem_range.2 (by omega)))
  push_cast at z0 z1
  constructor
  · linear_combination z1 - 2 * z0
  · linear_combination z0 - z1

/-- **C83**, a series on a line: the trend is that line. -/
theorem C83_exact_line (x : Mat K) (xs : List K) (h : IsCells x xs) (h2 : 2 ≤ xs.length) (s0 s1 : K) (t : List K) (a b : K)
    (hx : ∀ k : Nat, k < xs.length → xs.getD k 0 = a + b * ((k : K) + 1)) :
    regressionTrend x (s0 :: s1 :: t) = .ok { rows := 2, cols := 1, data := some (a :: b :: t) } := by
  obtain ⟨a', b', e, opt⟩ := C83_least_squares x xs h h2 s0 s1 t
  have z : lineError xs a b = 0 := by
    unfold lineError
    exact Finset.sum_eq_zero fun k hk => by rw [hx k (Finset.mem_range.1 hk)]; ring
  have hnn : 0 ≤ lineError xs a' b' := Finset.sum_nonneg fun _ _ => sq_nonneg _
  obtain ⟨ea, eb⟩ := (opt a b).2 (by rw [z]; exact hnn)
  rw [e, ea, eb]

/-- **C83**, fewer than two numbers have no trend: the exception. -/
theorem C83_refused (x : Mat K) (xs : List K) (h : IsCells x xs) (h2 : xs.length < 2) (storage : List K) :
    regressionTrend x storage = .throws := by
  have hl : ((x.length : Int) : K) = xs.length := by rw [← h.len]; simp
  unfold regressionTrend
  rw [hl]
  have hd : (xs.length : K) ^ 2 * (xs.length + 1) * (xs.length - 1) / 12 = 0 := by
    have : xs.length = 0 ∨ xs.length = 1 := by omega
    rcases this with e | e <;> simp [e]
  simp only [inv2x2_cells, det_value, hd, if_true, Outcome.ok_bind]
  rw [if_pos (by decide)]

/-- **C83**, a change of the scale and of the origin of the series changes the line accordingly. -/
theorem C83_affine (x y : Mat K) (xs : List K) (c d : K) (h : IsCells x xs) (hy : IsCells y (xs.map (fun v => c * v + d)))
    (h2 : 2 ≤ xs.length) (s0 s1 : K) (t : List K) :
    ∃ a b, regressionTrend x (s0 :: s1 :: t) = .ok { rows := 2, cols := 1, data := some (a :: b :: t) } ∧
      regressionTrend y (s0 :: s1 :: t) = .ok { rows := 2, cols := 1, data := some ((c * a + d) :: (c * b) :: t) } := by
  obtain ⟨a, b, e, n0, n1⟩ := trend_normal x xs h h2 s0 s1 t
  refine ⟨a, b, e, ?_⟩
  obtain ⟨a', b', e', m0, m1⟩ := trend_normal y _ hy (by simpa using h2) s0 s1 t
  have hg : ∀ k ∈ Finset.range xs.length, (xs.map (fun v => c * v + d)).getD k 0 = c * xs.getD k 0 + d := by
    intro k hk
    have := Finset.mem_range.1 hk
    simp [List.getD_eq_getElem?_getD, List.getElem?_eq_getElem this]
  have := (C83_least_squares y _ hy (by simpa using h2) s0 s1 t)
  obtain ⟨a'', b'', e'', opt⟩ := this
  have hab : a'' = a' ∧ b'' = b' := by
    rw [e'] at e''
    simp only [Outcome.ok.injEq, Mat.mk.injEq, true_and, Option.some.injEq, List.cons.injEq, and_true] at e''
    exact ⟨e''.1.symm, e''.2.symm⟩
  rw [hab.1, hab.2] at opt
  rw [e']
  -- the line `c a + d`, `c b` satisfies the normal equations and is therefore the best one
  have key : lineError (xs.map (fun v => c * v + d)) a' b' = lineError (xs.map (fun v => c * v + d)) (c * a + d) (c * b) +
      ∑ k ∈ Finset.range xs.length, ((c * a + d - a') + (c * b - b') * ((k : K) + 1)) ^ 2 := by
    unfold lineError
    rw [List.length_map]
    have : ∑ k ∈ Finset.range xs.length, ((xs.map (fun v => c * v + d)).getD k 0 - (a' + b' * ((k : K) + 1))) ^ 2 =
        ∑ k ∈ Finset.range xs.length, ((xs.map (fun v => c * v + d)).getD k 0 - (c * a + d + c * b * ((k : K) + 1))) ^ 2 +
        ∑ k ∈ Finset.range xs.length, ((c * a + d - a') + (c * b - b') * ((k : K) + 1)) ^ 2 +
        2 * (c * a + d - a') * (c * ∑ k ∈ Finset.range xs.length, (xs.getD k 0 - (a + b * ((k : K) + 1)))) +
        2 * (c * b - b') * (c * ∑ k ∈ Finset.range xs.length, ((k : K) + 1) * (xs.getD k 0 - (a + b * ((k : K) + 1)))) := by
      rw [Finset.mul_sum, Finset.mul_sum, Finset.mul_sum, Finset.mul_sum, ← Finset.sum_add_distrib,
        ← Finset.sum_add_distrib, ← Finset.sum_add_distrib]
      exact Finset.sum_congr rfl fun k hk => by rw [hg k hk]; ring
    rw [this, n0, n1]; ring
  obtain ⟨ea, eb⟩ := (opt (c * a + d) (c * b)).2 (by
    rw [key]; linarith [Finset.sum_nonneg fun k (_ : k ∈ Finset.range xs.length) =>
      sq_nonneg ((c * a + d - a') + (c * b - b') * ((k : K) + 1))])
  rw [ea, eb]

end

section
variable {K : Type} [Field K] [DecidableEq K]

/-- **C83**, `Inv2x2`: a matrix with a determinant is replaced by its inverse (0 is returned), any other matrix is left
as it was (-1). The four products are those of the rows of the matrix with the columns of the result. -/
theorem C83_inverse (a b c d : K) (t : List K) :
    (a * d - b * c ≠ 0 → ∃ a' b' c' d', inv2x2 { rows := 2, cols := 2, data := some (a :: b :: c :: d :: t) } =
        .ok (0, { rows := 2, cols := 2, data := some (a' :: b' :: c' :: d' :: t) }) ∧
      a * a' + c * b' = 1 ∧ a * c' + c * d' = 0 ∧ b * a' + d * b' = 0 ∧ b * c' + d * d' = 1) ∧
    (a * d - b * c = 0 → inv2x2 { rows := 2, cols := 2, data := some (a :: b :: c :: d :: t) } =
        .ok (-1, { rows := 2, cols := 2, data := some (a :: b :: c :: d :: t) })) := by
  constructor
  · intro h
    rw [inv2x2_cells, if_neg h]
    refine ⟨_, _, _, _, rfl, ?_, ?_, ?_, ?_⟩ <;> field_simp <;> ring
  · intro h
    rw [inv2x2_cells, if_pos h]

end

/-! ## Non-vacuity -/

example : IsCells ({ rows := 3, cols := 1, data := some [1, 2, 6] } : Mat ℚ) [1, 2, 6] := by
  refine ⟨rfl, ?_⟩
  intro k x hk
  rcases k with _ | _ | _ | k <;> simp at hk <;> subst hk <;> decide +kernel

example : regressionTrend ({ rows := 3, cols := 1, data := some [1, 2, 6] } : Mat ℚ) [0, 0, 9] =
    .ok { rows := 2, cols := 1, data := some [-2, 5 / 2, 9] } := by decide +kernel

example : inv2x2 ({ rows := 2, cols := 2, data := some [1, 2, 3, 4] } : Mat ℚ) =
    .ok (0, { rows := 2, cols := 2, data := some [-2, 1, 3 / 2, -1 / 2] }) := by decide +kernel

end De
end LDT
