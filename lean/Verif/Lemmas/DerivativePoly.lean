import Verif.Lemmas.Derivative
import Mathlib.Algebra.MvPolynomial.PDeriv
import Mathlib.Algebra.MvPolynomial.Degrees
import Mathlib.Algebra.Polynomial.Derivative
import Mathlib.Algebra.Polynomial.AlgebraMap
import Mathlib.Algebra.Polynomial.Eval.Degree
import Mathlib.Algebra.Polynomial.BigOperators
import Mathlib.Tactic.LinearCombination
/-!
# Difference quotients of polynomials
-/
namespace LDT
namespace Dv
open MvPolynomial

variable {K : Type} [Field K] {n : Nat}

/-- The polynomial on the line through `x` with direction `v`. -/
noncomputable def onLine (x v : Fin n → K) (p : MvPolynomial (Fin n) K) : Polynomial K :=
  aeval (fun k => Polynomial.C (x k) + Polynomial.C (v k) * Polynomial.X) p

theorem onLine_eval (x v : Fin n → K) (p : MvPolynomial (Fin n) K) (u : K) :
    (onLine x v p).eval u = eval (fun k => x k + v k * u) p := by
  unfold onLine
  induction p using MvPolynomial.induction_on with
  | C a => simp [MvPolynomial.algebraMap_eq]
  | add p q hp hq => simp [hp, hq]
  | mul_X p i hp => simp [hp]

theorem onLine_deriv (x v : Fin n → K) (p : MvPolynomial (Fin n) K) :
    Polynomial.derivative (onLine x v p) = ∑ k, Polynomial.C (v k) * onLine x v (pderiv k p) := by
  unfold onLine
  induction p using MvPolynomial.induction_on with
  | C a => simp
  | add p q hp hq => simp [hp, hq, mul_add, Finset.sum_add_distrib]
  | mul_X p i hp =>
    have e : ∀ k, Polynomial.C (v k) * (aeval (fun k => Polynomial.C (x k) + Polynomial.C (v k) * Polynomial.X)) (pderiv k (p * X i)) =
        Polynomial.C (v k) * (aeval (fun k => Polynomial.C (x k) + Polynomial.C (v k) * Polynomial.X)) (pderiv k p) *
          (Polynomial.C (x i) + Polynomial.C (v i) * Polynomial.X) +
        (if k = i then Polynomial.C (v i) * (aeval (fun k => Polynomial.C (x k) + Polynomial.C (v k) * Polynomial.X)) p else 0) := by
      intro k
      rw [Derivation.leibniz, pderiv_X]
      simp only [smul_eq_mul, map_add, map_mul, aeval_X]
      by_cases h : k = i
      · subst h; simp; ring
      · rw [if_neg h, Pi.single_eq_of_ne (Ne.symm h)]; simp; ring
    rw [Finset.sum_congr rfl (fun k _ => e k), Finset.sum_add_distrib, ← Finset.sum_mul, ← hp]
    simp only [map_mul, aeval_X, Polynomial.derivative_mul, Polynomial.derivative_add, Polynomial.derivative_C,
      Polynomial.derivative_X, zero_mul, zero_add, mul_one, Finset.sum_ite_eq', Finset.mem_univ, if_true]
    ring

theorem onLine_degree (x v : Fin n → K) (p : MvPolynomial (Fin n) K) : (onLine x v p).natDegree ≤ p.totalDegree := by
  have hs : onLine x v p = ∑ d ∈ p.support, onLine x v (monomial d (p.coeff d)) := by
    conv_lhs => rw [← p.support_sum_monomial_coeff]
    unfold onLine
    rw [map_sum]
  rw [hs]
  apply Polynomial.natDegree_sum_le_of_forall_le
  intro d hd
  refine le_trans ?_ (le_totalDegree hd)
  unfold onLine
  rw [aeval_monomial]
  refine le_trans Polynomial.natDegree_mul_le ?_
  have h0 : (algebraMap K (Polynomial K) (p.coeff d)).natDegree = 0 := by
    rw [Polynomial.algebraMap_eq]; exact Polynomial.natDegree_C _
  rw [h0, zero_add, Finsupp.prod]
  refine le_trans (Polynomial.natDegree_prod_le _ _) ?_
  rw [Finsupp.sum]
  apply Finset.sum_le_sum
  intro i _
  refine le_trans (Polynomial.natDegree_pow_le) ?_
  have h1 : (Polynomial.C (x i) + Polynomial.C (v i) * Polynomial.X : Polynomial K).natDegree ≤ 1 := by
    rw [add_comm]; exact Polynomial.natDegree_linear_le
  calc d i * _ ≤ d i * 1 := Nat.mul_le_mul_left _ h1
    _ = d i := Nat.mul_one _

theorem onLine_coeff0 (x v : Fin n → K) (p : MvPolynomial (Fin n) K) : (onLine x v p).coeff 0 = eval x p := by
  rw [Polynomial.coeff_zero_eq_eval_zero, onLine_eval]; simp

theorem onLine_coeff1 (x v : Fin n → K) (p : MvPolynomial (Fin n) K) :
    (onLine x v p).coeff 1 = ∑ k, v k * eval x (pderiv k p) := by
  have h := congrArg (fun q => Polynomial.coeff q 0) (onLine_deriv x v p)
  simp only [Polynomial.coeff_derivative, zero_add, Nat.cast_zero, mul_one] at h
  rw [h, Polynomial.finsetSum_coeff]
  apply Finset.sum_congr rfl
  intro k _
  rw [Polynomial.coeff_C_mul, onLine_coeff0]

theorem onLine_coeff2 (x v : Fin n → K) (p : MvPolynomial (Fin n) K) :
    2 * (onLine x v p).coeff 2 = ∑ k, v k * ∑ l, v l * eval x (pderiv l (pderiv k p)) := by
  have h := congrArg (fun q => Polynomial.coeff q 1) (onLine_deriv x v p)
  simp only [Polynomial.coeff_derivative] at h
  rw [Polynomial.finsetSum_coeff] at h
  simp only [Polynomial.coeff_C_mul, onLine_coeff1] at h
  rw [← h]; push_cast; norm_num; ring

theorem pderiv_swap (i j : Fin n) (p : MvPolynomial (Fin n) K) : pderiv j (pderiv i p) = pderiv i (pderiv j p) := by
  induction p using MvPolynomial.induction_on with
  | C a => simp
  | add p q hp hq => simp [hp, hq]
  | mul_X p k hp =>
    have h : ∀ a b : Fin n, pderiv a (pderiv b (X k : MvPolynomial (Fin n) K)) = 0 := by
      intro a b
      by_cases h : k = b
      · subst h; rw [pderiv_X_self]; simp
      · rw [pderiv_X_of_ne h]; simp
    simp only [Derivation.leibniz, smul_eq_mul, map_add, hp, h]
    ring

/-- The odd part divided by `u`. -/
theorem odd_part (G : Polynomial K) {u D : K} (hu : u ≠ 0) {N : Nat} (hN : G.natDegree ≤ N) :
    (G.eval u - G.eval (-u)) / (D * u) = ∑ m ∈ Finset.range N, (if m % 2 = 0 then 2 * G.coeff (m + 1) / D else 0) * u ^ m := by
  rw [Polynomial.eval_eq_sum_range' (Nat.lt_succ_of_le hN), Polynomial.eval_eq_sum_range' (Nat.lt_succ_of_le hN),
    ← Finset.sum_sub_distrib, Finset.sum_range_succ']
  simp only [pow_zero, sub_self, add_zero]
  rw [Finset.sum_div]
  apply Finset.sum_congr rfl
  intro m _
  rw [neg_pow u]
  rcases Nat.even_or_odd m with h | h
  · rw [if_pos (Nat.even_iff.1 h), Odd.neg_one_pow (Even.add_one h), pow_succ]
    field_simp; ring
  · rw [if_neg (by rw [Nat.odd_iff.1 h]; omega), Even.neg_one_pow (Odd.add_one h)]
    simp

/-- The even part divided by `u²`. -/
theorem even_part (G : Polynomial K) {u D : K} (hu : u ≠ 0) {N : Nat} (hN : G.natDegree ≤ N + 1) (h0 : G.coeff 0 = 0) :
    (G.eval u + G.eval (-u)) / (D * u ^ 2) = ∑ m ∈ Finset.range N, (if m % 2 = 0 then 2 * G.coeff (m + 2) / D else 0) * u ^ m := by
  rw [Polynomial.eval_eq_sum_range' (Nat.lt_succ_of_le hN), Polynomial.eval_eq_sum_range' (Nat.lt_succ_of_le hN),
    ← Finset.sum_add_distrib, Finset.sum_range_succ', Finset.sum_range_succ']
  simp only [pow_zero, h0, zero_mul, add_zero, zero_add, pow_one, mul_neg, add_neg_cancel]
  rw [Finset.sum_div]
  apply Finset.sum_congr rfl
  intro m _
  rw [neg_pow u]
  rcases Nat.even_or_odd m with h | h
  · rw [if_pos (Nat.even_iff.1 h), show m + 1 + 1 = m + 2 from rfl, Even.neg_one_pow (Even.add h (by decide)), pow_add]
    field_simp; ring
  · rw [if_neg (by rw [Nat.odd_iff.1 h]; omega), show m + 1 + 1 = m + 2 from rfl, Odd.neg_one_pow (Odd.add_even h (by decide))]
    simp

/-- Extrapolation of a sequence `Σ b_m T^(-cm)` whose powers from `count` on vanish finds `b_0`. -/
theorem richardson_exact [LinearOrder K] [IsStrictOrderedRing K] {T : K} (hT : 1 < T) {count : Nat} (hc : 0 < count) (a : Nat → K)
    (N : Nat) (b : Nat → K) (hN : 0 < N) (ha : ∀ c, a c = ∑ m ∈ Finset.range N, b m * (1 / T ^ c) ^ m) (hb : ∀ m, count ≤ m → b m = 0) :
    richardson T a (count - 1) 0 = b 0 := by
  have hT0 : T ≠ 0 := ne_of_gt (lt_trans zero_lt_one hT)
  obtain ⟨b', h0, hz, hz', he⟩ := richardson_poly T hT0 N b (count - 1) (fun m h1 _ => ne_of_gt (one_lt_pow₀ hT (by omega)))
  rw [show a = fun c => ∑ m ∈ Finset.range N, b m * (1 / T ^ c) ^ m from funext ha, he]
  simp only [pow_zero, div_one, one_pow, mul_one]
  rw [Finset.sum_eq_single 0]
  · exact h0
  · intro m _ hm
    rcases Nat.lt_or_ge m count with h | h
    · exact hz m (by omega) (by omega)
    · exact hz' m (hb m h)
  · intro h; exact absurd (Finset.mem_range.2 hN) h

theorem update_line (x : Fin n → K) (i : Fin n) (s u : K) :
    Function.update x i (x i + s * u) = fun k => x k + (Pi.single i s : Fin n → K) k * u := by
  funext k
  by_cases h : k = i
  · subst h; simp
  · simp [Function.update_of_ne h, Pi.single_eq_of_ne h]

theorem moved_line (x : Fin n → K) {i j : Fin n} (hij : i ≠ j) (s t u : K) :
    moved x i j (s * u) (t * u) = fun k => x k + ((Pi.single i s + Pi.single j t : Fin n → K) k) * u := by
  unfold moved
  funext k
  by_cases h : k = j
  · subst h; simp [Pi.single_eq_of_ne (Ne.symm hij)]
  · by_cases h' : k = i
    · subst h'; simp [Function.update_of_ne h, Pi.single_eq_of_ne h]
    · simp [Function.update_of_ne h, Function.update_of_ne h', Pi.single_eq_of_ne h, Pi.single_eq_of_ne h']

theorem richardson_slope [LinearOrder K] [IsStrictOrderedRing K] (p : MvPolynomial (Fin n) K) (x : Fin n → K) (i : Fin n) {h T : K}
    (hh : h ≠ 0) (hT : 1 < T) {count : Nat} (hc : 0 < count) (hd : p.totalDegree ≤ count + count % 2) :
    richardson T (fun c => slope (fun y => eval y p) x i (h / T ^ c)) (count - 1) 0 = eval x (pderiv i p) := by
  have hT0 : T ≠ 0 := ne_of_gt (lt_trans zero_lt_one hT)
  have hg := onLine_degree x (Pi.single i h) p
  rw [richardson_exact hT hc _ (count + count % 2)
    (fun m => if m % 2 = 0 then 2 * (onLine x (Pi.single i h) p).coeff (m + 1) / (2 * h) else 0) (by omega) ?_ ?_]
  · simp only [Nat.zero_mod, if_true, zero_add, onLine_coeff1]
    rw [Finset.sum_eq_single i]
    · rw [Pi.single_eq_same]; field_simp
    · intro k _ hk; rw [Pi.single_eq_of_ne hk]; simp
    · intro h; exact absurd (Finset.mem_univ i) h
  · intro c
    have hu : (1 / T ^ c : K) ≠ 0 := one_div_ne_zero (pow_ne_zero _ hT0)
    rw [← odd_part (onLine x (Pi.single i h) p) hu (le_trans hg hd), onLine_eval, onLine_eval, ← update_line, ← update_line]
    unfold slope
    rw [show h * (1 / T ^ c) = h / T ^ c by ring, show x i + h * -(1 / T ^ c) = x i - h / T ^ c by ring,
      show 2 * h * (1 / T ^ c) = 2 * (h / T ^ c) by ring]
  · intro m hm
    rcases Nat.mod_two_eq_zero_or_one m with h2 | h2
    · rw [if_pos h2, Polynomial.coeff_eq_zero_of_natDegree_lt (by omega)]; simp
    · rw [if_neg (by omega)]

theorem richardson_bend [LinearOrder K] [IsStrictOrderedRing K] (p : MvPolynomial (Fin n) K) (x : Fin n → K) (i j : Fin n) {hi hj T : K}
    (hi0 : hi ≠ 0) (hj0 : hj ≠ 0) (hs : i = j → hi = hj) (hT : 1 < T) {count : Nat} (hc : 0 < count)
    (hd : p.totalDegree ≤ count + 1 + count % 2) :
    richardson T (fun c => bend (fun y => eval y p) x i j (hi / T ^ c) (hj / T ^ c)) (count - 1) 0 = eval x (pderiv i (pderiv j p)) := by
  have hT0 : T ≠ 0 := ne_of_gt (lt_trans zero_lt_one hT)
  have h20 : (2 : K) ≠ 0 := two_ne_zero
  by_cases hij : i = j
  · subst hij
    have hs := hs rfl
    subst hs
    have hg := onLine_degree x (Pi.single i (2 * hi)) p
    have hcoeff : ∀ m, (onLine x (Pi.single i (2 * hi)) p - Polynomial.C (eval x p)).coeff (m + 2) =
        (onLine x (Pi.single i (2 * hi)) p).coeff (m + 2) := by
      intro m; rw [Polynomial.coeff_sub, Polynomial.coeff_C, if_neg (by omega), sub_zero]
    have hdeg : (onLine x (Pi.single i (2 * hi)) p - Polynomial.C (eval x p)).natDegree ≤ count + 1 + count % 2 := by
      refine le_trans (Polynomial.natDegree_sub_le _ _) ?_
      rw [Polynomial.natDegree_C]; simp only [zero_le, sup_of_le_left]; exact le_trans hg hd
    rw [richardson_exact hT hc _ (count + count % 2)
      (fun m => if m % 2 = 0 then 2 * (onLine x (Pi.single i (2 * hi)) p - Polynomial.C (eval x p)).coeff (m + 2) / ((2 * hi) ^ 2) else 0)
      (by omega) ?_ ?_]
    · simp only [Nat.zero_mod, if_true]
      rw [hcoeff, zero_add, onLine_coeff2, Finset.sum_eq_single i]
      · rw [Pi.single_eq_same, Finset.sum_eq_single i]
        · rw [Pi.single_eq_same]; field_simp
        · intro k _ hk; rw [Pi.single_eq_of_ne hk]; simp
        · intro h; exact absurd (Finset.mem_univ i) h
      · intro k _ hk; rw [Pi.single_eq_of_ne hk]; simp
      · intro h; exact absurd (Finset.mem_univ i) h
    · intro c
      have hu : (1 / T ^ c : K) ≠ 0 := one_div_ne_zero (pow_ne_zero _ hT0)
      rw [← even_part _ hu (by omega) (by rw [Polynomial.coeff_sub, onLine_coeff0, Polynomial.coeff_C_zero, sub_self])]
      rw [Polynomial.eval_sub, Polynomial.eval_sub, Polynomial.eval_C, Polynomial.eval_C, onLine_eval, onLine_eval, ← update_line,
        ← update_line]
      unfold bend
      rw [if_pos rfl, show 2 * hi * (1 / T ^ c) = 2 * (hi / T ^ c) by ring,
        show x i + 2 * hi * -(1 / T ^ c) = x i - 2 * (hi / T ^ c) by ring]
      congr 1 <;> ring
    · intro m hm
      rcases Nat.mod_two_eq_zero_or_one m with h2 | h2
      · rw [if_pos h2, hcoeff, Polynomial.coeff_eq_zero_of_natDegree_lt (by omega)]; simp
      · rw [if_neg (by omega)]
  · have hg1 := onLine_degree x (Pi.single i hi + Pi.single j hj) p
    have hg2 := onLine_degree x (Pi.single i hi + Pi.single j (-hj)) p
    have hdeg : (onLine x (Pi.single i hi + Pi.single j hj) p - onLine x (Pi.single i hi + Pi.single j (-hj)) p).natDegree ≤
        count + 1 + count % 2 := by
      refine le_trans (Polynomial.natDegree_sub_le _ _) ?_
      exact max_le (le_trans hg1 hd) (le_trans hg2 hd)
    have hsum : ∀ (a b : K) (F : Fin n → K), ∑ k, (Pi.single i a + Pi.single j b : Fin n → K) k * F k = a * F i + b * F j := by
      intro a b F
      simp only [Pi.add_apply, add_mul, Finset.sum_add_distrib]
      congr 1
      · rw [Finset.sum_eq_single i]
        · rw [Pi.single_eq_same]
        · intro k _ hk; rw [Pi.single_eq_of_ne hk]; simp
        · intro h; exact absurd (Finset.mem_univ i) h
      · rw [Finset.sum_eq_single j]
        · rw [Pi.single_eq_same]
        · intro k _ hk; rw [Pi.single_eq_of_ne hk]; simp
        · intro h; exact absurd (Finset.mem_univ j) h
    rw [richardson_exact hT hc _ (count + count % 2)
      (fun m => if m % 2 = 0 then 2 * (onLine x (Pi.single i hi + Pi.single j hj) p -
        onLine x (Pi.single i hi + Pi.single j (-hj)) p).coeff (m + 2) / (4 * hi * hj) else 0) (by omega) ?_ ?_]
    · simp only [Nat.zero_mod, if_true]
      rw [Polynomial.coeff_sub, zero_add, mul_sub, onLine_coeff2, onLine_coeff2]
      simp only [hsum]
      have hcomm : pderiv j (pderiv i p) = pderiv i (pderiv j p) := pderiv_swap i j p
      rw [hcomm]
      field_simp
      ring
    · intro c
      have hu : (1 / T ^ c : K) ≠ 0 := one_div_ne_zero (pow_ne_zero _ hT0)
      rw [← even_part _ hu (by omega) (by rw [Polynomial.coeff_sub, onLine_coeff0, onLine_coeff0, sub_self])]
      rw [Polynomial.eval_sub, Polynomial.eval_sub, onLine_eval, onLine_eval, onLine_eval, onLine_eval, ← moved_line x hij,
        ← moved_line x hij, ← moved_line x hij, ← moved_line x hij]
      unfold bend
      rw [if_neg hij, show hi * (1 / T ^ c) = hi / T ^ c by ring, show hj * (1 / T ^ c) = hj / T ^ c by ring,
        show -hj * (1 / T ^ c) = -(hj / T ^ c) by ring, show hi * -(1 / T ^ c) = -(hi / T ^ c) by ring,
        show hj * -(1 / T ^ c) = -(hj / T ^ c) by ring, show -hj * -(1 / T ^ c) = hj / T ^ c by ring]
      congr 1 <;> ring
    · intro m hm
      rcases Nat.mod_two_eq_zero_or_one m with h2 | h2
      · rw [if_pos h2, Polynomial.coeff_eq_zero_of_natDegree_lt (by omega)]; simp
      · rw [if_neg (by omega)]

end Dv
end LDT
