import Verif.Lemmas.DistMoments
import Verif.Model.Distribution
/-! # Mass functions of the discrete laws -/
namespace LDT
namespace Di
open Op MeasureTheory

theorem quot_ne {a b : ℝ} (h : b ≠ 0) : quot a b = .num (a / b) := by simp [quot, h]

theorem sqrtD_nonneg {v : ℝ} (h : 0 ≤ v) : sqrtD (.num v) = .num (Real.sqrt v) := by simp [sqrtD, h]

theorem described_of_raw {avg} (L : Lin avg) {c r1 r2 r3 r4 m v : ℝ} (R : Raw avg c r1 r2 r3 r4) {sd sk ku : Dbl ℝ}
    (hm : c + r1 = m) (hv : r2 - r1 ^ 2 = v) (hsd : sd = .num (Real.sqrt v))
    (hs : 0 < v → ∃ s k, sk = .num s ∧ ku = .num k ∧ s * (v * Real.sqrt v) = r3 - 3 * r1 * r2 + 2 * r1 ^ 3 ∧
      (k + 3) * v ^ 2 = r4 - 4 * r1 * r3 + 6 * r1 ^ 2 * r2 - 3 * r1 ^ 4) :
    Described avg (.num m) (.num v) sd sk ku := by
  obtain ⟨h1, h2, h3⟩ := R.all L hm hv
  refine ⟨m, v, rfl, rfl, h1, hsd, fun hp => ?_⟩
  obtain ⟨s, k, e1, e2, e3, e4⟩ := hs hp
  exact ⟨s, k, e1, e2, by unfold Skew; rw [e3]; exact h2, by unfold Kurt; rw [e4]; exact h3⟩

theorem isMass_of {f : ℝ → Dbl ℝ} {w : ℤ → ℝ} (h : ∀ k : ℤ, f k = .num (w k)) (hn : ∀ k, 0 ≤ w k) (ht : SumAvg w (fun _ => 1) 1) :
    IsMass f where
  finite k := ⟨w k, h k, hn k⟩
  total := by
    have : (fun k : ℤ => real (f k)) = w := by funext k; rw [h]; rfl
    rw [this]; exact ht

theorem mass_eq {f : ℝ → Dbl ℝ} {w : ℤ → ℝ} (h : ∀ k : ℤ, f k = .num (w k)) : (fun k : ℤ => real (f k)) = w := by
  funext k; rw [h]; rfl

/-- The weights of a law on the natural numbers. -/
noncomputable def onNat (u : ℕ → ℝ) (k : ℤ) : ℝ := if k < 0 then 0 else u k.toNat

theorem onNat_neg (u : ℕ → ℝ) (k : ℤ) (h : k < 0) : onNat u k = 0 := by simp [onNat, h]
theorem onNat_nat (u : ℕ → ℝ) (n : ℕ) : onNat u n = u n := by simp [onNat]

theorem onNat_nonneg {u : ℕ → ℝ} (h : ∀ n, 0 ≤ u n) (k : ℤ) : 0 ≤ onNat u k := by
  unfold onNat; split_ifs
  · exact le_rfl
  · exact h _

/-- The value of a law on the natural numbers from its values at natural numbers. -/
theorem onNat_of {f : ℝ → Dbl ℝ} {u : ℕ → ℝ} (hneg : ∀ x : ℝ, x < 0 → f x = .num 0) (hnat : ∀ n : ℕ, f n = .num (u n)) (k : ℤ) :
    f k = .num (onNat u k) := by
  unfold onNat; split_ifs with h
  · exact hneg _ (by exact_mod_cast h)
  · have : ((k.toNat : ℕ) : ℤ) = k := Int.toNat_of_nonneg (not_lt.mp h)
    rw [← hnat]
    congr 1
    exact_mod_cast this.symm

theorem pdf_below {d : Dist} (h : d.minimum = .num 0) {x : ℝ} (hx : x < 0) : d.pdf x = .num 0 := by
  simp [Dist.pdf, Dist.impossible, h, Dbl.lt, hx]

theorem poisson_pdf (l q : ℝ) (hl : 0 < l) (n : ℕ) :
    (Dist.mk .poisson l q).pdf n = .num (Real.exp (-l) * l ^ n / (n.factorial : ℝ)) := by
  have hi : (Dist.mk .poisson l q).impossible n = false := by
    simp [Dist.impossible, Dist.minimum, Dist.maximum, Dbl.lt]
  simp only [Dist.pdf, hi, Dist.density, if_neg hl.ne']
  rw [if_neg (by simp)]
  have hg : Real.Gamma ((n : ℝ) + 1) = n.factorial := Real.Gamma_nat_eq_factorial n
  have hp : (0 : ℝ) < n.factorial := by positivity
  rw [hg, abs_of_pos hp, Real.exp_sub, Real.exp_log hp, Real.exp_add]
  have e : Real.exp ((n : ℝ) * Real.log l) = l ^ n := by
    rw [mul_comm, Real.exp_mul, Real.exp_log hl, Real.rpow_natCast]
  rw [e]

theorem geometric_pdf (p q : ℝ) (n : ℕ) :
    (Dist.mk .geometric p q).pdf n = .num ((1 - p) ^ n * p) := by
  have hi : (Dist.mk .geometric p q).impossible n = false := by
    simp [Dist.impossible, Dist.minimum, Dist.maximum, Dbl.lt]
  simp only [Dist.pdf, hi, Dist.density]
  rw [if_neg (by simp), Real.rpow_natCast]

theorem bernoulli_pdf (p q : ℝ) (n : ℕ) :
    (Dist.mk .bernoulli p q).pdf n = .num (((1 : ℕ).choose n : ℝ) * p ^ n * (1 - p) ^ (1 - n)) := by
  match n with
  | 0 => simp [Dist.pdf, Dist.impossible, Dist.minimum, Dist.maximum, Dbl.lt, Dist.density]
  | 1 => simp [Dist.pdf, Dist.impossible, Dist.minimum, Dist.maximum, Dbl.lt, Dist.density]
  | n + 2 =>
    have : (Dist.mk .bernoulli p q).impossible ((n + 2 : ℕ) : ℝ) = true := by
      simp only [Dist.impossible, Dist.minimum, Dist.maximum, Dbl.lt, Bool.or_eq_true, decide_eq_true_eq]
      right; exact_mod_cast (by omega : 1 < n + 2)
    simp only [Dist.pdf, this, if_true]
    rw [Nat.choose_eq_zero_of_lt (by omega)]; simp

theorem binomial_pdf (p : ℝ) (n k : ℕ) :
    (Dist.mk .binomial p n).pdf k = .num ((n.choose k : ℝ) * p ^ k * (1 - p) ^ (n - k)) := by
  rcases le_or_gt k n with h | h
  · have hk : (k : ℝ) ≤ n := by exact_mod_cast h
    have hi : (Dist.mk .binomial p n).impossible k = false := by
      simp [Dist.impossible, Dist.minimum, Dist.maximum, Dbl.lt, h]
    simp only [Dist.pdf, hi, Dist.density]
    rw [if_neg (by simp), if_neg (by simpa using h)]
    congr 1
    rw [Nat.floor_natCast, Nat.floor_natCast, Real.rpow_natCast, ← Nat.cast_sub h, Real.rpow_natCast]
  · have hi : (Dist.mk .binomial p n).impossible k = true := by
      simp [Dist.impossible, Dist.minimum, Dist.maximum, Dbl.lt, h]
    simp only [Dist.pdf, hi, if_true]
    rw [Nat.choose_eq_zero_of_lt h]; simp

/-- The weights of the uniform law on the integers from `a` to `b`. -/
noncomputable def uniW (a b k : ℤ) : ℝ := if a ≤ k ∧ k ≤ b then 1 / ((b : ℝ) - a + 1) else 0

theorem uniform_pdf (a b k : ℤ) : (Dist.mk .uniformDis a b).pdf k = .num (uniW a b k) := by
  by_cases h : a ≤ k ∧ k ≤ b
  · have hi : (Dist.mk .uniformDis a b).impossible k = false := by
      simp [Dist.impossible, Dist.minimum, Dist.maximum, Dbl.lt, h.1, h.2]
    simp only [Dist.pdf, hi, Dist.density, uniW]
    rw [if_neg (by simp), if_pos (by exact_mod_cast h), if_pos h]
  · have hi : (Dist.mk .uniformDis a b).impossible k = true := by
      simp only [Dist.impossible, Dist.minimum, Dist.maximum, Dbl.lt, Bool.or_eq_true, decide_eq_true_eq]
      rw [not_and_or] at h
      rcases h with h | h
      · left; exact_mod_cast not_le.mp h
      · right; exact_mod_cast not_le.mp h
    simp only [Dist.pdf, hi, uniW, if_true]
    rw [if_neg h]

/-- A sum over the integers from `a` to `a + n - 1`. -/
theorem uniform_avg (a : ℤ) (n : ℕ) (hn : 0 < n) (g : ℝ → ℝ) :
    SumAvg (uniW a (a + n - 1)) g (∑ i ∈ Finset.range n, 1 / (n : ℝ) * g ((a : ℝ) + i)) := by
  have hinj : Function.Injective (fun i : ℕ => a + (i : ℤ)) := by intro x y h; simpa using h
  have e : ∀ i : ℕ, uniW a (a + n - 1) (a + i) * g ((a + i : ℤ) : ℝ) = if i < n then 1 / (n : ℝ) * g ((a : ℝ) + i) else 0 := by
    intro i
    unfold uniW
    by_cases h : i < n
    · rw [if_pos (by omega), if_pos h]
      push_cast
      congr 2; ring
    · rw [if_neg (by omega), if_neg h, zero_mul]
  unfold SumAvg
  rw [← Function.Injective.hasSum_iff hinj]
  · have : ((fun k : ℤ => uniW a (a + n - 1) k * g k) ∘ fun i : ℕ => a + (i : ℤ)) = fun i : ℕ =>
        if i < n then 1 / (n : ℝ) * g ((a : ℝ) + i) else 0 := by
      funext i; exact e i
    rw [this]
    have h2 : HasSum (fun i : ℕ => if i < n then 1 / (n : ℝ) * g ((a : ℝ) + i) else 0)
        (∑ i ∈ Finset.range n, if i < n then 1 / (n : ℝ) * g ((a : ℝ) + i) else 0) := by
      apply hasSum_sum_of_ne_finset_zero
      intro i hi
      rw [if_neg (by simpa using hi)]
    convert h2 using 1
    apply Finset.sum_congr rfl
    intro i hi
    rw [if_pos (Finset.mem_range.mp hi)]
  · intro k hk
    unfold uniW
    rw [if_neg, zero_mul]
    rintro ⟨h1, _⟩
    exact hk ⟨(k - a).toNat, by simp [Int.toNat_of_nonneg (sub_nonneg.mpr h1)]⟩

theorem psum0 (n : ℕ) : ∑ _i ∈ Finset.range n, (1 : ℝ) = n := by simp
theorem psum1 (n : ℕ) : ∑ i ∈ Finset.range n, (i : ℝ) = n * (n - 1) / 2 := by
  induction n with
  | zero => simp
  | succ n ih => rw [Finset.sum_range_succ, ih]; push_cast; ring
theorem psum2 (n : ℕ) : ∑ i ∈ Finset.range n, (i : ℝ) ^ 2 = n * (n - 1) * (2 * n - 1) / 6 := by
  induction n with
  | zero => simp
  | succ n ih => rw [Finset.sum_range_succ, ih]; push_cast; ring
theorem psum3 (n : ℕ) : ∑ i ∈ Finset.range n, (i : ℝ) ^ 3 = (n * (n - 1) / 2) ^ 2 := by
  induction n with
  | zero => simp
  | succ n ih => rw [Finset.sum_range_succ, ih]; push_cast; ring
theorem psum4 (n : ℕ) : ∑ i ∈ Finset.range n, (i : ℝ) ^ 4 = n * (n - 1) * (2 * n - 1) * (3 * n ^ 2 - 3 * n - 1) / 30 := by
  induction n with
  | zero => simp
  | succ n ih => rw [Finset.sum_range_succ, ih]; push_cast; ring

/-- Moments of the uniform law about its smallest value. -/
theorem uniform_raw (a : ℤ) (n : ℕ) (hn : 0 < n) :
    Raw (SumAvg (uniW a (a + n - 1))) a (((n : ℝ) - 1) / 2) (((n : ℝ) - 1) * (2 * n - 1) / 6) (n * ((n : ℝ) - 1) ^ 2 / 4)
      (((n : ℝ) - 1) * (2 * n - 1) * (3 * n ^ 2 - 3 * n - 1) / 30) := by
  have hn' : (n : ℝ) ≠ 0 := by exact_mod_cast hn.ne'
  have key : ∀ (g : ℝ → ℝ) (h : ℕ → ℝ) (s v : ℝ), (∀ i : ℕ, g ((a : ℝ) + i) = h i) → ∑ i ∈ Finset.range n, h i = s → 1 / (n : ℝ) * s = v →
      SumAvg (uniW a (a + n - 1)) g v := by
    intro g h s v e1 e2 e3
    have := uniform_avg a n hn g
    rw [← Finset.mul_sum, Finset.sum_congr rfl (fun i _ => e1 i), e2, e3] at this
    exact this
  refine ⟨key _ _ _ _ (fun i => rfl) (psum0 n) (by field_simp), key _ _ _ _ (fun i => by ring) (psum1 n) (by field_simp),
    key _ _ _ _ (fun i => by ring) (psum2 n) (by field_simp), key _ _ _ _ (fun i => by ring) (psum3 n) (by field_simp; norm_num),
    key _ _ _ _ (fun i => by ring) (psum4 n) (by field_simp)⟩

end Di
end LDT
