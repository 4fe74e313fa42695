import Verif.Spec.Distribution
import Mathlib.Tactic.Ring
import Mathlib.Tactic.FieldSimp
import Mathlib.Tactic.Linarith
import Mathlib.Analysis.SpecificLimits.Normed
import Mathlib.Analysis.SpecialFunctions.Exponential
import Mathlib.Topology.Algebra.InfiniteSum.NatInt
/-! # Moments from raw moments; factorial moments of the discrete laws -/
namespace LDT
namespace Di
open Op MeasureTheory

/-- An average is linear. -/
structure Lin (avg : (ℝ → ℝ) → ℝ → Prop) : Prop where
  add : ∀ {g h a b}, avg g a → avg h b → avg (fun x => g x + h x) (a + b)
  smul : ∀ {g a} (c : ℝ), avg g a → avg (fun x => c * g x) (c * a)

theorem sumAvg_lin (w : ℤ → ℝ) : Lin (SumAvg w) where
  add := by
    intro g h a b hg hh
    refine (HasSum.add hg hh).congr_fun ?_ |> fun h => h
    intro k; ring
  smul := by
    intro g a c hg
    have := HasSum.mul_left c hg
    refine this.congr_fun ?_
    intro k; ring

theorem intAvg_lin (f : ℝ → ℝ) : Lin (IntAvg f) where
  add := by
    rintro g h a b ⟨hg, rfl⟩ ⟨hh, rfl⟩
    have e : (fun x => f x * (g x + h x)) = fun x => f x * g x + f x * h x := by funext x; ring
    exact ⟨by rw [e]; exact hg.add hh, by rw [e]; exact integral_add hg hh⟩
  smul := by
    rintro g a c ⟨hg, rfl⟩
    have e : (fun x => f x * (c * g x)) = fun x => c * (f x * g x) := by funext x; ring
    exact ⟨by rw [e]; exact hg.const_mul c, by rw [e]; exact integral_const_mul c _⟩

section
variable {avg : (ℝ → ℝ) → ℝ → Prop} (L : Lin avg)
include L

theorem Lin.cast {g h : ℝ → ℝ} {a b : ℝ} (H : avg g a) (e : ∀ x, g x = h x) (e' : a = b) : avg h b := by
  have : g = h := funext e
  subst this; subst e'; exact H

theorem Lin.meanVar {c r1 r2 : ℝ} (h0 : avg (fun _ => 1) 1) (h1 : avg (fun x => x - c) r1) (h2 : avg (fun x => (x - c) ^ 2) r2) :
    MeanVar avg (c + r1) (r2 - r1 ^ 2) where
  total := h0
  mean := L.cast (L.add h1 (L.smul c h0)) (fun x => by ring) (by ring)
  variance := L.cast (L.add h2 (L.add (L.smul (-2 * r1) h1) (L.smul (r1 ^ 2) h0))) (fun x => by ring) (by ring)

theorem Lin.central3 {c r1 r2 r3 : ℝ} (h0 : avg (fun _ => 1) 1) (h1 : avg (fun x => x - c) r1)
    (h2 : avg (fun x => (x - c) ^ 2) r2) (h3 : avg (fun x => (x - c) ^ 3) r3) :
    avg (fun x => (x - (c + r1)) ^ 3) (r3 - 3 * r1 * r2 + 2 * r1 ^ 3) :=
  L.cast (L.add h3 (L.add (L.smul (-3 * r1) h2) (L.add (L.smul (3 * r1 ^ 2) h1) (L.smul (-r1 ^ 3) h0))))
    (fun x => by ring) (by ring)

theorem Lin.central4 {c r1 r2 r3 r4 : ℝ} (h0 : avg (fun _ => 1) 1) (h1 : avg (fun x => x - c) r1)
    (h2 : avg (fun x => (x - c) ^ 2) r2) (h3 : avg (fun x => (x - c) ^ 3) r3) (h4 : avg (fun x => (x - c) ^ 4) r4) :
    avg (fun x => (x - (c + r1)) ^ 4) (r4 - 4 * r1 * r3 + 6 * r1 ^ 2 * r2 - 3 * r1 ^ 4) :=
  L.cast (L.add h4 (L.add (L.smul (-4 * r1) h3) (L.add (L.smul (6 * r1 ^ 2) h2)
    (L.add (L.smul (-4 * r1 ^ 3) h1) (L.smul (r1 ^ 4) h0)))))
    (fun x => by ring) (by ring)

end

/-- The four moments about a point, as one statement. -/
structure Raw (avg : (ℝ → ℝ) → ℝ → Prop) (c r1 r2 r3 r4 : ℝ) : Prop where
  h0 : avg (fun _ => 1) 1
  h1 : avg (fun x => x - c) r1
  h2 : avg (fun x => (x - c) ^ 2) r2
  h3 : avg (fun x => (x - c) ^ 3) r3
  h4 : avg (fun x => (x - c) ^ 4) r4

theorem Raw.all {avg} (L : Lin avg) {c r1 r2 r3 r4 m v : ℝ} (R : Raw avg c r1 r2 r3 r4) (hm : c + r1 = m) (hv : r2 - r1 ^ 2 = v) :
    MeanVar avg m v ∧
    avg (fun x => (x - m) ^ 3) (r3 - 3 * r1 * r2 + 2 * r1 ^ 3) ∧
    avg (fun x => (x - m) ^ 4) (r4 - 4 * r1 * r3 + 6 * r1 ^ 2 * r2 - 3 * r1 ^ 4) := by
  subst hm; subst hv
  exact ⟨L.meanVar R.h0 R.h1 R.h2, L.central3 R.h0 R.h1 R.h2 R.h3, L.central4 R.h0 R.h1 R.h2 R.h3 R.h4⟩

/-- A mass function that lives on the natural numbers. -/
theorem hasSum_int_of_nat {f : ℤ → ℝ} {v : ℝ} (h0 : ∀ k : ℤ, k < 0 → f k = 0) (h : HasSum (fun n : ℕ => f n) v) : HasSum f v := by
  refine (Function.Injective.hasSum_iff Nat.cast_injective ?_).mp h
  intro k hk
  apply h0
  by_contra hc
  exact hk ⟨k.toNat, by simp [Int.toNat_of_nonneg (not_lt.mp hc)]⟩

/-- Raw moments about zero from factorial moments, for a mass function on the natural numbers. -/
theorem raw_of_factorial {w : ℤ → ℝ} {u : ℕ → ℝ} (hneg : ∀ k : ℤ, k < 0 → w k = 0) (hu : ∀ n : ℕ, w n = u n) {F : ℕ → ℝ}
    (hF : ∀ j, HasSum (fun n : ℕ => u n * (n.descFactorial j : ℝ)) (F j)) (hF0 : F 0 = 1) :
    Raw (SumAvg w) 0 (F 1) (F 2 + F 1) (F 3 + 3 * F 2 + F 1) (F 4 + 6 * F 3 + 7 * F 2 + F 1) := by
  have d0 : ∀ n : ℕ, (n.descFactorial 0 : ℝ) = 1 := fun n => by simp
  have d1 : ∀ n : ℕ, (n.descFactorial 1 : ℝ) = n := fun n => by simp
  have ds : ∀ n j : ℕ, (n.descFactorial (j + 1) : ℝ) = (n - j) * n.descFactorial j := by
    intro n j
    rw [Nat.descFactorial_succ]
    rcases le_or_gt j n with h | h
    · push_cast [Nat.cast_sub h]; ring
    · simp [Nat.descFactorial_of_lt h]
  have d2 : ∀ n : ℕ, (n.descFactorial 2 : ℝ) = (n - 1) * n := fun n => by rw [ds, d1]; simp
  have d3 : ∀ n : ℕ, (n.descFactorial 3 : ℝ) = (n - 2) * ((n - 1) * n) := fun n => by rw [ds, d2]; norm_num
  have d4 : ∀ n : ℕ, (n.descFactorial 4 : ℝ) = (n - 3) * ((n - 2) * ((n - 1) * n)) := fun n => by rw [ds, d3]; norm_num
  have key : ∀ (g : ℝ → ℝ) (v : ℝ), HasSum (fun n : ℕ => u n * g n) v → SumAvg w g v := by
    intro g v h
    refine hasSum_int_of_nat (fun k hk => by simp [hneg k hk]) ?_
    refine h.congr_fun ?_
    intro n; simp [hu]
  refine ⟨?_, ?_, ?_, ?_, ?_⟩
  · refine key _ _ ?_
    have := hF 0
    rw [hF0] at this
    exact this.congr_fun fun n => by rw [d0]
  · refine key _ _ ?_
    refine (hF 1).congr_fun fun n => by rw [d1, sub_zero]
  · refine key _ _ ?_
    refine ((hF 2).add (hF 1)).congr_fun fun n => by rw [d1, d2]; ring
  · refine key _ _ ?_
    refine (((hF 3).add ((hF 2).mul_left 3)).add (hF 1)).congr_fun fun n => by rw [d1, d2, d3]; ring
  · refine key _ _ ?_
    refine ((((hF 4).add ((hF 3).mul_left 6)).add ((hF 2).mul_left 7)).add (hF 1)).congr_fun fun n => by rw [d1, d2, d3, d4]; ring

/-- Factorial moments of the Poisson law. -/
theorem poisson_factorial (l : ℝ) (j : ℕ) :
    HasSum (fun n : ℕ => Real.exp (-l) * l ^ n / (n.factorial : ℝ) * (n.descFactorial j : ℝ)) (l ^ j) := by
  have h := NormedSpace.expSeries_div_hasSum_exp (𝔸 := ℝ) l
  rw [← Real.exp_eq_exp_ℝ] at h
  have h2 := h.mul_left (Real.exp (-l) * l ^ j)
  have e : Real.exp (-l) * l ^ j * Real.exp l = l ^ j := by
    rw [mul_right_comm, ← Real.exp_add]; simp
  rw [e] at h2
  rw [← hasSum_nat_add_iff' j]
  have z : ∑ i ∈ Finset.range j, Real.exp (-l) * l ^ i / (i.factorial : ℝ) * (i.descFactorial j : ℝ) = 0 := by
    apply Finset.sum_eq_zero
    intro i hi
    rw [Nat.descFactorial_of_lt (Finset.mem_range.mp hi)]; simp
  rw [z, sub_zero]
  refine h2.congr_fun ?_
  intro n
  have hf : ((n + j).descFactorial j : ℝ) * n.factorial = (n + j).factorial := by
    have := Nat.factorial_mul_descFactorial (Nat.le_add_left j n)
    rw [Nat.add_sub_cancel] at this
    rw [mul_comm]; exact_mod_cast this
  have h0 : (n.factorial : ℝ) ≠ 0 := by positivity
  have h1 : ((n + j).factorial : ℝ) ≠ 0 := by positivity
  field_simp
  rw [pow_add, ← hf]
  ring

/-- Factorial moments of the geometric law (number of failures). -/
theorem geometric_factorial (p : ℝ) (h0 : 0 < p) (h1 : p ≤ 1) (j : ℕ) :
    HasSum (fun n : ℕ => (1 - p) ^ n * p * (n.descFactorial j : ℝ)) ((j.factorial : ℝ) * ((1 - p) / p) ^ j) := by
  have hr : ‖(1 - p)‖ < 1 := by rw [Real.norm_eq_abs, abs_lt]; constructor <;> linarith
  have h := hasSum_choose_mul_geometric_of_norm_lt_one j hr
  have h2 := h.mul_left (p * (1 - p) ^ j * j.factorial)
  rw [← hasSum_nat_add_iff' j]
  have z : ∑ i ∈ Finset.range j, (1 - p) ^ i * p * (i.descFactorial j : ℝ) = 0 := by
    apply Finset.sum_eq_zero
    intro i hi
    rw [Nat.descFactorial_of_lt (Finset.mem_range.mp hi)]; simp
  rw [z, sub_zero]
  have e : p * (1 - p) ^ j * (j.factorial : ℝ) * (1 / (1 - (1 - p)) ^ (j + 1)) = (j.factorial : ℝ) * ((1 - p) / p) ^ j := by
    rw [sub_sub_cancel, div_pow, pow_succ]
    field_simp
  rw [e] at h2
  refine h2.congr_fun ?_
  intro n
  have hf : ((n + j).descFactorial j : ℝ) = j.factorial * ((n + j).choose j : ℝ) := by
    exact_mod_cast Nat.descFactorial_eq_factorial_mul_choose (n + j) j
  rw [hf, pow_add]; ring

/-- Factorial moments of the binomial law. -/
theorem binomial_factorial (n : ℕ) (p : ℝ) (j : ℕ) :
    HasSum (fun k : ℕ => ((n.choose k : ℝ) * p ^ k * (1 - p) ^ (n - k)) * (k.descFactorial j : ℝ)) ((n.descFactorial j : ℝ) * p ^ j) := by
  have hs : HasSum (fun k : ℕ => ((n.choose k : ℝ) * p ^ k * (1 - p) ^ (n - k)) * (k.descFactorial j : ℝ))
      (∑ k ∈ Finset.range (n + 1), ((n.choose k : ℝ) * p ^ k * (1 - p) ^ (n - k)) * (k.descFactorial j : ℝ)) := by
    apply hasSum_sum_of_ne_finset_zero
    intro k hk
    rw [Finset.mem_range, not_lt] at hk
    rw [Nat.choose_eq_zero_of_lt (by omega)]; simp
  convert hs using 1
  rcases lt_or_ge n j with h | h
  · rw [Nat.descFactorial_of_lt h]
    symm
    rw [Nat.cast_zero, zero_mul]
    apply Finset.sum_eq_zero
    intro k hk
    rw [Nat.descFactorial_of_lt (by have := Finset.mem_range.mp hk; omega)]; simp
  · obtain ⟨m, rfl⟩ := Nat.exists_eq_add_of_le h
    rw [add_assoc, Finset.sum_range_add]
    have z : ∑ k ∈ Finset.range j, (((j + m).choose k : ℝ) * p ^ k * (1 - p) ^ (j + m - k)) * (k.descFactorial j : ℝ) = 0 := by
      apply Finset.sum_eq_zero
      intro i hi
      rw [Nat.descFactorial_of_lt (Finset.mem_range.mp hi)]; simp
    rw [z, zero_add]
    have b : (1 : ℝ) = ∑ k ∈ Finset.range (m + 1), p ^ k * (1 - p) ^ (m - k) * (m.choose k : ℝ) := by
      rw [← add_pow]; simp
    calc ((j + m).descFactorial j : ℝ) * p ^ j = ((j + m).descFactorial j : ℝ) * p ^ j *
          ∑ k ∈ Finset.range (m + 1), p ^ k * (1 - p) ^ (m - k) * (m.choose k : ℝ) := by rw [← b, mul_one]
      _ = _ := by
        rw [Finset.mul_sum]
        apply Finset.sum_congr rfl
        intro k hk
        have hk' : k ≤ m := by have := Finset.mem_range.mp hk; omega
        have e1 : (((j + m).choose (j + k) : ℝ)) * ((j + k).descFactorial j : ℝ) = ((j + m).descFactorial j : ℝ) * (m.choose k : ℝ) := by
          have := Nat.choose_mul (n := j + m) (k := j + k) (s := j) (by omega)
          rw [Nat.add_sub_cancel_left, Nat.add_sub_cancel_left] at this
          have a1 := Nat.descFactorial_eq_factorial_mul_choose (j + k) j
          have a2 := Nat.descFactorial_eq_factorial_mul_choose (j + m) j
          rw [a1, a2]
          have := congrArg (fun z : ℕ => j.factorial * z) this
          push_cast
          have t : ((j.factorial * ((j + m).choose (j + k) * (j + k).choose j) : ℕ) : ℝ) =
              ((j.factorial * ((j + m).choose j * m.choose k) : ℕ) : ℝ) := by exact_mod_cast this
          push_cast at t
          linarith
        have e2 : j + m - (j + k) = m - k := by omega
        rw [e2, pow_add]
        calc _ = ((j + m).descFactorial j : ℝ) * (m.choose k : ℝ) * (p ^ j * p ^ k * (1 - p) ^ (m - k)) := by ring
          _ = _ := by rw [← e1]; ring

end Di
end LDT
