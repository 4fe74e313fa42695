import Verif.Lemmas.SurAll
/-!
# Sizes, and the whole calculation without a search
-/
namespace LDT
namespace Su
open Mx Matrix Ls
open Co (part)
open Arr (Val)

theorem storageSize_mono (o : Opts) {N m k N0 m0 k0 : Int} (h0 : 0 ≤ N) (h1 : 0 ≤ m) (h2 : 0 ≤ k) (a : N ≤ N0) (b : m ≤ m0)
    (c : k ≤ k0) : storageSize o N m k ≤ storageSize o N0 m0 k0 := by
  have m0p : 0 ≤ m0 := by omega
  have k0p : 0 ≤ k0 := by omega
  have N0p : 0 ≤ N0 := by omega
  have km : k * m ≤ k0 * m0 := mul_le_mul c b h1 k0p
  have km0 : 0 ≤ k * m := by positivity
  have k0m0 : 0 ≤ k0 * m0 := by positivity
  have kk : (k * m) * (k * m) ≤ (k0 * m0) * (k0 * m0) := mul_le_mul km km km0 k0m0
  have Nm : N * m ≤ N0 * m0 := mul_le_mul a b h1 N0p
  have mm : m * m ≤ m0 * m0 := mul_le_mul b b h1 m0p
  unfold storageSize
  rw [mul_assoc 2 N m, mul_assoc 2 N0 m0]
  split_ifs <;> omega

theorem workSize_mono (o : Opts) {N m k N0 m0 k0 : Int} (h0 : 0 ≤ N) (h1 : 0 ≤ m) (h2 : 0 ≤ k) (a : N ≤ N0) (b : m ≤ m0)
    (c : k ≤ k0) : workSize o N m k ≤ workSize o N0 m0 k0 := by
  have m0p : 0 ≤ m0 := by omega
  have k0p : 0 ≤ k0 := by omega
  have N0p : 0 ≤ N0 := by omega
  have km : k * m ≤ k0 * m0 := mul_le_mul c b h1 k0p
  have km0 : 0 ≤ k * m := by positivity
  have k0m0 : 0 ≤ k0 * m0 := by positivity
  have Nm0 : 0 ≤ N * m := by positivity
  have N0m0 : 0 ≤ N0 * m0 := by positivity
  have kk : (k * m) * (k * m) ≤ (k0 * m0) * (k0 * m0) := mul_le_mul km km km0 k0m0
  have Nm : N * m ≤ N0 * m0 := mul_le_mul a b h1 N0p
  have mm : m * m ≤ m0 * m0 := mul_le_mul b b h1 m0p
  have k2 : k * k ≤ k0 * k0 := mul_le_mul c c h2 k0p
  have nk : (N * m) * (k * m) ≤ (N0 * m0) * (k0 * m0) := mul_le_mul Nm km km0 N0m0
  have e1 : 2 * (k * m) * (k * m) = 2 * ((k * m) * (k * m)) := by ring
  have e2 : 2 * (k0 * m0) * (k0 * m0) = 2 * ((k0 * m0) * (k0 * m0)) := by ring
  have e3 : 3 * N * m * (k * m) = 3 * ((N * m) * (k * m)) := by ring
  have e4 : 3 * N0 * m0 * (k0 * m0) = 3 * ((N0 * m0) * (k0 * m0)) := by ring
  unfold workSize
  rw [e1, e2, e3, e4]
  dsimp only
  split_ifs <;> omega

section
variable {K : Type} [Field K] [LinearOrder K] {N m k q : Nat}

/-- The needs of all steps are met by the announced sizes. -/
structure Enough (o : Opts) (N m k : Nat) (storage work : List K) : Prop where
  room : (k : Int) * m + (k : Int) * m + ((k : Int) * m) * ((k : Int) * m) + (N : Int) * m + (N : Int) * m + (m : Int) * m ≤ storage.length
  det : o.details = true → detStart N m k + 3 * ((k : Int) * m) ≤ storage.length
  un : (k : Int) * k + (k : Int) * m ≤ work.length
  mm : (m : Int) * m ≤ work.length
  re : o.restricted = true → ∀ q : Nat, q ≤ m * k → (k : Int) * k + ((k : Int) * m) * ((k : Int) * m) + (q : Int) * ((k : Int) * m) +
      ((N : Int) * m) * ((k : Int) * m) + ((N : Int) * m) * q + (q : Int) * 1 ≤ work.length
  var : o.details = true → ∀ q : Nat, q ≤ m * k → ((k : Int) * m) * q + ((k : Int) * m) * ((k : Int) * m) ≤ work.length

theorem enough (o : Opts) (pm : 0 < m) (pk : 0 < k) (storage work : List K)
    (hs : storageSize o N m k ≤ storage.length) (hw : workSize o N m k ≤ work.length) : Enough o N m k storage work := by
  have c1 : (k : Int) * m = ((m * k : Nat) : Int) := by push_cast; ring
  have km0 : (0 : Int) ≤ (k : Int) * m := by positivity
  have Nm0 : (0 : Int) ≤ (N : Int) * m := by positivity
  have kk0 : (0 : Int) ≤ (k : Int) * k := by positivity
  have mm0 : (0 : Int) ≤ (m : Int) * m := by positivity
  have a1 : (0 : Int) ≤ ((N : Int) * m) * ((k : Int) * m) := by positivity
  have a2 : (m : Int) ≤ (k : Int) * m := by nlinarith [(show (1 : Int) ≤ k by exact_mod_cast pk), (show (0 : Int) ≤ m by positivity)]
  have a3 : (m : Int) * m ≤ ((k : Int) * m) * ((k : Int) * m) := mul_le_mul a2 a2 (by positivity) km0
  have a4 : (0 : Int) ≤ ((k : Int) * m) * ((k : Int) * m) := by positivity
  have e1 : 2 * ((k : Int) * m) * ((k : Int) * m) = 2 * (((k : Int) * m) * ((k : Int) * m)) := by ring
  have e3 : 3 * (N : Int) * m * ((k : Int) * m) = 3 * (((N : Int) * m) * ((k : Int) * m)) := by ring
  have e5 : 2 * (N : Int) * m = 2 * ((N : Int) * m) := by ring
  unfold storageSize at hs
  unfold workSize at hw
  rw [e5] at hs
  rw [e1, e3] at hw
  dsimp only at hw
  have hq : ∀ q : Nat, q ≤ m * k → (q : Int) ≤ (k : Int) * m ∧ (q : Int) * ((k : Int) * m) ≤ ((k : Int) * m) * ((k : Int) * m) ∧
      ((N : Int) * m) * q ≤ ((N : Int) * m) * ((k : Int) * m) ∧
      ((k : Int) * m) * q ≤ ((k : Int) * m) * ((k : Int) * m) := by
    intro q h
    have h' : (q : Int) ≤ (k : Int) * m := by rw [c1]; exact_mod_cast h
    exact ⟨h', mul_le_mul_of_nonneg_right h' km0, mul_le_mul_of_nonneg_left h' Nm0, mul_le_mul_of_nonneg_left h' km0⟩
  constructor
  · split_ifs at hs <;> omega
  · intro h; rw [h, if_pos rfl] at hs; unfold detStart; omega
  · split_ifs at hw <;> omega
  · split_ifs at hw <;> omega
  · intro h q h'
    obtain ⟨b1, b2, b3, b4⟩ := hq q h'
    rw [h, if_pos rfl] at hw
    split_ifs at hw <;> omega
  · intro h q h'
    obtain ⟨b1, b2, b3, b4⟩ := hq q h'
    rw [h, if_pos rfl] at hw
    omega

theorem Details.report {f : Fns K} {B V : Matrix (Fin k) (Fin m) K} {d : Det K} (h : Details f N B V d) :
    Report f N B V d := by
  intro l j
  refine ⟨_, _, _, h.std.val l j, h.t.val l j, h.prob.val l j, ?_⟩
  unfold quotient
  cases hs : f.sqrt (V l j) with
  | none => exact .undefined hs
  | some s =>
    by_cases h0 : s = 0
    · subst h0
      by_cases hb : B l j = 0
      · simp only [if_pos, hb]
        have := @Reported.nothing K _ _ f N (B l j) (V l j) hs hb
        rw [hb] at this
        exact this
      · simp only [if_true, if_neg hb]
        exact .certain hs hb
    · simp only [if_neg h0]
      exact .regular s hs h0

theorem information_eq (W : Matrix (Fin m) (Fin m) K) (X : Matrix (Fin N) (Fin k) K) (R : Matrix (Fin (m * k)) (Fin q) K) :
    information W X R = gramR W X R := by
  funext a b
  unfold information gramR
  rw [Matrix.mul_assoc, mul_apply, sum_split]
  refine Finset.sum_congr rfl fun j _ => Finset.sum_congr rfl fun l _ => ?_
  rw [mul_apply, sum_split, Finset.mul_sum]
  refine Finset.sum_congr rfl fun j' _ => ?_
  rw [Finset.mul_sum]
  refine Finset.sum_congr rfl fun l' _ => ?_
  rw [kronM_number, mul_apply, transpose_apply]
  simp only [transpose_apply]
  ring

theorem spread_eq (R : Matrix (Fin (m * k)) (Fin q) K) (V : Matrix (Fin q) (Fin q) K) :
    (fun l j => (R * V * Rᵀ) (number j l) (number j l) : Matrix (Fin k) (Fin m) K) = spread R V := by
  funext l j
  unfold spread
  rw [mul_apply, Finset.sum_comm]
  refine Finset.sum_congr rfl fun b _ => ?_
  rw [mul_apply, Finset.sum_mul]
  rfl

end
end Su
end LDT
