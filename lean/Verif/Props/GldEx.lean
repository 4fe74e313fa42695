import Verif.Props.GldFit
/-! # C135: concrete cases -/
namespace LDT
namespace Gl
open Op MeasureTheory Set

/-- **C135** is violated for infinite shapes of which the second is minus infinity: there is no quantile. -/
theorem C135_infinite_violated {p d1 d2 : ℝ} (h0 : 0 < p) (h1 : p < 1) {d3 : Shape} (h : d3.isInf = true) : quantileFn p d1 d2 d3 .ninf = .nan := by
  have hz : d3.isZero = false := by cases d3 <;> first | rfl | (exact absurd h (by simp [Shape.isInf]))
  have hb : quantileFn.infBoth p d1 d2 .ninf = .nan := by
    have e : (Dbl.num 1 / Dbl.num d2) * (.nan : Dbl ℝ) = .nan := by
      cases (Dbl.num 1 / Dbl.num d2 : Dbl ℝ) <;> rfl
    unfold quantileFn.infBoth
    rw [if_pos ⟨h0, h1⟩]
    simp only [e]
    rfl
  unfold quantileFn
  rw [hz, h]
  simpa [Shape.isZero, Shape.isInf] using hb

/-- The functions of mathematics. -/
noncomputable def actual : Fns where
  euler := Real.eulerMascheroniConstant
  digamma := fun x => deriv Real.Gamma x / Real.Gamma x
  polygamma := fun n x => iteratedDeriv n (fun y => deriv Real.Gamma y / Real.Gamma y) x
  beta := fun x y => ∫ t in (0 : ℝ)..1, t ^ (x - 1) * (1 - t) ^ (y - 1)
  zeta3 := ∑' n : ℕ, 1 / ((n : ℝ) + 1) ^ 3

theorem actual_beta : actual.Beta := ⟨fun _ _ _ _ => rfl⟩

theorem actual_digamma : actual.Digamma := ⟨rfl, fun _ _ => rfl, fun _ _ _ _ => rfl, rfl⟩

theorem beta22 : actual.beta 2 2 = 1 / 6 := by
  have : ∀ t : ℝ, t ^ ((2 : ℝ) - 1) * (1 - t) ^ ((2 : ℝ) - 1) = t - t ^ 2 := by
    intro t
    norm_num
    ring
  show (∫ t in (0 : ℝ)..1, _) = _
  simp only [this]
  rw [intervalIntegral.integral_sub (by simp) (by simp)]
  simp
  norm_num

/-- The uniform distribution on `(-1, 1)`: the shapes 1 and 1. -/
noncomputable def uniform : Gld := ⟨0, 1, 1, 1⟩

example : make 0 1 1 1 = .ok uniform := if_neg (by norm_num)

theorem uniform_curve {p : ℝ} (h0 : 0 < p) (h1 : p < 1) : uniform.curve p = 2 * p - 1 := by
  unfold Gld.curve curve uniform
  simp only
  rw [tail_num 1 h0, tail_num 1 (by linarith), if_neg one_ne_zero, if_neg one_ne_zero]
  norm_num
  ring

example : uniform.quantile (3 / 4) = .num (1 / 2) := by
  rw [(C135_quantiles uniform (by norm_num [uniform]) (3 / 4)).1 (by norm_num) (by norm_num), uniform_curve (by norm_num) (by norm_num)]
  norm_num

theorem uniform_mean : uniform.mean actual = .ok (.num 0) := by
  rw [mean_eq actual uniform (by norm_num [uniform]) (by norm_num [uniform])]
  norm_num [uniform]

/-- The mean is 0 and the variance 1/3. -/
theorem uniform_variance : uniform.variance actual = .ok (.num (1 / 3)) ∧ uniform.IsMean 0 ∧ uniform.IsCentral 2 (1 / 3) := by
  obtain ⟨m, hm, hm'⟩ := C135_mean actual uniform (by norm_num [uniform]) (by norm_num [uniform])
  obtain ⟨v, hv, hv', _⟩ := C135_variance actual_beta uniform (by norm_num [uniform]) actual_digamma (by norm_num [uniform]) (by norm_num [uniform])
  have e0 : m = 0 := by
    have h := hm.symm.trans uniform_mean
    injection h with h
    injection h
  have e : v = 1 / 3 := by
    have h := hv
    unfold Gld.variance at h
    rw [if_neg (by norm_num [uniform]), value1 uniform one_ne_zero one_ne_zero, bind_ok', value2 uniform one_ne_zero one_ne_zero, bind_ok'] at h
    injection h with h
    injection h with h
    rw [← h]
    norm_num [uniform, Gld.m1, beta22]
  subst e
  subst e0
  exact ⟨hv, hm', hv'⟩

/-- A fit with the shapes 1 and 1 to the mean 5 and the variance 4. -/
example : ∃ d1 d2, fromFound actual 5 4 1 (1, 0) = .ok (d1, d2, 1, 1) ∧ ∃ g, make d1 d2 1 1 = .ok g ∧ g.IsMean 5 ∧ g.IsCentral 2 4 := by
  obtain ⟨d1, d2, h, g, hg, hm, hv, _⟩ := C135_from_moments actual_beta actual_digamma (mean := 5) (variance := 4) (by norm_num) 1 (1, 0)
    (by norm_num) (by norm_num [second, symmetric])
  have e : second 1 (1, 0) = 1 := rfl
  rw [e] at h hg
  exact ⟨d1, d2, h, g, hg, hm, hv⟩

example : uniform.skewness actual ≠ .ok .nan := by
  obtain ⟨s, _, _, h, _⟩ := C135_skewness actual_beta uniform (by norm_num [uniform]) actual_digamma (by norm_num [uniform]) (by norm_num [uniform])
  rw [h]
  intro e
  injection e with e
  cases e

/-- The logistic distribution: the variance is a third of the square of pi. -/
example : (Gld.mk 0 1 0 0).variance actual = .ok (.num (Real.pi ^ 2 / 3)) ∧ (Gld.mk 0 1 0 0).IsCentral 2 (Real.pi ^ 2 / 3) := by
  obtain ⟨v, hv, hv', _⟩ := C135_variance actual_beta ⟨0, 1, 0, 0⟩ one_pos actual_digamma (by norm_num) (by norm_num)
  have h : (Gld.mk 0 1 0 0).variance actual = .ok (.num (Real.pi ^ 2 / 3)) := by
    unfold Gld.variance
    rw [if_neg (by norm_num)]
    have e1 : moment actual 1 0 0 = .ok 0 := by simp [moment]
    have e2 : moment actual 2 0 0 = .ok (Real.pi ^ 2 / 3) := by simp [moment]
    simp only
    rw [e1, bind_ok', e2, bind_ok']
    norm_num
  refine ⟨h, ?_⟩
  have e := hv.symm.trans h
  injection e with e
  injection e with e
  rw [← e]
  exact hv'

example : Within (1.5 : ℝ) (bounds 0.001 9).1 ∧ OfType 9 1.5 1.5 := by
  constructor
  · norm_num [bounds, symmetric, Within]
  · norm_num [OfType]

end Gl
end LDT
