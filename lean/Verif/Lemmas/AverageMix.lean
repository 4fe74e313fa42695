import Verif.Lemmas.Average
import Verif.Props.Mixture
/-! # Averages over models: densities -/
namespace LDT
namespace Srch
open Arr Di

theorem bell_eq (m v x : ℝ) (hv : 0 < v) : bell m v x = normF m (Real.sqrt v) x := by
  have hs : 0 < Real.sqrt v := Real.sqrt_pos.2 hv
  have h2 : Real.sqrt v ^ 2 = v := Real.sq_sqrt hv.le
  unfold bell normF
  congr 1
  · congr 1
    rw [← h2]; field_simp
    rw [Real.sq_sqrt (by positivity)]
  · rw [Real.sqrt_mul (by positivity)]

theorem bell_avg (m v c : ℝ) (hv : 0 < v) :
    IntAvg (bell m v) (fun _ => 1) 1 ∧ IntAvg (bell m v) (fun x => x - c) (m - c) ∧
    IntAvg (bell m v) (fun x => (x - c) ^ 2) (v + (m - c) ^ 2) ∧
    IntAvg (bell m v) (fun x => (x - c) ^ 3) (3 * v * (m - c) + (m - c) ^ 3) ∧
    IntAvg (bell m v) (fun x => (x - c) ^ 4) (3 * v ^ 2 + 6 * v * (m - c) ^ 2 + (m - c) ^ 4) := by
  have hs : 0 < Real.sqrt v := Real.sqrt_pos.2 hv
  have h2 : Real.sqrt v ^ 2 = v := Real.sq_sqrt hv.le
  have h4 : Real.sqrt v ^ 4 = v ^ 2 := by rw [show Real.sqrt v ^ 4 = (Real.sqrt v ^ 2) ^ 2 by ring, h2]
  have e : bell m v = normF m (Real.sqrt v) := funext fun x => bell_eq m v x hv
  have R := gaussMoments m (Real.sqrt v) hs
  rw [h2, h4] at R
  rw [e]
  change Raw (IntAvg (normF m (Real.sqrt v))) _ _ _ _ _ at R
  have L := intAvg_lin (normF m (Real.sqrt v))
  obtain ⟨r0, r1, r2, r3, r4⟩ := R
  refine ⟨r0, ?_, ?_, ?_, ?_⟩
  · exact L.cast (L.add r1 (L.smul (m - c) r0)) (fun x => by ring) (by ring)
  · exact L.cast (L.add r2 (L.add (L.smul (2 * (m - c)) r1) (L.smul ((m - c) ^ 2) r0))) (fun x => by ring) (by ring)
  · exact L.cast (L.add r3 (L.add (L.smul (3 * (m - c)) r2) (L.add (L.smul (3 * (m - c) ^ 2) r1) (L.smul ((m - c) ^ 3) r0))))
      (fun x => by ring) (by ring)
  · exact L.cast (L.add r4 (L.add (L.smul (4 * (m - c)) r3) (L.add (L.smul (6 * (m - c) ^ 2) r2)
      (L.add (L.smul (4 * (m - c) ^ 3) r1) (L.smul ((m - c) ^ 4) r0)))))
      (fun x => by ring) (by ring)

theorem avg_swap {f g : ℝ → ℝ} {v : ℝ} (h : IntAvg f g v) : IntAvg g f v := by
  unfold IntAvg at *
  simpa only [mul_comm] using h

/-- The averages of a mixture are the weighted averages of its parts. -/
theorem mixed_avg (ps : List Part) (g : ℝ → ℝ) (h : Part → ℝ) (H : ∀ p ∈ ps, IntAvg (bell p.m p.v) g (h p)) :
    IntAvg (mixed ps) g ((ps.map fun p => p.w * h p).sum / (ps.map (·.w)).sum) := by
  have L := intAvg_lin g
  have key : ∀ ps : List Part, (∀ p ∈ ps, IntAvg (bell p.m p.v) g (h p)) →
      IntAvg g (fun x => (ps.map fun p => p.w * bell p.m p.v x).sum) (ps.map fun p => p.w * h p).sum := by
    intro ps
    induction ps with
    | nil =>
      intro _
      constructor <;> simp
    | cons p ps ih =>
      intro H
      have a := L.smul p.w (avg_swap (H p (by simp)))
      have b := ih fun q hq => H q (by simp [hq])
      exact L.cast (L.add a b) (fun x => by simp) (by simp)
  apply avg_swap
  exact L.cast (L.smul ((ps.map (·.w)).sum)⁻¹ (key ps H)) (fun x => by unfold mixed; rw [div_eq_inv_mul])
    (by rw [div_eq_inv_mul])

theorem flat_sums (ps : List Part) (hv : ∀ p ∈ ps, 0 ≤ p.v) (c : ℝ) :
    wsum (ps.flatMap three) = (ps.map (·.w)).sum ∧
    ((ps.flatMap three).map fun q => q.2 * q.1).sum = (ps.map fun p => p.w * p.m).sum ∧
    csum 1 c (ps.flatMap three) = (ps.map fun p => p.w * (p.m - c)).sum ∧
    csum 2 c (ps.flatMap three) = (ps.map fun p => p.w * (p.v + (p.m - c) ^ 2)).sum ∧
    csum 3 c (ps.flatMap three) = (ps.map fun p => p.w * (3 * p.v * (p.m - c) + (p.m - c) ^ 3)).sum ∧
    csum 4 c (ps.flatMap three) = (ps.map fun p => p.w * (3 * p.v ^ 2 + 6 * p.v * (p.m - c) ^ 2 + (p.m - c) ^ 4)).sum := by
  induction ps with
  | nil => simp [wsum, csum]
  | cons p ps ih =>
    obtain ⟨a0, a1, a2, a3, a4, a5⟩ := three_sums p (hv p (by simp)) c
    obtain ⟨b0, b1, b2, b3, b4, b5⟩ := ih fun q hq => hv q (by simp [hq])
    simp only [List.flatMap_cons, wsum_append, csum_append, List.map_append, List.sum_append, List.map_cons, List.sum_cons,
      a0, a1, a2, a3, a4, a5, b0, b1, b2, b3, b4, b5]
    simp

theorem flat_ne {ps : List Part} (h : ps ≠ []) : ps.flatMap three ≠ [] := by
  cases ps with
  | nil => exact absurd rfl h
  | cons p ps => simp [three]

/-- The variance of the sample is positive when a part has a positive one. -/
theorem central_pos {ps : List Part} (h : ps ≠ []) (hp : ∀ p ∈ ps, 0 < p.w ∧ 0 < p.v) : 0 < wcentral 2 (ps.flatMap three) := by
  unfold wcentral
  rw [(flat_sums ps (fun p q => (hp p q).2.le) _).2.2.2.1]
  obtain ⟨p, ps', rfl⟩ := List.exists_cons_of_ne_nil h
  rw [List.map_cons, List.sum_cons]
  have h1 := hp p (by simp)
  refine add_pos_of_pos_of_nonneg (mul_pos h1.1 (by have := sq_nonneg (p.m - wmean ((p :: ps').flatMap three)); linarith [h1.2])) ?_
  apply List.sum_nonneg
  intro x hx
  simp only [List.mem_map] at hx
  obtain ⟨q, hq, rfl⟩ := hx
  have h2 := hp q (by simp [hq])
  exact mul_nonneg h2.1.le (by have := sq_nonneg (q.m - wmean ((p :: ps').flatMap three)); linarith [h2.2])

/-- The accumulator of the mixture describes the mixture of the densities. -/
theorem Sees.mixture {ps : List Part} {n : Nat} {r : RM ℝ} (h : Sees (ps.flatMap three) n r) (hne : ps ≠ [])
    (hp : ∀ p ∈ ps, 0 < p.w ∧ 0 < p.v) :
    ∃ m v sk ku, r.getMean = some m ∧ r.getVariance = some v ∧ r.getSkewness = some sk ∧ r.getKurtosis = some ku ∧ 0 < v ∧
      MeanVar (IntAvg (mixed ps)) m v ∧ Skew (IntAvg (mixed ps)) m v sk ∧ Kurt (IntAvg (mixed ps)) m v ku := by
  have hfl := flat_ne hne
  have hW : 0 < wsum (ps.flatMap three) := wsum_pos _ hfl h.pos
  have hc := central_pos hne hp
  obtain ⟨-, m1, m2⟩ := h.mean hfl
  obtain ⟨s1, s2⟩ := h.shape hfl hc
  set l := ps.flatMap three with hl
  have hv : 0 < wcentral 2 l / wsum l := div_pos hc hW
  obtain ⟨a0, a1, a2, a3, a4, a5⟩ := flat_sums ps (fun p q => (hp p q).2.le) (wmean l)
  refine ⟨_, _, _, _, m1, m2, s1, s2, hv, ⟨?_, ?_, ?_⟩, ?_, ?_⟩
  · have := mixed_avg ps (fun _ => 1) (fun _ => 1) fun p q => (bell_avg p.m p.v 0 (hp p q).2).1
    simp only [mul_one] at this
    rw [div_self (by rw [← a0]; exact hW.ne')] at this
    exact this
  · have := mixed_avg ps (fun x => x) (fun p => p.m) fun p q => by
      have := (bell_avg p.m p.v 0 (hp p q).2).2.1
      simpa using this
    rw [← a1, ← a0] at this
    exact this
  · have := mixed_avg ps _ _ fun p q => (bell_avg p.m p.v (wmean l) (hp p q).2).2.2.1
    rw [← a3, ← a0] at this
    exact this
  · unfold Skew
    have := mixed_avg ps _ _ fun p q => (bell_avg p.m p.v (wmean l) (hp p q).2).2.2.2.1
    rw [← a4, ← a0] at this
    have e : wcentral 3 l / wsum l / (wcentral 2 l / wsum l) ^ (3 / 2 : ℝ) *
        (wcentral 2 l / wsum l * Real.sqrt (wcentral 2 l / wsum l)) = csum 3 (wmean l) l / wsum l := by
      have : (wcentral 2 l / wsum l) ^ (3 / 2 : ℝ) = wcentral 2 l / wsum l * Real.sqrt (wcentral 2 l / wsum l) := by
        rw [show (3 / 2 : ℝ) = 1 + 1 / 2 by norm_num, Real.rpow_add hv, Real.rpow_one, ← Real.sqrt_eq_rpow]
      rw [this, div_mul_cancel₀]
      · rfl
      · exact (mul_pos hv (Real.sqrt_pos.2 hv)).ne'
    rw [e]
    exact this
  · unfold Kurt
    have := mixed_avg ps _ _ fun p q => (bell_avg p.m p.v (wmean l) (hp p q).2).2.2.2.2
    rw [← a5, ← a0] at this
    have e : (wcentral 4 l / wsum l / (wcentral 2 l / wsum l) ^ 2 - 3 + 3) * (wcentral 2 l / wsum l) ^ 2 = csum 4 (wmean l) l / wsum l := by
      rw [sub_add_cancel, div_mul_cancel₀]
      · rfl
      · exact (pow_pos hv 2).ne'
    rw [e]
    exact this

/-! ## Probabilities -/

theorem bell_upTo {S : Fns} (hS : S.Good) (m v x : ℝ) (hv : 0 < v) :
    normalCdfAt S (some m) (some v) x = .ok (some (1 / 2 * S.erfc ((m - x) / (Real.sqrt v * Real.sqrt 2)))) ∧
    IntUpTo (bell m v) x (1 / 2 * S.erfc ((m - x) / (Real.sqrt v * Real.sqrt 2))) := by
  have hs : 0 < Real.sqrt v := Real.sqrt_pos.2 hv
  constructor
  · simp [normalCdfAt, sqrtV, not_lt.2 hv.le, make, not_lt.2 hs.le, Dist.cdf, Dist.minimum, Dist.maximum, Op.Dbl.lt, Dist.cdfInside, hs.ne', toVal]
  · rw [show bell m v = normF m (Real.sqrt v) from funext fun y => bell_eq m v y hv]
    exact upTo_iio (normal_below hS m (Real.sqrt v) x hs)

end Srch
end LDT
