import Verif.Model.Crps
import Verif.Lemmas.CrpsLog
import Verif.Lemmas.CrpsProper
import Verif.Props.SurSearcherSim
import Verif.Props.DistCdf
import Verif.Lemmas.DistGood
/-!
# C128: the continuous ranked probability scores
-/
namespace LDT
namespace Crps
open Op Di MeasureTheory ProbabilityTheory Set
open scoped NNReal

theorem normF_eq (m : ℝ) {s : ℝ} (hs : 0 < s) (x : ℝ) : normF m s x = gaussianPDFReal m (Real.toNNReal (s ^ 2)) x := by
  have hc : ((Real.toNNReal (s ^ 2) : ℝ≥0) : ℝ) = s ^ 2 := Real.coe_toNNReal _ (by positivity)
  unfold normF gaussianPDFReal
  have e : Real.sqrt (2 * Real.pi * s ^ 2) = Real.sqrt (2 * Real.pi) * s := by rw [Real.sqrt_mul (by positivity), Real.sqrt_sq hs.le]
  rw [hc, e, show -(x - m) ^ 2 / (2 * s ^ 2) = -(1 / 2) * ((x - m) / s) * ((x - m) / s) by field_simp]
  rw [div_eq_mul_inv, mul_comm]

/-- The distribution function computed by the program is that of the law. -/
theorem normal_cdf {S : Fns} (hS : S.Good) (m : ℝ) {s : ℝ} (hs : 0 < s) (x : ℝ) :
    1 / 2 * S.erfc ((m - x) / (s * Real.sqrt 2)) = (normal m s).real (Iic x) := by
  have hv : Real.toNNReal (s ^ 2) ≠ 0 := by
    rw [Ne, Real.toNNReal_eq_zero, not_le]; positivity
  obtain ⟨-, h⟩ := normal_below hS m s x hs
  rw [← h, Measure.real, normal, gaussianReal_apply_eq_integral _ hv, ENNReal.toReal_ofReal (integral_nonneg fun _ => gaussianPDFReal_nonneg _ _ _),
    integral_Iic_eq_integral_Iio]
  exact integral_congr_ae (.of_forall fun t => normF_eq m hs t)

theorem normal_cdf' {S : Fns} (hS : S.Good) (m : ℝ) {s : ℝ} (hs : 0 < s) (x : ℝ) :
    (Di.Dist.mk .normal m s).cdf S x = .num ((normal m s).real (Iic x)) := by
  rw [← normal_cdf hS m hs x]
  show (if (Dbl.num x).lt .ninf then _ else if Dbl.lt .pinf (.num x) then _ else _) = _
  rw [if_neg (by simp [Dbl.lt]), if_neg (by simp [Dbl.lt])]
  simp only [Di.Dist.cdfInside, if_neg hs.ne']

theorem log_cdf' {S : Fns} (hS : S.Good) (m : ℝ) {s : ℝ} (hs : 0 < s) (x : ℝ) :
    (Di.Dist.mk .logNormal m s).cdf S x = .num ((logNormal m s).real (Iic x)) := by
  show (if (Dbl.num x).lt (.num 0) then _ else if Dbl.lt .pinf (.num x) then _ else _) = _
  by_cases h : x < 0
  · rw [if_pos (by simp [Dbl.lt, h]), log_cdf_zero m s h.le]
  rw [if_neg (by simpa [Dbl.lt] using h), if_neg (by simp [Dbl.lt])]
  by_cases h0 : x = 0
  · simp only [Di.Dist.cdfInside, if_pos h0]
    rw [log_cdf_zero m s h0.le]
  · have hp : 0 < x := lt_of_le_of_ne (not_lt.1 h) (Ne.symm h0)
    simp only [Di.Dist.cdfInside, if_neg h0, if_neg hs.ne']
    rw [log_cdf m s hp, normal_cdf hS m hs]

theorem shift (m s y : ℝ) : (normal 0 s).real (Iic (y - m)) = (normal m s).real (Iic y) := by
  have h := gaussianReal_map_const_add (μ := 0) (v := Real.toNNReal (s ^ 2)) m
  rw [zero_add] at h
  unfold normal
  rw [← h, map_measureReal_apply (by fun_prop) measurableSet_Iic]
  congr 1
  ext u
  simp only [mem_preimage, mem_Iic]
  constructor <;> intro h <;> linarith

/-- **C128.** The score of a normal forecast is the continuous ranked probability score of the normal law, also if its standard deviation is 0. -/
theorem C128_normal {S : Fns} (hS : S.Good) (y mean : ℝ) {std : ℝ} (hs : 0 ≤ std) :
    ∃ v, crpsNormal S y mean std = .ok (.num v) ∧ IsScore (normal mean std) y v := by
  unfold crpsNormal
  dsimp only
  by_cases h0 : std = 0
  · subst h0
    exact ⟨_, if_pos rfl, point_score mean y⟩
  have hp : 0 < std := lt_of_le_of_ne hs (Ne.symm h0)
  rw [if_neg h0]
  have hm : make .normal 0 std = .ok ⟨.normal, 0, std⟩ := by simp [make, hs]
  refine ⟨_, ?_, normal_score mean hp y⟩
  rw [hm, Outcome.ok_bind, normal_cdf' hS 0 hp, shift]
  rfl

/-- **C128.** A negative standard deviation is refused. -/
theorem C128_normal_refused (S : Fns) (y mean : ℝ) {std : ℝ} (hs : std < 0) : crpsNormal S y mean std = .throws := by
  unfold crpsNormal
  dsimp only
  rw [if_neg hs.ne, show make .normal 0 std = .throws by simp [make, hs]]
  rfl

/-- **C128.** The score of a log-normal forecast that is not a point is the continuous ranked probability score of the law, for every observation (also
one that is not positive). -/
theorem C128_lognormal {S : Fns} (hS : S.Good) (y meanLog : ℝ) {stdLog : ℝ} (hs : 0 < stdLog) :
    ∃ v, crpsLogNormal S y meanLog stdLog = .ok (.num v) ∧ IsScore (logNormal meanLog stdLog) y v := by
  unfold crpsLogNormal
  have h1 : ∀ m, make .logNormal m stdLog = .ok ⟨.logNormal, m, stdLog⟩ := fun m => by simp [make, hs.le]
  have h3 : make .normal 0 1 = .ok ⟨.normal, 0, 1⟩ := by norm_num [make]
  refine ⟨_, ?_, log_score meanLog hs y⟩
  rw [h1, Outcome.ok_bind, h1, Outcome.ok_bind, h3, Outcome.ok_bind, log_cdf' hS _ hs, log_cdf' hS _ hs, normal_cdf' hS 0 one_pos]
  rfl

theorem log_cdf_point (S : Fns) (m : ℝ) {y : ℝ} (hy : y ≠ Real.exp m) :
    (Di.Dist.mk .logNormal m 0).cdf S y = .num (if y < Real.exp m then 0 else 1) := by
  show (if (Dbl.num y).lt (.num 0) then _ else if Dbl.lt .pinf (.num y) then _ else _) = _
  by_cases h : y < 0
  · rw [if_pos (by simp [Dbl.lt, h]), if_pos (h.trans (Real.exp_pos m))]
  rw [if_neg (by simpa [Dbl.lt] using h), if_neg (by simp [Dbl.lt])]
  by_cases h0 : y = 0
  · simp only [Di.Dist.cdfInside, if_pos h0]
    rw [if_pos (h0 ▸ Real.exp_pos m)]
  have hp : 0 < y := lt_of_le_of_ne (not_lt.1 h) (Ne.symm h0)
  simp only [Di.Dist.cdfInside, if_neg h0, if_pos]
  by_cases hl : y < Real.exp m
  · rw [if_pos hl, if_pos (by have := (Real.log_lt_iff_lt_exp hp).2 hl; simp only [gt_iff_lt]; linarith)]
  · have hg : Real.exp m < y := lt_of_le_of_ne (not_lt.1 hl) (Ne.symm hy)
    have := (Real.lt_log_iff_exp_lt hp).2 hg
    rw [if_neg hl, if_neg (by simp only [gt_iff_lt]; linarith), if_pos (by linarith)]

/-- **C128.** The same for a log-normal forecast that is a point, at every other point. -/
theorem C128_lognormal_point_partial {S : Fns} (hS : S.Good) (y meanLog : ℝ) (hy : y ≠ Real.exp meanLog) :
    ∃ v, crpsLogNormal S y meanLog 0 = .ok (.num v) ∧ IsScore (logNormal meanLog 0) y v := by
  unfold crpsLogNormal
  have h1 : ∀ m, make .logNormal m 0 = .ok ⟨.logNormal, m, 0⟩ := fun m => by simp [make]
  have h3 : make .normal 0 1 = .ok ⟨.normal, 0, 1⟩ := by norm_num [make]
  refine ⟨_, ?_, log_point_score meanLog y⟩
  have hhalf : (normal 0 1).real (Iic 0) = 1 / 2 := by
    have := reflect 0
    rw [neg_zero] at this
    linarith
  rw [h1, Outcome.ok_bind, h1, Outcome.ok_bind, h3, Outcome.ok_bind, normal_cdf' hS 0 one_pos]
  norm_num only [zero_pow, ne_eq, OfNat.ofNat_ne_zero, not_false_eq_true, add_zero, mul_zero, zero_div]
  rw [log_cdf_point S meanLog hy, hhalf]
  show Outcome.ok (Dbl.num _) = _
  congr 2
  by_cases hl : y < Real.exp meanLog
  · rw [if_pos hl, abs_of_neg (by linarith)]; ring
  · rw [if_neg hl, abs_of_nonneg (by linarith)]; ring

/-- **C128, violated.** A log-normal point forecast that is exactly right has score 0; the program returns NaN. -/
theorem C128_lognormal_violated {S : Fns} (hS : S.Good) (meanLog : ℝ) :
    crpsLogNormal S (Real.exp meanLog) meanLog 0 = .ok .nan ∧ IsScore (logNormal meanLog 0) (Real.exp meanLog) 0 := by
  constructor
  · unfold crpsLogNormal
    have h1 : ∀ m, make .logNormal m 0 = .ok ⟨.logNormal, m, 0⟩ := fun m => by simp [make]
    have h3 : make .normal 0 1 = .ok ⟨.normal, 0, 1⟩ := by norm_num [make]
    have hn : (Di.Dist.mk .logNormal meanLog 0).cdf S (Real.exp meanLog) = .nan := by
      show (if (Dbl.num (Real.exp meanLog)).lt (.num 0) then _ else if Dbl.lt .pinf (.num (Real.exp meanLog)) then _ else _) = _
      rw [if_neg (by simpa [Dbl.lt] using (Real.exp_pos meanLog).le), if_neg (by simp [Dbl.lt])]
      simp [Di.Dist.cdfInside, (Real.exp_pos meanLog).ne']
    rw [h1, Outcome.ok_bind, h1, Outcome.ok_bind, h3, Outcome.ok_bind, normal_cdf' hS 0 one_pos]
    norm_num only [zero_pow, ne_eq, OfNat.ofNat_ne_zero, not_false_eq_true, add_zero, mul_zero, zero_div]
    rw [hn]
    rfl
  · have := log_point_score meanLog (Real.exp meanLog)
    rwa [sub_self, abs_zero] at this

/-- **C128.** The score is a distance: never negative, and 0 only for a certain forecast that is right. -/
theorem C128_zero {S : Fns} (hS : S.Good) {y mean std v : ℝ} (hs : 0 ≤ std) (h : crpsNormal S y mean std = .ok (.num v)) :
    0 ≤ v ∧ (v = 0 ↔ std = 0 ∧ y = mean) := by
  obtain ⟨w, h1, h2⟩ := C128_normal hS y mean hs
  obtain rfl : v = w := Dbl.num.inj (Outcome.ok.inj (h.symm.trans h1))
  refine ⟨h2.nonneg, fun h0 => ?_, fun ⟨hh, hy⟩ => ?_⟩
  · by_cases hz : std = 0
    · subst hz
      have := h2.unique (point_score mean y)
      rw [h0] at this
      exact ⟨rfl, by have := abs_eq_zero.1 this.symm; linarith⟩
    exfalso
    have hp : 0 < std := lt_of_le_of_ne hs (Ne.symm hz)
    have hv : Real.toNNReal (std ^ 2) ≠ 0 := by
      rw [Ne, Real.toNNReal_eq_zero, not_le]; positivity
    obtain ⟨i1, i2⟩ := h2
    rw [h0, integral_eq_zero_iff_of_nonneg (fun _ => sq_nonneg _) i1] at i2
    have hno : ∀ x, gap (normal mean std) y x ≠ 0 := fun x hx => by
      have hac := gaussianReal_absolutelyContinuous' mean hv
      unfold gap at hx
      by_cases hyx : y ≤ x
      · rw [if_pos hyx] at hx
        have h3 := probReal_compl_eq_one_sub (μ := normal mean std) (measurableSet_Iic (a := x))
        rw [show (normal mean std).real (Iic x) = 1 by linarith, sub_self, compl_Iic] at h3
        have h4 : (normal mean std) (Ioi x) = 0 := by
          rwa [measureReal_eq_zero_iff] at h3
        have := hac h4
        rw [Real.volume_Ioi] at this
        cases this
      · rw [if_neg hyx, sub_zero] at hx
        have h4 : (normal mean std) (Iic x) = 0 := by
          rwa [measureReal_eq_zero_iff] at hx
        have := hac h4
        rw [Real.volume_Iic] at this
        cases this
    have : (volume : Measure ℝ) univ = 0 := by
      have := i2
      rw [Filter.EventuallyEq, ae_iff] at this
      convert this using 2
      ext x
      simp [hno x]
    rw [Real.volume_univ] at this
    cases this
  · subst hh hy
    have := h2.unique (point_score y y)
    rw [this, sub_self, abs_zero]

/-- **C128.** The score is proper: if the observation is normal with mean `m` and standard deviation `s`, no normal forecast has a smaller expected score
than the one with that mean and that deviation. -/
theorem C128_proper {S : Fns} (hS : S.Good) {m s m' s' : ℝ} (hs : 0 ≤ s) (hs' : 0 ≤ s') {f g : ℝ → ℝ}
    (hf : ∀ y, crpsNormal S y m' s' = .ok (.num (f y))) (hg : ∀ y, crpsNormal S y m s = .ok (.num (g y))) :
    Integrable f (normal m s) ∧ Integrable g (normal m s) ∧ ∫ y, g y ∂(normal m s) ≤ ∫ y, f y ∂(normal m s) := by
  have sc : ∀ {a b : ℝ} {k : ℝ → ℝ}, 0 ≤ b → (∀ y, crpsNormal S y a b = .ok (.num (k y))) → ∀ y, IsScore (normal a b) y (k y) := fun {a b k} hb hk y => by
    obtain ⟨w, h1, h2⟩ := C128_normal hS y a hb
    rwa [show k y = w from Dbl.num.inj (Outcome.ok.inj ((hk y).symm.trans h1))]
  obtain ⟨i1, i2, -, h⟩ := expected (μ := normal m' s') (ν := normal m s) (gauss_integrable m' _) (gauss_integrable m _) (sc hs' hf) (sc hs hg)
  refine ⟨i1, i2, ?_⟩
  have : 0 ≤ ∫ x, ((normal m' s').real (Iic x) - (normal m s).real (Iic x)) ^ 2 := integral_nonneg fun _ => sq_nonneg _
  linarith

/-- The score of an error: what the simulations add. -/
theorem crpsError_num {S : Fns} (hS : S.Good) (e : ℝ) {s : ℝ} (hs : 0 ≤ s) : ∃ v, crpsError S (.num e) (.num s) = .ok (.num v) ∧ IsScore (normal 0 s) e v :=
  C128_normal hS e 0 hs

theorem score_shift {m s y v : ℝ} (h : IsScore (normal 0 s) (y - m) v) : IsScore (normal m s) y v := by
  have e : ∀ x, gap (normal m s) y (x + m) = gap (normal 0 s) (y - m) x := fun x => by
    unfold gap
    rw [← shift m s (x + m), add_sub_cancel_right]
    congr 1
    by_cases h : y ≤ x + m
    · rw [if_pos h, if_pos (by linarith)]
    · rw [if_neg h, if_neg (by linarith)]
  constructor
  · have := h.1
    simp only [← e] at this
    have h2 := this.comp_sub_right m
    simpa using h2
  · rw [← h.2, ← integral_add_right_eq_self (fun x => gap (normal m s) y x ^ 2) m]
    simp only [e]

open Su Mx Score Arr in
/-- **C128**, in the search over systems of regressions: the CRPS reported for a model is the mean, over all the observations of the valid test samples, of the
continuous ranked probability scores of the normal laws with the mean and the standard deviation of the projections. -/
theorem C128_systems {S : Di.Fns} (hS : S.Good) {lu : List ℝ → List ℝ} {f : Su.Fns ℝ} {u : SsSetup} {other : Outcome ExtRes} {source : Mat (Val ℝ)}
    {dataStorage : List (Val ℝ)} {rmem storage work splitStorage simStorage simWorkArr : List ℝ} {cancel : ℕ → Bool} {inner cur : List ℤ} {T : ℕ}
    {t : SsTables} {orders : ℕ → List ℤ}
    (R : SsReady u source dataStorage storage work inner cur) (hs : u.simulates = true) (hl : u.lambdas = [])
    (hsp : source.rows * (inner ++ cur).length ≤ splitStorage.length)
    (hst : let n0 := Split.trainSize source.rows u.sim.ratio u.sim.fix
      extStorage u.sim.model n0 inner.length cur.length (source.rows - n0) ≤ simStorage.length ∧
      extWork u.sim.model n0 inner.length cur.length (source.rows - n0) ≤ simWorkArr.length)
    (h : ssEstimate lu f u other (ssSim lu f (crpsError S) u source.rows inner.length cur.length other rmem splitStorage simStorage simWorkArr orders) source
      dataStorage rmem storage work cancel inner (inner ++ cur) cur T = .ok (t, false)) :
    ∃ kept table, TableOf source (inner ++ cur) kept table ∧ ((∀ i, (orders i).Perm (upTo 0 kept.length)) → ∃ L : List Numbers,
        (∀ x ∈ L, OutOfSample table (Split.trainSize kept.length ((Srch.toVal u.metrics.trainRatio).getD 0) u.metrics.trainFix) inner.length cur.length
          (if u.checks.checkCN then u.checks.maxCondition else .pinf) x) ∧
        ∀ i : ℕ, u.metrics.metricsOut[i]? = some Sco.crps → u.metrics.indexOut .crps = some (i : ℤ) → ∀ j < T, j < inner.length → 0 < (L.map (·.rows)).sum →
          ∃ c : Numbers → ℕ → ℝ, (∀ x ∈ L, ∀ a < x.rows, IsScore (normal (x.mean a j) (x.std a j)) (x.y a j) (c x a)) ∧
            t.metric (u.metrics.metricsIn.length + i) j = some ((L.map fun x => ∑ a ∈ Finset.range x.rows, c x a).sum / ((L.map (·.rows)).sum : ℕ))) := by
  obtain ⟨kept, table, q, h1, -, -, h2⟩ := C126_scores R hs hl hsp hst h
  refine ⟨kept, table, h1, fun ho => ?_⟩
  obtain ⟨L, -, h4, h5⟩ := h2 ho
  refine ⟨L, h4, fun i hi hx j hjT hjm hpos => ?_⟩
  classical
  let c : ℝ → ℝ → ℝ := fun e s => if hh : 0 ≤ s then (crpsError_num hS e hh).choose else 0
  have hc : ∀ e s, 0 ≤ s → crpsError S (.num e) (.num s) = .ok (.num (c e s)) ∧ IsScore (normal 0 s) e (c e s) := fun e s hh => by
    show _ = Outcome.ok (Dbl.num (if hh : 0 ≤ s then _ else 0)) ∧ IsScore _ _ (if hh : 0 ≤ s then _ else 0)
    rw [dif_pos hh]
    exact (crpsError_num hS e hh).choose_spec
  have hm := h5 .crps i (by simp [Implemented]) hi hx j hjT hjm c (fun _ a b hb => (hc a b hb).1) (fun hh => by rcases hh with hh | hh <;> cases hh) hpos
  refine ⟨fun x a => c (x.y a j - x.mean a j) (x.std a j), fun x hxL a ha => score_shift (hc _ _ ((h4 x hxL).std_nonneg ha hjm)).2, ?_⟩
  rw [hm]
  have hcast : (L.map fun t => (t.rows : ℝ)).sum = (((L.map (·.rows)).sum : ℕ) : ℝ) := by
    rw [Nat.cast_list_sum, List.map_map]; rfl
  show some (meanLoss c .crps L j) = _
  unfold meanLoss
  rw [hcast]
  rfl

/-- A concrete use: the special functions exist, and a standard normal forecast scored at its mean. -/
example : ∃ S : Di.Fns, S.Good ∧ ∃ v, crpsNormal S 0 0 1 = .ok (.num v) ∧ IsScore (normal 0 1) 0 v ∧ 0 < v := by
  obtain ⟨S, hS⟩ := Di.good_exists
  obtain ⟨v, h1, h2⟩ := C128_normal hS 0 0 (zero_le_one (α := ℝ))
  refine ⟨S, hS, v, h1, h2, ?_⟩
  obtain ⟨h3, h4⟩ := C128_zero hS (zero_le_one (α := ℝ)) h1
  exact lt_of_le_of_ne h3 fun h => by
    have := (h4.1 h.symm).1
    norm_num at this

end Crps
end LDT
