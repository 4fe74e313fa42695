import Verif.Props.ChoiceSearch
/-! # C121: simulations, limits, cancellation and memory of a model of a search -/
namespace LDT
namespace Dc
open Op Di Mx Arr Score

theorem dataset_pos {rows cols : ℤ} {a b : Bool} {ds : Dataset} (h : Dataset.make rows cols a b = .ok ds) :
    0 < rows ∧ 0 < cols ∧ ds.storageSize = rows * cols := by
  unfold Dataset.make at h
  split_ifs at h with hneg
  push Not at hneg
  obtain rfl := Outcome.ok.inj h
  exact ⟨hneg.2, hneg.1, rfl⟩

/-- What the constructor computes. -/
theorem dcConstruct_ok {u : DcSetup} {fp rows cols numExo : ℤ} {z : DcSizes} (h : dcConstruct u fp rows cols numExo = .ok z) :
    fp ≠ 0 ∧ 0 < rows ∧ 0 < cols ∧ z.data = rows * cols ∧
    (u.checks.estimation = true → construct u.form rows numExo u.numChoices false = .ok z.model) ∧ (u.checks.estimation = false → z.model = noSizes) ∧
    (u.simulates = true → ∃ v, simSetup u = .ok v ∧ simConstruct v rows cols = .ok z.sim) ∧ (u.simulates = false → z.sim = noSim) ∧
    ∃ sc, scored u = .ok sc ∧ z.work = z.data + z.model.storage + z.sim.storage + max z.model.work z.sim.work +
      (if sc then max (rows + u.numChoices - 2) (costStorage u.costs.length) + rows * u.numChoices else 0) ∧ z.workI = z.sim.workI := by
  unfold dcConstruct at h
  by_cases h0 : fp = 0
  · rw [if_pos h0] at h; cases h
  rw [if_neg h0] at h
  obtain ⟨ds, h1, h⟩ := bind_ok h
  obtain ⟨m, h2, h⟩ := bind_ok h
  obtain ⟨s, h3, h⟩ := bind_ok h
  dsimp only at h
  obtain ⟨sc, h4, h⟩ := bind_ok h
  obtain ⟨p1, p2, p3⟩ := dataset_pos h1
  rw [← Outcome.ok.inj h]
  refine ⟨h0, p1, p2, p3, fun he => ?_, fun he => ?_, fun hs => ?_, fun hs => ?_, sc, h4, ?_, rfl⟩
  · rw [if_pos he] at h2; exact h2
  · rw [if_neg (by simp [he])] at h2; exact (Outcome.ok.inj h2).symm
  · rw [if_pos hs] at h3
    obtain ⟨v, hv, h3⟩ := bind_ok h3
    exact ⟨v, hv, h3⟩
  · rw [if_neg (by simp [hs])] at h3; exact (Outcome.ok.inj h3).symm
  · dsimp only
    split_ifs <;> ring

/-- What the simulations of a model are set to. -/
theorem simSetup_ok {u : DcSetup} {v : SimSetup} (h : simSetup u = .ok v) : ∃ b a, u.metrics.indexOut .brier = some b ∧ u.metrics.indexOut .auc = some a ∧
    v = ⟨u.law, u.form, u.numChoices, u.hasWeight, (Srch.toVal u.metrics.trainRatio).getD 0, u.metrics.trainFix, u.costs,
      decide (b ≥ 0), decide (a ≥ 0), false, u.weightedEval, u.roc, u.rocCosts, intMax⟩ := by
  unfold simSetup at h
  obtain ⟨b, h1, h⟩ := bind_ok h
  obtain ⟨a, h2, h⟩ := bind_ok h
  exact ⟨b, a, pos_ok h1, pos_ok h2, (Outcome.ok.inj h).symm⟩

theorem position_mem {α : Type} {l : List α} {x : α} {i : ℤ} (h : SOpt.Position l x i) : i ≥ 0 ↔ x ∈ l := by
  rcases h with ⟨hm, rfl⟩ | ⟨k, rfl, hk, -⟩
  · constructor
    · intro h; omega
    · intro h; exact absurd h hm
  · exact ⟨fun _ => List.mem_of_getElem? hk, fun _ => by omega⟩

theorem ratios_mean (l : List (Val ℝ)) :
    Mat.mean ⟨l.length, 1, some l⟩ false = .ok (if l = [] ∨ none ∈ l then none else some (Stat.mean (Stat.numbers l))) :=
  C65_mean _ l ⟨by simp [Mat.length], fun k x hk => by
    have hlt := (List.getElem?_eq_some_iff.mp hk).1
    unfold Mat.getLin Mat.length
    rw [if_neg (by simp), if_neg (by simp; omega)]
    unfold Mx.read
    rw [if_pos (by omega)]
    have : (⟨(l.length : ℤ), 1, some l⟩ : Mat (Val ℝ)).mem[((k : ℕ) : ℤ).toNat]? = some x := by rw [Int.toNat_natCast]; exact hk
    rw [this]⟩

theorem numbers_some (xs : List ℝ) : Stat.numbers (xs.map some) = xs := by
  unfold Stat.numbers
  induction xs with
  | nil => rfl
  | cons a l ih => exact congrArg (a :: ·) ih

theorem brierSum_none (w y p : ℕ → Val ℝ) : ∀ l : List ℕ, brierSum w y p l none = none
  | [] => rfl
  | _ :: l => brierSum_none w y p l

theorem brierSum_missing {w y p : ℕ → Val ℝ} {k : ℕ} (hp : p k = none) : ∀ (l : List ℕ) (s : Val (ℝ × ℝ)), k ∈ l → brierSum w y p l s = none
  | [], _, h => absurd h (by simp)
  | i :: l, s, h => by
    by_cases hik : i = k
    · subst hik
      show brierSum w y p l _ = none
      have : (do let s ← s; let wi ← w i; let yi ← y i; let pi ← p i; pure (s.1 + wi * (yi - pi) ^ 2, s.2 + wi) : Val (ℝ × ℝ)) = none := by
        rw [hp]
        cases s <;> [rfl; skip]
        cases w i <;> [rfl; skip]
        cases y i <;> rfl
      rw [this]
      exact brierSum_none w y p l
    · rcases List.mem_cons.1 h with h | h
      · exact absurd h.symm hik
      · exact brierSum_missing hp l _ h

section
variable {S : Fns} {u : DcSetup} {z : DcSizes} {E : ∀ k, Env k} {sim : Mat ℝ → Outcome SimResult} {source : Mat (Val ℝ)} {storage : List (Val ℝ)}
  {junk : ℕ → ℕ → Val ℝ} {cancel : ℕ → Bool} {cols cur : List ℤ} {t : DcTables}
  (wd : source.Wf) (hc : ∀ k ∈ cols, 0 ≤ k ∧ k < source.cols) (hst : (storage.length : ℤ) = source.rows * cols.length)
  (hn : cur.Nodup) (hx : Indexed u.metrics)

section
variable (h : estimateReg S u z E sim source storage junk cancel cols cur = .ok (t, false))
include wd hc hst hn hx h

/-- **C121**, violated: the loop for the Brier score runs over the rows of the data, not over those of the sample. If rows are missing, it
reads memory that was not written: with a NaN there, no score is reported, whatever the model. -/
theorem C121_violated_missing (he : u.checks.estimation = true) :
    ∃ kept, CompleteRows Option.isNone source cols kept ∧ ((kept.length : ℤ) < source.rows → junk kept.length 1 = none →
      ∀ i : ℕ, 0 < i → u.metrics.indexIn .brier = some (i : ℤ) → t.metric i = none) := by
  obtain ⟨ds, m, est, r, q, q', R⟩ := run_parts h
  obtain ⟨kept, k1, k2, k3, k4, k5, ky, kw⟩ := sample_of wd hc hst R.make R.read u.hasWeight
  obtain ⟨e, e1, e2, e3, e4⟩ := estimated_ok he R.fit
  subst e1
  obtain ⟨pa, ps, pc, pu, pb, cst, a, ic⟩ := inMetrics_ok R.ins
  obtain ⟨c1, c2, c3, c4, c5⟩ := in_cells ic hx
  obtain ⟨o1, o2, o3⟩ := out_keeps R.out
  obtain ⟨f1, f2⟩ := coefs_metric hn R.coef
  refine ⟨kept, k1, fun hlt hj i hi hb => ?_⟩
  have hl : i < u.metrics.metricsIn.length := by exact_mod_cast position_lt (indexed_in hx hb)
  rw [f1, o1 i hl, c5 i (by have := ic.scores.ibrier; rw [hb] at this; exact (Option.some.inj this).symm), if_neg (by omega)]
  unfold brierOf brier
  rw [brierSum_missing (k := kept.length) ?_ _ _ (List.mem_range.2 (by omega))]
  · rfl
  · show probsOf S u _ _ junk kept.length 1 = none
    unfold probsOf probabilities
    rw [if_neg (by rw [k2.1]; omega)]
    exact hj

end

/-- **C121.** The limits on the number of observations. -/
theorem C121_refused (hr : 0 < source.rows) (hl : cols ≠ []) (he : u.checks.estimation = true) (h0 : cancel 0 = false)
    (wd : source.Wf) (hc : ∀ k ∈ cols, 0 ≤ k ∧ k < source.cols) (hst : (storage.length : ℤ) = source.rows * cols.length) :
    ∃ kept, CompleteRows Option.isNone source cols kept ∧ (0 < u.checks.minObs → (kept.length : ℤ) < u.checks.minObs →
      estimateReg S u z E sim source storage junk cancel cols cur = .throws) := by
  have hlen : 0 < cols.length := List.length_pos_iff.2 hl
  have hmake : Dataset.make source.rows cols.length true true = .ok ⟨true, true, source.rows * cols.length⟩ := by
    unfold Dataset.make
    rw [if_neg (by push Not; omega)]
  obtain ⟨kept, res, k1, k2, k3, k4, k5⟩ := C36_dataset_missing Option.isNone source.rows cols.length true _ hmake source wd (le_refl _)
    cols hc (by simp) storage hst
  refine ⟨kept, k1, fun hp hlt => ?_⟩
  unfold estimateReg
  rw [hmake]
  show (Dataset.calculate Option.isNone _ source (some cols) storage >>= _) = _
  simp only [if_true] at k2
  rw [k2]
  show (if cancel 0 = true then _ else _) = _
  rw [if_neg (by simp [h0])]
  have : estimated S u z E cancel (cols.length - 1 - (if u.hasWeight then 1 else 0)) (dataOf u.hasWeight (tableOf res)) = .throws := by
    unfold estimated
    rw [if_pos he]
    have : checkBefore u (dataOf u.hasWeight (tableOf res)).n (cols.length - 1 - (if u.hasWeight then 1 else 0)) = .throws := by
      unfold checkBefore
      have : (((dataOf u.hasWeight (tableOf res)).n : ℕ) : ℤ) = kept.length := by
        show ((res.rows.toNat : ℕ) : ℤ) = _; rw [k3]; simp
      rw [this, if_pos ⟨hp, hlt⟩]
    rw [this]
    rfl
  rw [this]
  rfl

/-- **C121**, violated: the number of parameters is counted with the wrong sign (`numExo + numChoices + 2` for `numExo + numChoices - 2`), so that a model
with as many degrees of freedom as wanted, but less than four more, is refused. -/
theorem C121_violated_dof (hr : 0 < source.rows) (he : u.checks.estimation = true) (h0 : cancel 0 = false) (hu : u.Proper)
    (hl : front u.hasWeight < cols.length) (wd : source.Wf) (hc : ∀ k ∈ cols, 0 ≤ k ∧ k < source.cols)
    (hst : (storage.length : ℤ) = source.rows * cols.length) :
    ∃ kept D, CompleteRows Option.isNone source cols kept ∧ SampleOf u.hasWeight source cols kept D ∧
      (0 < u.checks.minDof → (D.n : ℤ) - kOf u.form u.cuts D < u.checks.minDof + 4 →
        estimateReg S u z E sim source storage junk cancel cols cur = .throws) := by
  have hlen : 0 < cols.length := by omega
  have hmake : Dataset.make source.rows cols.length true true = .ok ⟨true, true, source.rows * cols.length⟩ := by
    unfold Dataset.make
    rw [if_neg (by push Not; omega)]
  obtain ⟨kept', res, k1', k2', k3', k4', k5'⟩ := C36_dataset_missing Option.isNone source.rows cols.length true _ hmake source wd (le_refl _)
    cols hc (by simp) storage hst
  simp only [if_true] at k2'
  obtain ⟨kept, k1, k2, k3, k4, -, -, -⟩ := sample_of wd hc hst hmake k2' u.hasWeight
  refine ⟨kept, _, k1, k2, fun hp hlt => ?_⟩
  unfold estimateReg
  rw [hmake]
  show (Dataset.calculate Option.isNone _ source (some cols) storage >>= _) = _
  rw [k2']
  show (if cancel 0 = true then _ else _) = _
  rw [if_neg (by simp [h0])]
  have hk : (kOf u.form u.cuts (dataOf u.hasWeight (tableOf res)) : ℤ) = cols.length - 1 - (if u.hasWeight then 1 else 0) + (u.numChoices - 2) := by
    have e : u.cuts = (u.numChoices - 1).toNat := rfl
    have h2 := k2.2.1
    have hf' : (front u.hasWeight : ℤ) = 1 + (if u.hasWeight then 1 else 0) := by unfold front; split_ifs <;> rfl
    cases hf : u.form with
    | binary => have := hu.1 hf; show (((dataOf u.hasWeight (tableOf res)).k0 : ℕ) : ℤ) = _; omega
    | ordered =>
      have := hu.2 hf
      show (((dataOf u.hasWeight (tableOf res)).k0 + u.cuts - 1 : ℕ) : ℤ) = _
      omega
  have : estimated S u z E cancel (cols.length - 1 - (if u.hasWeight then 1 else 0)) (dataOf u.hasWeight (tableOf res)) = .throws := by
    unfold estimated
    rw [if_pos he]
    have : checkBefore u (dataOf u.hasWeight (tableOf res)).n (cols.length - 1 - (if u.hasWeight then 1 else 0)) = .throws := by
      unfold checkBefore
      rw [hk] at hlt
      by_cases hob : u.checks.minObs > 0 ∧ u.checks.minObs > (dataOf u.hasWeight (tableOf res)).n
      · rw [if_pos hob]
      · rw [if_neg hob, if_pos ⟨hp, by omega⟩]
    rw [this]
    rfl
  rw [this]
  rfl

/-- **C121.** A call returns early only if it was cancelled. -/
theorem C121_cancelled (h : estimateReg S u z E sim source storage junk cancel cols cur = .ok (t, true)) : ∃ k, cancel k = true := by
  unfold estimateReg at h
  obtain ⟨ds, h1, h⟩ := bind_ok h
  obtain ⟨m, h2, h⟩ := bind_ok h
  by_cases c0 : cancel 0 = true
  · exact ⟨0, c0⟩
  rw [if_neg c0] at h
  dsimp only at h
  obtain ⟨est, h3, h⟩ := bind_ok h
  cases est with
  | none =>
    unfold estimated at h3
    by_cases he : u.checks.estimation = true
    · rw [if_pos he] at h3
      obtain ⟨x, -, h3⟩ := bind_ok h3
      by_cases c : cancel 1 = true
      · exact ⟨1, c⟩
      rw [if_neg c] at h3
      obtain ⟨_, -, h3⟩ := bind_ok h3
      obtain ⟨_, -, h3⟩ := bind_ok h3
      obtain ⟨_, -, h3⟩ := bind_ok h3
      cases h3
    · rw [if_neg he] at h3; cases h3
  | some est =>
    dsimp only at h
    by_cases c2 : u.simulates = true ∧ cancel 2 = true
    · exact ⟨2, c2.2⟩
    rw [if_neg c2] at h
    obtain ⟨r, h4, h⟩ := bind_ok h
    obtain ⟨q, h5, h⟩ := bind_ok h
    by_cases hq : q.2 = true
    · unfold inMetrics at h5
      cases est with
      | none => rw [← Outcome.ok.inj h5] at hq; cases hq
      | some e =>
        dsimp only at h5
        obtain ⟨_, -, h5⟩ := bind_ok h5
        obtain ⟨_, -, h5⟩ := bind_ok h5
        obtain ⟨_, -, h5⟩ := bind_ok h5
        obtain ⟨_, -, h5⟩ := bind_ok h5
        unfold inScores at h5
        obtain ⟨pc, -, h5⟩ := bind_ok h5
        obtain ⟨pu, -, h5⟩ := bind_ok h5
        obtain ⟨pb, -, h5⟩ := bind_ok h5
        by_cases hany : pc > 0 ∨ pu > 0 ∨ pb > 0
        · rw [if_pos hany] at h5
          dsimp only at h5
          obtain ⟨_, -, h5⟩ := bind_ok h5
          by_cases c4 : pc > 0 ∧ cancel 4 = true
          · exact ⟨4, c4.2⟩
          rw [if_neg c4] at h5
          obtain ⟨_, -, h5⟩ := bind_ok h5
          by_cases c5 : pu > 0 ∧ cancel 5 = true
          · exact ⟨5, c5.2⟩
          rw [if_neg c5] at h5
          obtain ⟨_, -, h5⟩ := bind_ok h5
          rw [← Outcome.ok.inj h5] at hq; cases hq
        · rw [if_neg hany] at h5
          rw [← Outcome.ok.inj h5] at hq; cases hq
    · rw [if_neg hq] at h
      obtain ⟨q', h6, h⟩ := bind_ok h
      by_cases c6 : cancel 6 = true
      · exact ⟨6, c6⟩
      rw [if_neg c6] at h
      obtain ⟨t', h7, h⟩ := bind_ok h
      cases h

/-! ## Simulations -/

variable {other : ∀ f n, Outcome (Ext f n)} {sto : List ℝ} {orders : ℕ → ℕ → List ℤ} {fp numExo : ℤ}

section
variable (hz : dcConstruct u fp source.rows cols.length numExo = .ok z) (hs : u.simulates = true)
  (h : estimateReg S u z E (simCall S u z E other junk sto orders) source storage junk cancel cols cur = .ok (t, false))
include hz hs h wd hc hst

theorem sim_parts : ∃ kept T v r q q', CompleteRows Option.isNone source cols kept ∧ SampleOf u.hasWeight source cols kept (dataOf u.hasWeight T) ∧
    T.rows = kept.length ∧ T.cols = cols.length ∧ simSetup u = .ok v ∧ simConstruct v source.rows cols.length = .ok z.sim ∧
    simulateMade S v z.sim.n1 (decide (u.metrics.simFix - u.checks.minOutSim ≠ 0)) E (other _ _) junk u.metrics.simFix.toNat T sto orders = .ok r ∧
    outMetrics u (some r) q = .ok q' ∧ (cur.Nodup → t.metric = q'.metric) := by
  obtain ⟨ds, m, est, r, q, q', R⟩ := run_parts h
  obtain ⟨kept, k1, k2, k3, k4, k5, ky, kw⟩ := sample_of wd hc hst R.make R.read u.hasWeight
  obtain ⟨-, -, -, -, -, -, d7, -⟩ := dcConstruct_ok hz
  obtain ⟨v, v1, v2⟩ := d7 hs
  have s0 := R.sims
  unfold simulated at s0
  rw [if_pos hs] at s0
  obtain ⟨r', s1, s2⟩ := bind_ok s0
  obtain rfl : some r' = r := Outcome.ok.inj s2
  unfold simCall at s1
  rw [v1] at s1
  exact ⟨kept, tableOf m, v, r', q, q', k1, k2, k3, k4, v1, v2, s1, R.out, fun hn => (coefs_metric hn R.coef).1⟩

include hn hx in
/-- **C121.** The simulations of a model without missing rows are those of C117 for its sample, its law and its form, with the training size and the number of
simulations of the search; the metrics of the search are their results (for the costs, the mean of the ratios of the cost tables). -/
theorem C121_simulation : ∃ kept T v, CompleteRows Option.isNone source cols kept ∧ SampleOf u.hasWeight source cols kept (dataOf u.hasWeight T) ∧
    v.law = u.law ∧ v.form = u.form ∧ v.numChoices = u.numChoices ∧ v.hasWeight = u.hasWeight ∧ v.weightedEval = u.weightedEval ∧ v.costs = u.costs ∧
    v.fix = u.metrics.trainFix ∧ (∀ x, u.metrics.trainRatio = .num x → v.ratio = x) ∧
    (v.doAuc = true ↔ Sco.auc ∈ u.metrics.metricsOut) ∧ (v.doBrier = true ↔ Sco.brier ∈ u.metrics.metricsOut) ∧
    ((kept.length : ℤ) = source.rows → ∃ r, simulate S v E (other _ _) junk u.metrics.simFix.toNat T sto orders = .ok r ∧
      (∀ i : ℕ, u.metrics.indexOut .auc = some (i : ℤ) → t.metric (u.metrics.metricsIn.length + i) = r.auc) ∧
      (∀ i : ℕ, u.metrics.indexOut .brier = some (i : ℤ) → t.metric (u.metrics.metricsIn.length + i) = r.brier) ∧
      (∀ (i : ℕ) (xs : List ℝ), u.metrics.indexOut .frequencyCost = some (i : ℤ) → xs ≠ [] → r.ratios = xs.map some →
        t.metric (u.metrics.metricsIn.length + i) = some (xs.sum / xs.length))) := by
  obtain ⟨kept, T, v, r, q, q', k1, k2, k3, k4, v1, v2, s1, o, ht⟩ := sim_parts wd hc hst hz hs h
  obtain ⟨b, a, b1, a1, hv⟩ := simSetup_ok v1
  obtain ⟨pc, pu, pb, mean, oc⟩ := outMetrics_ok o
  obtain ⟨o1, o2, o3⟩ := out_cells oc hx
  refine ⟨kept, T, v, k1, k2, by rw [hv], by rw [hv], by rw [hv], by rw [hv], by rw [hv], by rw [hv], by rw [hv],
    fun x hx => by rw [hv]; simp [hx, Srch.toVal], ?_, ?_, fun hk => ⟨r, ?_, ?_, ?_, ?_⟩⟩
  · rw [hv]; simpa using position_mem (indexed_out hx a1)
  · rw [hv]; simpa using position_mem (indexed_out hx b1)
  · rw [← s1]
    refine (made_same (check := decide (u.metrics.simFix - u.checks.minOutSim ≠ 0)) ?_).symm
    rw [k3, k4, hk]; exact v2
  · intro i hi
    rw [ht hn]
    exact o2 i (by have := oc.iauc; rw [hi] at this; exact (Option.some.inj this).symm)
  · intro i hi
    rw [ht hn]
    exact o3 i (by have := oc.ibrier; rw [hi] at this; exact (Option.some.inj this).symm)
  · intro i xs hi hne hr
    rw [ht hn, o1 i (by have := oc.icost; rw [hi] at this; exact (Option.some.inj this).symm)]
    have := oc.avg
    rw [ratios_mean, hr] at this
    rw [if_neg (by simp [hne])] at this
    rw [← Outcome.ok.inj this, numbers_some]
    rfl

/-- **C121**, violated: if rows are missing and the test sample for the rows that are left does not have the size of the test sample for all rows (always, if the
size of the training sample is fixed), no model is reported: the model of the simulations was made for a smaller training sample. -/
theorem C121_violated_missing_rows (hx1 : front u.hasWeight < cols.length) : ∃ kept v, CompleteRows Option.isNone source cols kept ∧ simSetup u = .ok v ∧
    (kept.length : ℤ) - Split.trainSize kept.length v.ratio v.fix = source.rows - Split.trainSize source.rows v.ratio v.fix ∧
    (0 < u.metrics.trainFix → (kept.length : ℤ) = source.rows) := by
  obtain ⟨kept, T, v, r, q, q', k1, k2, k3, k4, v1, v2, s1, o, ht⟩ := sim_parts wd hc hst hz hs h
  obtain ⟨b, a, b1, a1, hv⟩ := simSetup_ok v1
  obtain ⟨g1, g2, g3, g4, g5, g6⟩ := simConstruct_ok v2
  have hle : (kept.length : ℤ) ≤ source.rows := by
    have hsub : kept ⊆ upTo 0 source.rows := fun r hr => mem_upTo.2 ⟨((k1.mem r).1 hr).1, ((k1.mem r).1 hr).2.1⟩
    have hnd : kept.Nodup := k1.sorted.imp (fun h => ne_of_lt h)
    have := (List.Nodup.subperm hnd hsub).length_le
    have hl : ((upTo 0 source.rows).length : ℤ) = source.rows := by
      obtain ⟨-, hp, -⟩ := dcConstruct_ok hz
      unfold upTo; simp; omega
    omega
  have hge := train_ge (R := source.rows) (rows := kept.length) (ratio := v.ratio) (fix := v.fix) hle (by omega) g5 g4
  have hmade : 0 ≤ T.rows - z.sim.n1 := by
    have := s1
    unfold simulateMade at this
    obtain ⟨_, -, this⟩ := bind_ok this
    by_cases hb : v.form ≠ .binary
    · rw [if_pos hb] at this; cases this
    rw [if_neg hb] at this
    obtain ⟨sz, hsz, -⟩ := bind_ok this
    unfold extConstruct at hsz
    obtain ⟨ds, hds, -⟩ := bind_ok hsz
    exact (dataset_pos hds).1.le
  have key : (kept.length : ℤ) - Split.trainSize kept.length v.ratio v.fix = source.rows - Split.trainSize source.rows v.ratio v.fix := by
    by_contra hne
    refine made_larger (n1 := z.sim.n1) hmade ?_ ?_ r s1
    · rw [k3, g1]; omega
    · rw [k4]
      have : v.hasWeight = u.hasWeight := by rw [hv]
      rw [this]
      unfold front at hx1
      split_ifs at hx1 ⊢ <;> omega
  refine ⟨kept, v, k1, v1, key, fun hf => ?_⟩
  have hvf : v.fix = u.metrics.trainFix := by rw [hv]
  unfold Split.trainSize at key
  rw [if_pos (by omega), if_pos (by omega)] at key
  omega

end

/-- **C121**, violated: with out-of-sample metrics, no model with more than two choices is reported. -/
theorem C121_violated_ordered (wd : source.Wf) (hc : ∀ k ∈ cols, 0 ≤ k ∧ k < source.cols) (hst : (storage.length : ℤ) = source.rows * cols.length)
    (hz : dcConstruct u fp source.rows cols.length numExo = .ok z) (hs : u.simulates = true) (ho : u.form = .ordered) :
    estimateReg S u z E (simCall S u z E other junk sto orders) source storage junk cancel cols cur ≠ .ok (t, false) := by
  intro h
  obtain ⟨kept, T, v, r, q, q', k1, k2, k3, k4, v1, v2, s1, o, ht⟩ := sim_parts wd hc hst hz hs h
  obtain ⟨b, a, b1, a1, hv⟩ := simSetup_ok v1
  have hf : v.form ≠ .binary := by rw [hv]; show u.form ≠ _; rw [ho]; decide
  unfold simulateMade at s1
  obtain ⟨_, -, s1⟩ := bind_ok s1
  rw [if_pos hf] at s1
  cases s1

/-- **C121**, violated: the smallest number of valid simulations (`MinOutSim`) has no effect on the simulations of a model. -/
theorem C121_violated_minimum (hz : dcConstruct u fp source.rows cols.length numExo = .ok z) (hs : u.simulates = true) (m : ℤ) (T : Mat ℝ)
    (hT : T.rows = source.rows ∧ T.cols = cols.length) :
    simCall S { u with checks := { u.checks with minOutSim := m } } z E other junk sto orders T = simCall S u z E other junk sto orders T := by
  obtain ⟨-, -, -, -, -, -, d7, -⟩ := dcConstruct_ok hz
  obtain ⟨v, v1, v2⟩ := d7 hs
  have hv : simSetup { u with checks := { u.checks with minOutSim := m } } = .ok v := v1
  unfold simCall
  rw [v1, hv]
  show simulateMade S v _ _ E _ junk _ T sto orders = simulateMade S v _ _ E _ junk _ T sto orders
  rw [← hT.1, ← hT.2] at v2
  rw [made_same v2, made_same v2]

/-! ## The condition number of models with more than two choices -/

theorem ordered_condition {law : Law} {J : ℕ} {D : Data} {e : Est (kOf .ordered J D)} {dd ols : Bool} {start : ∀ k, Option (Fin k → ℝ)}
    (hE : ∀ k r, (E k).other ≠ .ok r) (h : estimate S law .ordered J D E dd ols start = .ok e) : e.condition = none := by
  change estimateOrdered S law J D (E _) dd ols (start _) = .ok e at h
  unfold estimateOrdered at h
  split_ifs at h
  obtain ⟨c, -, h⟩ := bind_ok h
  split_ifs at h
  have fin : ∀ (b : Fin (D.k0 + J - 1) → ℝ), finish S (E _) .ordered dd D.n c (funOrdered S law J D) (gfunOrdered S law J D) (hfunOrdered S law J D) b = .ok e →
      e.condition = none := fun b h => by
    unfold finish at h
    obtain ⟨s, -, h⟩ := bind_ok h
    rw [← Outcome.ok.inj h]
    rfl
  unfold fromStart at h
  split at h
  · exact fin _ h
  · obtain ⟨p, -, h⟩ := bind_ok h
    cases p with
    | none => exact absurd h (hE _ _)
    | some b => exact fin _ h

/-- **C121**, violated: for more than two choices the condition number is never computed, so that its limit refuses no model. -/
theorem C121_violated_condition (hE : ∀ k r, (E k).other ≠ .ok r) (ho : u.form = .ordered) (l : Dbl ℝ) :
    estimateReg S { u with checks := { u.checks with maxCondition := l } } z E sim source storage junk cancel cols cur =
      estimateReg S u z E sim source storage junk cancel cols cur := by
  have key : ∀ numExo D, estimated S { u with checks := { u.checks with maxCondition := l } } z E cancel numExo D = estimated S u z E cancel numExo D := by
    intro numExo D
    unfold estimated
    refine if_congr Iff.rfl ?_ rfl
    refine congrArg₂ (· >>= ·) rfl (funext fun _ => ?_)
    refine if_congr Iff.rfl rfl ?_
    refine congrArg₂ (· >>= ·) rfl (funext fun _ => ?_)
    show (estimate S u.law u.form u.cuts D E false true (fun _ => none) >>= _) = (estimate S u.law u.form u.cuts D E false true (fun _ => none) >>= _)
    cases hest : estimate S u.law u.form u.cuts D E false true (fun _ => none) with
    | throws => rfl
    | ub => rfl
    | diverges => rfl
    | ok e =>
      have hcn : e.condition = none := by
        have gen : ∀ (form : Form) (e : Est (kOf form u.cuts D)), form = .ordered → estimate S u.law form u.cuts D E false true (fun _ => none) = .ok e →
            e.condition = none := by
          rintro form e rfl h; exact ordered_condition hE h
        exact gen u.form e ho hest
      have hca : checkAfter { u with checks := { u.checks with maxCondition := l } } e.condition e.aic e.sic = checkAfter u e.condition e.aic e.sic := by
        rw [hcn]; rfl
      exact congrArg (fun x : Outcome Unit => x >>= fun _ => (pure (some (some e)) : Outcome (Option (Option (Est (kOf u.form u.cuts D)))))) hca
  unfold estimateReg
  simp only [key]
  refine congrArg₂ (· >>= ·) rfl (funext fun ds => congrArg₂ (· >>= ·) rfl (funext fun m => if_congr Iff.rfl rfl
    (congrArg₂ (· >>= ·) rfl (funext fun est => ?_))))
  cases est with
  | none => rfl
  | some est =>
    refine if_congr Iff.rfl rfl (congrArg₂ (· >>= ·) rfl (funext fun r => congrArg₂ (· >>= ·) ?_ (funext fun q => if_congr Iff.rfl rfl
      (congrArg₂ (· >>= ·) ?_ (funext fun t' => if_congr Iff.rfl rfl ?_)))))
    · cases est <;> rfl
    · cases r <;> rfl
    · cases est <;> rfl

/-! ## Memory -/

theorem construct_work_nonneg {form : Form} {rows x c : ℤ} {dd : Bool} {m : Sizes} (hr : 0 ≤ rows) (hx : 1 ≤ x) (h : construct form rows x c dd = .ok m) :
    0 ≤ m.work := by
  unfold construct at h
  split_ifs at h with h1 h2 h3
  all_goals
    rw [← Outcome.ok.inj h]
    dsimp only
    refine le_trans ?_ (le_max_right _ _)
    unfold newtonWork
    have : 0 ≤ x + c - 2 := by omega
    have h2 : 0 ≤ (x + c - 2) * (x + c - 2) := mul_self_nonneg _
    omega

theorem simConstruct_storage {v : SimSetup} {rows cols : ℤ} {sz : SimSizes} (ht : v.doTable = false) (h : simConstruct v rows cols = .ok sz) : 0 ≤ sz.storage := by
  unfold simConstruct at h
  dsimp only at h
  rw [ht] at h
  split_ifs at h
  all_goals
    first
    | contradiction
    | obtain ⟨m, -, h⟩ := bind_ok h
      rw [← Outcome.ok.inj h]
      dsimp only
      omega

/-- **C121.** The blocks that a call lays over the work array fit: when the model is estimated, when it is simulated, and, if there are scores in the sample, when they
are computed (with the probabilities of as many rows as the data has). -/
theorem C121_sizes {rows ncols : ℤ} (hz : dcConstruct u fp rows ncols numExo = .ok z) (hx1 : 1 ≤ numExo) (hu : u.Proper) {probRows : ℤ} (hp : probRows ≤ rows) :
    (∀ b ∈ (dcBlocks u z rows probRows).take 2, b.sum ≤ z.work) ∧ (scored u = .ok true → ∀ b ∈ dcBlocks u z rows probRows, b.sum ≤ z.work) := by
  obtain ⟨-, d1, d2, d3, d4, d5, d6, d7, sc, d8, d9, -⟩ := dcConstruct_ok hz
  have hch : 2 ≤ u.numChoices := by
    cases hf : u.form with
    | binary => have := hu.1 hf; omega
    | ordered => have := hu.2 hf; omega
  have hss : 0 ≤ z.sim.storage := by
    cases hs : u.simulates with
    | false => rw [d7 hs]; decide
    | true =>
      obtain ⟨v, v1, v2⟩ := d6 hs
      obtain ⟨b, a, -, -, hv⟩ := simSetup_ok v1
      exact simConstruct_storage (by rw [hv]) v2
  have hmw : 0 ≤ z.model.work := by
    cases he : u.checks.estimation with
    | false => rw [d5 he]; decide
    | true => exact construct_work_nonneg d1.le hx1 (d4 he)
  have hm1 := le_max_left z.model.work z.sim.work
  have hm2 := le_max_right z.model.work z.sim.work
  have hrc : 0 ≤ rows * u.numChoices := mul_nonneg d1.le (by omega)
  have hq1 := le_max_left (rows + u.numChoices - 2) (costStorage u.costs.length)
  have hq2 := le_max_right (rows + u.numChoices - 2) (costStorage u.costs.length)
  have hadd : 0 ≤ (if sc then max (rows + u.numChoices - 2) (costStorage u.costs.length) + rows * u.numChoices else 0) := by
    split_ifs
    · omega
    · exact le_refl 0
  have b1 : [z.data, z.model.storage, z.model.work].sum ≤ z.work := by simp only [List.sum_cons, List.sum_nil]; omega
  have b2 : [z.data, z.model.storage, z.sim.storage, z.sim.work].sum ≤ z.work := by simp only [List.sum_cons, List.sum_nil]; omega
  refine ⟨fun b hb => ?_, fun hsc b hb => ?_⟩
  · simp only [dcBlocks, List.take_succ_cons, List.take_zero, List.mem_cons, List.not_mem_nil, or_false] at hb
    rcases hb with rfl | rfl
    · exact b1
    · exact b2
  · obtain rfl : sc = true := by rw [d8] at hsc; exact Outcome.ok.inj hsc
    simp only [if_true] at d9
    simp only [dcBlocks, List.mem_cons, List.not_mem_nil, or_false] at hb
    rcases hb with rfl | rfl | rfl | rfl
    · exact b1
    · exact b2
    · have : probWork u.form probRows u.cuts ≤ rows + u.numChoices - 2 := by
        unfold probWork
        have e : u.cuts = (u.numChoices - 1).toNat := rfl
        split_ifs <;> omega
      simp only [List.sum_cons, List.sum_nil]; omega
    · simp only [List.sum_cons, List.sum_nil]; omega

end
end Dc
end LDT
