import Verif.Lemmas.ChoiceSearchCells
import Verif.Lemmas.ChoiceSearchSim
import Verif.Props.ChoiceScores
import Verif.Props.MatrixStat
/-! # C121: a model of a search over discrete choice models -/
namespace LDT
namespace Dc
open Op Di Mx Arr Score

section
variable {S : Fns} {u : DcSetup} {z : DcSizes} {E : ∀ k, Env k} {sim : Mat ℝ → Outcome SimResult} {source : Mat (Val ℝ)} {storage : List (Val ℝ)}
  {junk : ℕ → ℕ → Val ℝ} {cancel : ℕ → Bool} {cols cur : List ℤ} {t : DcTables}

/-- What the estimation with its checks consists of. -/
theorem estimated_ok {numExo : ℤ} {D : Data} {e : Option (Est (kOf u.form u.cuts D))} (he : u.checks.estimation = true)
    (h : estimated S u z E cancel numExo D = .ok (some e)) :
    ∃ e', e = some e' ∧ estimate S u.law u.form u.cuts D E false true (fun _ => none) = .ok e' ∧ checkBefore u D.n numExo = .ok () ∧
      checkAfter u e'.condition e'.aic e'.sic = .ok () := by
  unfold estimated at h
  rw [if_pos he] at h
  obtain ⟨x, h1, h⟩ := bind_ok h
  by_cases c : cancel 1 = true
  · rw [if_pos c] at h; cases h
  rw [if_neg c] at h
  obtain ⟨J, h2, h⟩ := bind_ok h
  obtain ⟨e', h3, h⟩ := bind_ok h
  obtain ⟨y, h4, h⟩ := bind_ok h
  exact ⟨e', (Option.some.inj (Outcome.ok.inj h)).symm, h3, h1, h4⟩

theorem lt_num {a b : ℝ} : (Dbl.lt (.num a) (.num b) : Bool) = true ↔ a < b := by
  simp [Dbl.lt]

/-- The limits hold. -/
theorem within_of {numExo : ℤ} {D : Data} {e : Est (kOf u.form u.cuts D)} (hu : u.Proper) (h0 : -1 ≤ numExo) (hk : D.k0 = numExo.toNat)
    (h1 : checkBefore u D.n numExo = .ok ()) (h2 : checkAfter u e.condition e.aic e.sic = .ok ()) : Within u D.n e := by
  unfold checkBefore at h1
  split_ifs at h1 with a b
  unfold checkAfter at h2
  split_ifs at h2 with c d f
  refine ⟨fun h => by omega, fun h => ?_, fun h cn l hc hl => ?_, fun x l hx hl => ?_, fun x l hx hl => ?_⟩
  · have hkk : ((kOf u.form u.cuts D : ℕ) : ℤ) ≤ numExo.toNat + (u.numChoices - 2) := by
      cases hf : u.form with
      | binary => have := hu.1 hf; show ((D.k0 : ℕ) : ℤ) ≤ _; omega
      | ordered =>
        have := hu.2 hf
        have e : u.cuts = (u.numChoices - 1).toNat := rfl
        show ((D.k0 + u.cuts - 1 : ℕ) : ℤ) ≤ _
        omega
    have : u.checks.minDof ≤ D.n - numExo - u.numChoices - 2 := by
      by_contra hcon; exact b ⟨h, by omega⟩
    omega
  · by_contra hcon
    apply c
    refine ⟨h, ?_⟩
    rw [hc, hl]
    exact lt_num.2 (not_le.1 hcon)
  · by_contra hcon
    apply d
    rw [hx, hl]
    exact lt_num.2 (not_le.1 hcon)
  · by_contra hcon
    apply f
    rw [hx, hl]
    exact lt_num.2 (not_le.1 hcon)

section
variable (wd : source.Wf) (hc : ∀ k ∈ cols, 0 ≤ k ∧ k < source.cols) (hst : (storage.length : ℤ) = source.rows * cols.length)
  (hn : cur.Nodup) (hx : Indexed u.metrics) (h : estimateReg S u z E sim source storage junk cancel cols cur = .ok (t, false))
include wd hc hst hn hx h

/-- **C121.** A model of the search that was estimated: its sample are the cells of its columns in the rows without a missing cell; it is the model
of C114 for that sample; it is within the limits of the search; the metrics AIC and SIC are those of the model; each variable has its coefficient and its
variance, the others have none; the law is recorded. -/
theorem C121_estimated (he : u.checks.estimation = true) (hu : u.Proper) :
    ∃ kept D e, CompleteRows Option.isNone source cols kept ∧ SampleOf u.hasWeight source cols kept D ∧
      estimate S u.law u.form u.cuts D E false true (fun _ => none) = .ok e ∧ Within u D.n e ∧
      (∀ i : ℕ, u.metrics.indexIn .aic = some (i : ℤ) → t.metric i = Srch.toVal e.aic) ∧
      (∀ i : ℕ, u.metrics.indexIn .sic = some (i : ℤ) → t.metric i = Srch.toVal e.sic) ∧
      (0 < u.length1 → (∀ (j : ℕ) (b : ℤ) (hj : j < kOf u.form u.cuts D), cur[j]? = some b →
          t.mean (b - 1).toNat = some (e.beta ⟨j, hj⟩) ∧ t.variance (b - 1).toNat = some (e.betaVar ⟨j, hj⟩ ⟨j, hj⟩)) ∧
        ∀ b : ℕ, (b : ℤ) + 1 ∉ cur → t.mean b = none) ∧
      t.extra = lawCode u.law := by
  obtain ⟨ds, m, est, r, q, q', R⟩ := run_parts h
  obtain ⟨kept, k1, k2, k3, k4, k5, -, -⟩ := sample_of wd hc hst R.make R.read u.hasWeight
  obtain ⟨e, e1, e2, e3, e4⟩ := estimated_ok he R.fit
  subst e1
  obtain ⟨pa, ps, pc, pu, pb, cst, a, ic⟩ := inMetrics_ok R.ins
  obtain ⟨c1, c2, c3, c4, c5⟩ := in_cells ic hx
  obtain ⟨o1, o2, o3⟩ := out_keeps R.out
  obtain ⟨f1, f2⟩ := coefs_metric hn R.coef
  have hl : 0 < cols.length := by
    have := R.make
    unfold Dataset.make at this
    split_ifs at this with hneg
    push Not at hneg
    omega
  refine ⟨kept, _, e, k1, k2, e2, within_of hu ?_ ?_ e3 e4, fun i hi => ?_, fun i hi => ?_, fun hp => ?_, f2⟩
  · split_ifs <;> omega
  · rw [k2.2.1]; unfold front; split_ifs <;> omega
  · have hlt : i < u.metrics.metricsIn.length := by exact_mod_cast position_lt (indexed_in hx hi)
    rw [f1, o1 i hlt]
    exact c1 i (by rw [ic.iaic] at hi; exact Option.some.inj hi)
  · have hlt : i < u.metrics.metricsIn.length := by exact_mod_cast position_lt (indexed_in hx hi)
    rw [f1, o1 i hlt]
    exact c2 i (by rw [ic.isic] at hi; exact Option.some.inj hi)
  · have hq : q.mean = fun _ => none := by rw [ic.scores.cells]; rfl
    have hco := R.coef
    unfold coefs at hco
    dsimp only at hco
    rw [if_pos hp] at hco
    obtain ⟨-, -, -, w4, w5⟩ := writeCoefs_ok _ _ _ _ hn hco
    refine ⟨fun j b hj hb => ?_, fun b hb => ?_⟩
    · obtain ⟨g1, g2⟩ := w4 j b hb
      rw [g1, g2, zero_add]
      refine ⟨?_, ?_⟩
      · unfold ext; rw [dif_pos hj]
      · rw [dif_pos hj]
    · rw [(w5 b hb).1]
      show q'.mean b = none
      rw [o2, hq]

/-- **C121**, violated: a score in the sample (costs, AUC, Brier) that is the first of the chosen metrics is not computed, it is reported as 0. -/
theorem C121_violated_first (he : u.checks.estimation = true) (g : Gof) (hg : g = .frequencyCost ∨ g = .auc ∨ g = .brier)
    (h0 : u.metrics.metricsIn[0]? = some g) : t.metric 0 = some 0 := by
  obtain ⟨ds, m, est, r, q, q', R⟩ := run_parts h
  obtain ⟨e, e1, e2, e3, e4⟩ := estimated_ok he R.fit
  subst e1
  obtain ⟨pa, ps, pc, pu, pb, cst, a, ic⟩ := inMetrics_ok R.ins
  obtain ⟨c1, c2, c3, c4, c5⟩ := in_cells ic hx
  obtain ⟨o1, o2, o3⟩ := out_keeps R.out
  obtain ⟨f1, f2⟩ := coefs_metric hn R.coef
  have hlt : 0 < u.metrics.metricsIn.length := (List.getElem?_eq_some_iff.mp h0).1
  have zero : ∀ i : ℤ, u.metrics.indexIn g = some i → i = ((0 : ℕ) : ℤ) := fun i hi => by
    rcases indexed_in hx hi with ⟨hm, -⟩ | ⟨k, k1, k2, k3⟩
    · exact absurd (List.mem_of_getElem? h0) hm
    · rcases Nat.eq_zero_or_pos k with hk | hk
      · rw [k1, hk]
      · exact absurd h0 (k3 0 hk)
  rw [f1, o1 0 hlt]
  rcases hg with rfl | rfl | rfl
  · rw [c3 0 (zero _ ic.scores.icost), if_pos rfl]
  · rw [c4 0 (zero _ ic.scores.iauc), if_pos rfl]
  · rw [c5 0 (zero _ ic.scores.ibrier), if_pos rfl]

/-- **C121**, for the scores in the sample that are not the first metric (see `C121_violated_first`) and no missing rows (see
`C121_violated_missing`): the Brier score and the costs are those of the probabilities of the estimated model; the AUC (default options) is that of C27. -/
theorem C121_scores_partial (hS : S.Good) (he : u.checks.estimation = true) (hu : u.Proper) :
    ∃ kept D e, CompleteRows Option.isNone source cols kept ∧ SampleOf u.hasWeight source cols kept D ∧
      estimate S u.law u.form u.cuts D E false true (fun _ => none) = .ok e ∧
      (∀ i : ℕ, 0 < i → u.metrics.indexIn .brier = some (i : ℤ) → (kept.length : ℤ) = source.rows → u.form = .binary →
        ∑ i ∈ Finset.range D.n, scoreWeight u D i ≠ 0 →
        t.metric i = some (Brier D.n (scoreWeight u D) D.y fun i => fitted u D e i 1)) ∧
      (∀ i : ℕ, 0 < i → u.metrics.indexIn .frequencyCost = some (i : ℤ) → (kept.length : ℤ) = source.rows →
        ∃ totals avg, t.metric i = some avg ∧ FCost.calculate u.costs ((List.range D.n).map fun i => (some (trunc (D.y i)), scoreWeight u D i))
          (dense D.n u.numChoices.toNat fun i j => fitted u D e i j) = .ok (totals, avg)) ∧
      (∀ i : ℕ, 0 < i → u.metrics.indexIn .auc = some (i : ℤ) → Roc.Plain u.roc →
        let obs := rocObs D.n D.y (fun i => fitted u D e i 0) (scoreWeight u D) fun _ => 1
        ((Roc.positives obs).map (·.2)).sum ≠ 0 → ((Roc.negatives obs).map (·.2)).sum ≠ 0 →
        t.metric i = some (Roc.rankProb (Roc.positives obs) (Roc.negatives obs))) := by
  obtain ⟨ds, m, est, r, q, q', R⟩ := run_parts h
  obtain ⟨kept, k1, k2, k3, k4, k5, ky, kw⟩ := sample_of wd hc hst R.make R.read u.hasWeight
  obtain ⟨e, e1, e2, e3, e4⟩ := estimated_ok he R.fit
  subst e1
  obtain ⟨pa, ps, pc, pu, pb, cst, a, ic⟩ := inMetrics_ok R.ins
  obtain ⟨c1, c2, c3, c4, c5⟩ := in_cells ic hx
  obtain ⟨o1, o2, o3⟩ := out_keeps R.out
  obtain ⟨f1, f2⟩ := coefs_metric hn R.coef
  clear R
  generalize hD : dataOf u.hasWeight (tableOf m) = D at *
  have cell : ∀ g (i : ℕ), u.metrics.indexIn g = some (i : ℤ) → t.metric i = q.metric i := fun g i hi => by
    have hlt : i < u.metrics.metricsIn.length := by exact_mod_cast position_lt (indexed_in hx hi)
    rw [f1, o1 i hlt]
  have hprob : ∀ i < D.n, ∀ j ≤ u.cuts, probsOf S u D (ext e.beta) junk i j = some (fitted u D e i j) := fun i hi j hj =>
    probabilities_spec (u := ⟨u.law, u.form, u.numChoices, u.hasWeight, false, false, false, none, u.roc, u.rocCosts⟩) hS hu hi hj
  have hw : (fun i => if u.hasWeight && u.weightedEval then D.wt i else 1) = scoreWeight u D := by
    funext i
    unfold scoreWeight
    simp
  have h1c : 1 ≤ u.cuts ∧ (u.cuts : ℤ) = u.numChoices - 1 := by
    have e : u.cuts = (u.numChoices - 1).toNat := rfl
    cases hf : u.form with
    | binary => have := hu.1 hf; omega
    | ordered => have := hu.2 hf; omega
  refine ⟨kept, D, e, k1, k2, e2, fun i hi hb hk hf hsum => ?_, fun i hi hb hk => ?_, fun i hi hb hp => ?_⟩
  · rw [cell _ i hb]
    rw [c5 i (by have := ic.scores.ibrier; rw [hb] at this; exact (Option.some.inj this).symm), if_neg (by omega)]
    unfold brierOf
    have en : source.rows.toNat = D.n := by rw [k2.1]; omega
    rw [en]
    refine brier_eq (fun i hi => ⟨?_, ky i (by rw [← k2.1]; exact hi), hprob i hi 1 h1c.1⟩) hsum
    unfold scoreWeight
    by_cases hww : (u.hasWeight && u.weightedEval) = true
    · rw [if_pos hww]
      rw [Bool.and_eq_true] at hww
      rw [if_pos hww, k2.1]
      have : 1 ≤ D.k0 := by
        have gen : ∀ (form : Form) (e : Est (kOf form u.cuts D)), form = .binary → estimate S u.law form u.cuts D E false true (fun _ => none) = .ok e → 1 ≤ D.k0 := by
          rintro form e rfl h; exact (estimate_k0 h).2
        exact gen u.form e hf e2
      have h2 := k2.2.1
      unfold front at h2
      rw [if_pos hww.1] at h2
      exact kw hww.1 (by omega) i (by rw [← k2.1]; exact hi)
    · rw [if_neg hww]
      rw [Bool.and_eq_true] at hww
      rw [if_neg hww]
  · have hpc : pc = i := by have := ic.scores.icost; rw [hb] at this; exact (Option.some.inj this).symm
    obtain ⟨rr, hr, hcst⟩ := ic.scores.cost (by omega)
    refine ⟨rr.1, rr.2, ?_, ?_⟩
    · rw [cell _ i hb, c3 i hpc, if_neg (by omega), hcst]
    · have en : source.rows.toNat = D.n := by rw [k2.1]; omega
      rw [hw, en] at hr
      rw [← hr]
      unfold costObs
      congr 1
      refine dense_congr fun i hi j hj => ?_
      rw [hprob i hi j (by omega)]
      rfl
  · intro obs h1 h2
    have hpu : pu = i := by have := ic.scores.iauc; rw [hb] at this; exact (Option.some.inj this).symm
    rw [cell _ i hb, c4 i hpu, if_neg (by omega)]
    have ha := ic.scores.auc (by omega)
    rw [hw] at ha
    unfold aucOf at ha
    dsimp only at ha
    obtain ⟨rr, hr, ha⟩ := bind_ok ha
    have hobs : rocObs D.n D.y (fun i => (probsOf S u D (ext e.beta) junk i 0).getD 0) (scoreWeight u D) (fun _ => 1) = obs := rocObs_congr fun i hi => by
      rw [hprob i hi 0 (by omega)]; rfl
    rw [hobs] at hr
    obtain ⟨pts, hk⟩ := Roc.C27_auc_is_rank_probability { u.roc with cost := none } ⟨hp.bounds, hp.eps, hp.pess⟩ rfl obs h1 h2
    rw [hk] at hr
    obtain rfl := Outcome.ok.inj hr
    exact (Outcome.ok.inj ha).symm

end
end
end Dc
end LDT
