import Verif.Props.SurSearcher
/-! # C126: the scores out of the sample, and the metrics that are not there -/
namespace LDT
namespace Su
open Mx Op Ls Score
open Dc (bind_ok)
open Arr (Val)
open Matrix

section
variable {lu : List ℝ → List ℝ} {f : Fns ℝ} {u : SsSetup} {other : Outcome ExtRes} {sim : Mat ℝ → Outcome SimResult} {source : Mat (Val ℝ)}
  {dataStorage : List (Val ℝ)} {rmem storage work : List ℝ} {cancel : ℕ → Bool} {inner cur : List ℤ} {T : ℕ} {t : SsTables}

theorem ssCoefs_metric {est : Option ExtRes} {t t' : SsTables} (hn : cur.Nodup) (h : ssCoefs u T est cur t = .ok t') : t'.metric = t.metric := by
  unfold ssCoefs at h
  cases est with
  | none => rw [← Outcome.ok.inj h]
  | some e =>
    dsimp only at h
    by_cases hl : u.length1 > 0
    · rw [if_pos hl] at h
      cases hd : e.res.details with
      | none => rw [hd] at h; cases h
      | some d =>
        rw [hd] at h
        exact (coefColumns_ok hn _ _ _ List.nodup_range h).1
    · rw [if_neg hl] at h
      rw [← Outcome.ok.inj h]

theorem ssInIf_keeps {est : Option ExtRes} {t t' : SsTables} (hx : Dc.Indexed u.metrics) (h : ssInIf u T est t = .ok t') :
    ∀ (i j : ℕ), u.metrics.indexIn .aic ≠ some (i : ℤ) → u.metrics.indexIn .sic ≠ some (i : ℤ) → t'.metric i j = t.metric i j := by
  cases est with
  | none => intro i j _ _; rw [← Outcome.ok.inj (show Outcome.ok t = .ok t' from h)]
  | some e => exact (ssIn_ok hx (show ssIn u T e t = .ok t' from h)).2.2.2.2

/-- **C126**, violated: a metric in the sample other than AIC and SIC is accepted and reported as 0 for every model. -/
theorem C126_zero_violated (hx : Dc.Indexed u.metrics) (hn : cur.Nodup) {cols : List ℤ}
    (h : ssEstimate lu f u other sim source dataStorage rmem storage work cancel inner cols cur T = .ok (t, false)) {g : Gof} (ha : g ≠ .aic) (hs : g ≠ .sic)
    {i : ℕ} (hi : u.metrics.metricsIn[i]? = some g) (j : ℕ) : t.metric i j = some 0 := by
  obtain ⟨ds, m, est, t1, t2, p1, p2, p3, p4, p5, p6⟩ := ss_parts h
  obtain ⟨-, -, o3, -, -⟩ := ssOutIf_ok hx p5
  have hlt : i < u.metrics.metricsIn.length := (List.getElem?_eq_some_iff.mp hi).1
  have no : ∀ g', g ≠ g' → u.metrics.indexIn g' ≠ some (i : ℤ) := fun g' hg hh => by
    rcases Dc.indexed_in hx hh with ⟨-, q⟩ | ⟨k, q1, q2, -⟩
    · omega
    have : k = i := by omega
    subst this
    rw [hi] at q2
    exact hg (Option.some.inj q2)
  rw [ssCoefs_metric hn p6, o3 i hlt, ssInIf_keeps hx p4 i j (no _ ha) (no _ hs)]
  rfl

theorem OutOfSample.std_nonneg {data : Mat ℝ} {n : ℤ} {m k : ℕ} {c : Dbl ℝ} {t : Numbers} (h : OutOfSample data n m k c t) {a j : ℕ} (ha : a < t.rows) (hj : j < m) :
    0 ≤ t.std a j := by
  obtain ⟨I0, I1, -, -, hr, Y, X, Y', Z, B, G, -, -, -, -, -, -, -, hv⟩ := h
  rw [(hv ⟨a, hr ▸ ha⟩ ⟨j, hj⟩).2.2]
  exact Real.sqrt_nonneg _

/-- **C126.** The simulations of a model: they run on the table of the complete rows of its columns; at least `MinOutSim` of them are valid; each valid one
scores the rows outside of its training sample by the least squares projections from it, which has the size that was asked for and, if they are
checked, a condition number that is not above the limit; and what is reported in column `j` for a score is that score of
equation `j`. -/
theorem C126_scores {crps : Dbl ℝ → Dbl ℝ → Outcome (Dbl ℝ)} {splitStorage simStorage simWorkArr : List ℝ} {orders : ℕ → List ℤ}
    (R : SsReady u source dataStorage storage work inner cur) (hs : u.simulates = true) (hl : u.lambdas = [])
    (hsp : source.rows * (inner ++ cur).length ≤ splitStorage.length)
    (hst : let n0 := Split.trainSize source.rows u.sim.ratio u.sim.fix
      extStorage u.sim.model n0 inner.length cur.length (source.rows - n0) ≤ simStorage.length ∧
      extWork u.sim.model n0 inner.length cur.length (source.rows - n0) ≤ simWorkArr.length)
    (h : ssEstimate lu f u other (ssSim lu f crps u source.rows inner.length cur.length other rmem splitStorage simStorage simWorkArr orders) source
      dataStorage rmem storage work cancel inner (inner ++ cur) cur T = .ok (t, false)) :
    ∃ kept table q, TableOf source (inner ++ cur) kept table ∧
      ssSim lu f crps u source.rows inner.length cur.length other rmem splitStorage simStorage simWorkArr orders table = .ok q ∧
      u.checks.minOutSim ≤ q.valid ∧ ((∀ i, (orders i).Perm (upTo 0 kept.length)) → ∃ L : List Numbers, L.length = q.valid ∧
        (∀ x ∈ L, OutOfSample table (Split.trainSize kept.length ((Srch.toVal u.metrics.trainRatio).getD 0) u.metrics.trainFix) inner.length cur.length
          (if u.checks.checkCN then u.checks.maxCondition else .pinf) x) ∧
        ∀ (e : Sco) (i : ℕ), Implemented e → u.metrics.metricsOut[i]? = some e → u.metrics.indexOut e = some (i : ℤ) → ∀ j < T, j < inner.length →
          ∀ c : ℝ → ℝ → ℝ, (e = .crps → ∀ a b : ℝ, 0 ≤ b → crps (.num a) (.num b) = .ok (.num (c a b))) →
          (e = .mape ∨ e = .rmspe → ∀ x ∈ L, ∀ a < x.rows, x.y a j ≠ 0) → 0 < (L.map (·.rows)).sum →
          t.metric (u.metrics.metricsIn.length + i) j = some (scored e (meanLoss c e L j))) := by
  have hlen : 0 < (inner ++ cur).length := by rw [List.length_append]; have := R.inner_pos; omega
  obtain ⟨ds, m, kept, d1, d2, k1, k3, k4, k5⟩ := read_sample R.wf R.cols R.data R.rows hlen
  obtain ⟨ds', m', est, t1, t2, p1, p2, p3, p4, p5, p6⟩ := ss_parts h
  rw [d1] at p1
  obtain rfl := Outcome.ok.inj p1
  rw [d2] at p2
  obtain rfl := Outcome.ok.inj p2
  obtain ⟨-, -, -, o4, -⟩ := ssOutIf_ok R.indexed p5
  obtain ⟨q, hq, hcell⟩ := o4 hs
  have hrows : (Dc.tableOf m).rows = kept.length := k3
  have hok : ¬ (u.metrics.simFix ≤ 0 ∨ Split.trainSize (Dc.tableOf m).rows u.sim.ratio u.sim.fix ≤ 0 ∨
      (Dc.tableOf m).rows ≤ Split.trainSize (Dc.tableOf m).rows u.sim.ratio u.sim.fix) := fun hh => by
    unfold ssSim at hq
    rw [C125_refused hh] at hq
    cases hq
  rw [hrows] at hok
  have h0 : 0 < kept.length := by omega
  have htab := read_table k1 k3 k4 k5 h0 hlen
  generalize Dc.tableOf m = table at *
  have hR : u.R ((cur.length : ℤ) * inner.length) rmem = none := by unfold SsSetup.R; rw [R.plain]; rfl
  have hq' := hq
  unfold ssSim at hq'
  rw [hR] at hq'
  refine ⟨kept, table, q, htab, hq, ?_, fun ho => ?_⟩
  · obtain ⟨-, g, -, -, hv⟩ := C125_valid hq'
    have : u.sim.maxInvalid = u.metrics.simFix - u.checks.minOutSim := rfl
    omega
  · obtain ⟨-, g, hg, hv, -⟩ := C125_valid hq'
    have hcols : table.cols = inner.length + cur.length := by rw [htab.width, List.length_append]; push_cast; rfl
    obtain ⟨L, hL, hO⟩ := C125_out_of_sample (lu := lu) (f := f) (other := other) (maxProb := u.maxProb) (u := u.sim) (N := source.rows)
      (m := inner.length) (k := cur.length) (data := table) (splitStorage := splitStorage) (storage := simStorage) (work := simWorkArr)
      (maxIteration := u.metrics.simFix) htab.wf hcols R.inner_pos R.cur_pos (by rw [htab.count]; exact kept_le R.wf k1)
      (by rw [htab.count]; omega) (by rw [htab.count]; omega)
      (by
        rw [htab.count, htab.width]
        exact le_trans (mul_le_mul_of_nonneg_right (kept_le R.wf k1) (by positivity)) hsp) hst.1 hst.2
      (by show decide (u.maxIter > 0) = false; rw [R.plain]; rfl) R.plain (by show (if u.lambdas.length = 0 then none else some u.lambdas) = none; rw [hl]; rfl)
      (by rw [htab.count]; exact ho) hg
    refine ⟨L, by rw [hv, hL.length_eq], fun x hx => by have := hO x hx; rwa [htab.count] at this, fun e i hie hei hoi j hjT hjm c hc hy hpos => ?_⟩
    obtain ⟨x, c1, c2⟩ := hcell e hie i hoi j hjT
    have hsc := C125_scores hq' hg (e := e) (T := L) (hL.imp fun F n hF => ⟨hF.1, fun a ha b hb => ⟨(hF.2 a ha b hb).1, (hF.2 a ha b hb).2.1, fun he => by
      exact (hF.2 a ha b hb).2.2 (he ▸ List.mem_of_getElem? hei)⟩⟩) hpos hei hie hjm
      (fun he x hx a ha => hc he _ _ ((hO x hx).std_nonneg ha hjm)) hy
    rw [hsc] at c1
    obtain rfl := Option.some.inj c1
    rw [ssCoefs_metric R.nodup p6, c2]
    rfl

/-- **C126.** A model with too few valid simulations, or whose simulations throw for another reason, throws. -/
theorem C126_simulation_throws (hs : u.simulates = true) {cols : List ℤ} {ds : Dataset} {m : Mat (Val ℝ)}
    (h1 : Dataset.make source.rows cols.length true true = .ok ds) (h2 : ds.calculate Option.isNone source (some cols) dataStorage = .ok m)
    (hm : sim (Dc.tableOf m) = .throws) :
    ∀ t, ssEstimate lu f u other sim source dataStorage rmem storage work cancel inner cols cur T ≠ .ok (t, false) := fun t h => by
  obtain ⟨ds', m', est, t1, t2, p1, p2, p3, p4, p5, p6⟩ := ss_parts h
  rw [h1] at p1
  obtain rfl := Outcome.ok.inj p1
  rw [h2] at p2
  obtain rfl := Outcome.ok.inj p2
  unfold ssOutIf at p5
  rw [if_pos hs, hm] at p5
  cases p5

/-- **C126.** A call that returns early was cancelled. -/
theorem C126_cancelled {cols : List ℤ} (h : ssEstimate lu f u other sim source dataStorage rmem storage work cancel inner cols cur T = .ok (t, true)) :
    ∃ k, cancel k = true := by
  unfold ssEstimate at h
  obtain ⟨ds, h1, h⟩ := bind_ok h
  obtain ⟨m, h2, h⟩ := bind_ok h
  obtain ⟨est, h3, h⟩ := bind_ok h
  obtain ⟨t1, h4, h⟩ := bind_ok h
  by_cases c0 : cancel 0 = true
  · exact ⟨0, c0⟩
  rw [if_neg c0] at h
  obtain ⟨t2, h5, h⟩ := bind_ok h
  by_cases c1 : cancel 1 = true
  · exact ⟨1, c1⟩
  rw [if_neg c1] at h
  obtain ⟨t3, h6, h⟩ := bind_ok h
  cases h

/-- **C126**, violated: the `j`-th equation of a group is taken back with the `j`-th parameter of the data, whichever variable it is for. If that is a logarithm,
the observations and projections of a variable without a transformation are exponentiated before they are compared. -/
theorem C126_boxcox_violated (p : SimFit) {inner : List ℤ} {i j : ℕ} {b : ℕ} (_hb : inner[j]? = some (b : ℤ)) (_hn : u.lambdas[b]? = some none)
    (hj : u.lambdas[j]? = some (some 0)) :
    (simForecast u.sim p).y i j = .num (Real.exp (p.y.val i j)) ∧ (simForecast u.sim p).mean i j = .num (Real.exp (p.means.val i j)) := by
  have h0 : u.lambdas.length ≠ 0 := by
    have := (List.getElem?_eq_some_iff.mp hj).1
    omega
  have : lambda u.sim.lambdas j = some 0 := by
    show lambda (if u.lambdas.length = 0 then none else some u.lambdas) j = _
    rw [if_neg h0]
    show u.lambdas.getD j none = _
    rw [List.getD_eq_getElem?_getD, hj]
    rfl
  have back : ∀ x : ℝ, backD (some 0) (.num x) = .num (Real.exp x) := fun x => by
    show (if (0 : ℝ) ≠ 0 then _ else Dbl.num (Real.exp x)) = _
    rw [if_neg (by simp)]
  constructor
  · unfold simForecast
    dsimp only
    rw [this]
    exact back _
  · unfold simForecast
    dsimp only
    rw [this]
    exact back _

/-- A concrete case: the group of the second variable alone, when only the first one is in logarithms. -/
example : ([1] : List ℤ)[0]? = some ((1 : ℕ) : ℤ) ∧ ([some 0, none] : List (Val ℝ))[1]? = some none ∧ ([some 0, none] : List (Val ℝ))[0]? = some (some 0) :=
  ⟨rfl, rfl, rfl⟩

end
end Su
end LDT
