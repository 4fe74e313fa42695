import Verif.Props.VarmaSearcher
/-! # C133: one VARMA model of a search: scores, acceptance, and where it goes wrong -/
namespace LDT
namespace Vm
open Op Mx Arr Score
open Dc (bind_ok)

section
variable {σ : Type} {u : Setup} {w : Needs} {M : Memory} {o : Oracle σ} {d : DsTs ℝ} {inner cur cols : List ℤ} {T : ℕ}

/-- **C133.** The condition number is limited exactly if that is wanted: for the estimation and, by another option, for the simulations. -/
theorem C133_condition {s : Sample} {e : Fitted} (h : estimated u w M o s = .ok e) :
    (u.checks.checkCNAll = true → o.estimate u.checks.maxCondition s.y s.x = .ok e) ∧ (u.checks.checkCNAll = false → o.estimate .pinf s.y s.x = .ok e) ∧
    (u.checks.checkCN = true →
      simulated u o s = Vs.calculate o.crps u.sim u.sizes.T (colsOf s.y) (o.fit u.checks.maxCondition s.y s.x) (u.metrics.simFix - u.checks.minOutSim) o.kept) ∧
    (u.checks.checkCN = false →
      simulated u o s = Vs.calculate o.crps u.sim u.sizes.T (colsOf s.y) (o.fit .pinf s.y s.x) (u.metrics.simFix - u.checks.minOutSim) o.kept) := by
  have h1 := estimated_ok h
  unfold simulated
  unfold limit at h1 ⊢
  refine ⟨fun c => ?_, fun c => ?_, fun c => ?_, fun c => ?_⟩
  · rwa [c, if_pos rfl] at h1
  · rwa [c, if_neg (by decide)] at h1
  · rw [c, if_pos rfl]
  · rw [c, if_neg (by decide)]

/-- **C133.** The scores: what is reported in column `j` is the score of the mean loss of all forecasts of the `j`-th variable of the model, over all horizons of all
simulations that succeed (see C132). -/
theorem C133_scores (hx : Dc.Indexed u.metrics) {t : Tables} (h : estimateOne u w M o d inner cur cols T = .ok t) {s : Sample}
    (hs : sample d M.work inner cur cols = .ok s) (h0 : 0 < u.metrics.simFix) (ha : Vs.Ascending u.sim) {g f}
    (hg : Vs.Ran u.sim (o.fit (limit u.checks.checkCN u) s.y s.x) u.metrics.simFix.toNat o.kept false g f) {i j : ℕ} {e : Sco}
    (he : u.metrics.indexOut e = some (i : ℤ)) (hi : Vs.Implemented e) (hj : j < T) (hn : (j : ℤ) < u.sizes.eqsCount)
    {C : List Vs.Comparison} (hC : List.Forall₂ (fun x k => Vs.Point.Is x (e = .crps) k) (Vs.points u.sim (colsOf s.y) (((colsOf s.y).length : ℤ) - 1) j g) C)
    {c : ℝ → ℝ → ℝ} (hc : e = .crps → ∀ k ∈ C, o.crps (.num (k.actual - k.forecast)) (.num k.std) = .ok (.num (c (k.actual - k.forecast) k.std)))
    (hy : e = .mape ∨ e = .rmspe → ∀ k ∈ C, 0 < k.actual) :
    t.cells.metric (u.metrics.metricsIn.length + i) j = some (Su.scored e (Vs.mean (C.map (Vs.loss c e)))) := by
  obtain ⟨s', hs', R⟩ := C133_reports hx h
  rw [hs] at hs'
  obtain rfl := Outcome.ok.inj hs'
  have hout : u.metrics.metricsOut[i]? = some e := by
    rcases Dc.indexed_out hx he with ⟨-, q⟩ | ⟨k, q1, q2, -⟩
    · omega
    · have : k = i := by omega
      subst this
      exact q2
  obtain ⟨r, r1, -, r2⟩ := R.scores h0 (fun hh => by rw [hh] at hout; simp at hout)
  obtain ⟨x, x1, x2⟩ := r2 e hi i he j hj
  have := Vs.C132_scores (u := u.sim) ha r1 hg hout hi (by show j < u.sizes.eqsCount.toNat; omega) hC hc hy
  rw [x1] at this
  rw [x2, Option.some.inj this]
  rfl

/-- **C133.** If simulations are wanted, none is reported about a model for which they fail or none is valid. -/
theorem C133_unscored (hx : Dc.Indexed u.metrics) (h0 : 0 < u.metrics.simFix) (h1 : u.metrics.metricsOut ≠ []) {s : Sample}
    (hs : sample d M.work inner cur cols = .ok s) (h : ∀ r, simulated u o s = .ok r → r.valid = 0) (t : Tables) :
    estimateOne u w M o d inner cur cols T ≠ .ok t := by
  intro ht
  obtain ⟨s', hs', R⟩ := C133_reports hx ht
  rw [hs] at hs'
  obtain rfl := Outcome.ok.inj hs'
  obtain ⟨r, r1, r2, -⟩ := R.scores h0 h1
  have := h r r1
  omega

theorem ssOutOne_exists {v : Su.SsSetup} {r : Su.Results} (hx : Dc.Indexed v.metrics) (hr : r.length = v.metrics.metricsOut.length) (hT : ∀ l ∈ r, T ≤ l.length) (e : Sco)
    (t : Su.SsTables) : ∃ t', Su.ssOutOne v T r e t = .ok t' := by
  unfold Su.ssOutOne
  obtain ⟨i, hi, pi⟩ := hx.2 e
  have e1 : Dc.pos v.metrics.indexOut e = .ok i := by unfold Dc.pos Outcome.ofOption; rw [hi]
  have li := Dc.position_lt pi
  rw [e1, Outcome.ok_bind]
  by_cases c : i ≥ 0
  · rw [if_pos c]
    have hlt : i.toNat < r.length := by omega
    have e2 : Su.resultRow r i T = .ok fun t => Srch.toVal ((r[i.toNat]).getD t .nan) := by
      unfold Su.resultRow
      rw [List.getElem?_eq_getElem hlt]
      dsimp only
      rw [if_neg (by have := hT _ (List.getElem_mem hlt); omega)]
    rw [e2, Outcome.ok_bind]
    exact Su.setRow_exists (by omega) (by unfold Su.SsSetup.rows; push_cast; omega)
  · rw [if_neg c]; exact ⟨t, rfl⟩

theorem ssOut_exists {v : Su.SsSetup} {r : Su.Results} (hx : Dc.Indexed v.metrics) (hr : r.length = v.metrics.metricsOut.length) (hT : ∀ l ∈ r, T ≤ l.length) :
    ∀ (es : List Sco) (t : Su.SsTables), ∃ t', Su.ssOut v T r es t = .ok t'
  | [], t => ⟨t, rfl⟩
  | e :: es, t => by
    obtain ⟨t1, h1⟩ := ssOutOne_exists hx hr hT e t
    obtain ⟨t2, h2⟩ := ssOut_exists hx hr hT es t1
    exact ⟨t2, by rw [Su.ssOut, h1, Outcome.ok_bind, h2]⟩

theorem columnAt_exists {f : Vs.Cols} {j : ℤ} (h0 : 0 ≤ j) (h1 : j < f.length) : ∃ c, columnAt f j = .ok c := by
  unfold columnAt
  rw [if_neg (by omega), List.getElem?_eq_getElem (by omega)]
  exact ⟨_, rfl⟩

theorem setForecast_exists {start : ℤ} {f : Vs.Cols × Vs.Cols} {len : ℕ} (h0 : 0 ≤ start) (h1 : len + start ≤ f.1.length) (h2 : len + start ≤ f.2.length) :
    ∀ (l : List (ℕ × ℕ)) (t : Su.SsTables), (∀ p ∈ l, p.2 < len) → ∃ t', l.foldlM (setForecast start f) t = .ok t'
  | [], t, _ => ⟨t, rfl⟩
  | p :: l, t, h => by
    have hp := h p List.mem_cons_self
    obtain ⟨m, hm⟩ := columnAt_exists (f := f.1) (j := p.2 + start) (by omega) (by omega)
    obtain ⟨v, hv⟩ := columnAt_exists (f := f.2) (j := p.2 + start) (by omega) (by omega)
    obtain ⟨t1, ht1⟩ : ∃ t1, setForecast start f t p = .ok t1 := by
      unfold setForecast
      rw [hm, Outcome.ok_bind, hv, Outcome.ok_bind]
      exact ⟨_, rfl⟩
    obtain ⟨t2, ht2⟩ := setForecast_exists h0 h1 h2 l t1 fun q hq => h q (List.mem_cons_of_mem _ hq)
    exact ⟨t2, by rw [List.foldlM_cons, ht1, Outcome.ok_bind, ht2]⟩

/-- What a model must meet. -/
structure Fine (u : Setup) (o : Oracle σ) (s : Sample) (cur : List ℤ) (T : ℕ) : Prop where
  enough : Enough u s
  estimate : ∃ e, o.estimate (limit u.checks.checkCNAll u) s.y s.x = .ok e ∧ u.checks.maxAic.lt e.aic = false ∧ u.checks.maxSic.lt e.sic = false
  forecast : u.checks.prediction = true → ∃ f v, o.forecast s.y s.x = .ok (f, v) ∧ (∀ c ∈ f, ∀ i < cur.length, c i ≠ .nan) ∧
    (∀ l r, u.lower = some l → u.upper = some r → Readable u l r f cur ∧ InBounds u l r f cur) ∧
    0 ≤ u.sizes.arMaxD ∧ u.length1 + u.sizes.arMaxD ≤ f.length ∧ u.length1 + u.sizes.arMaxD ≤ v.length
  simulations : u.simulates = true → ∃ r, simulated u o s = .ok r ∧ r.valid ≠ 0 ∧ r.results.length = u.metrics.metricsOut.length ∧ ∀ l ∈ r.results, T ≤ l.length

/-- **C133.** A model that meets all the requirements is reported. -/
theorem C133_accepts (hx : Dc.Indexed u.metrics) (he : u.checks.estimation = true) {s : Sample} (hs : sample d M.work inner cur cols = .ok s)
    (hm : estimated u w M o s = o.estimate (limit u.checks.checkCNAll u) s.y s.x) (h : Fine u o s cur T) :
    ∃ t, estimateOne u w M o d inner cur cols T = .ok t := by
  obtain ⟨e, e1, e2, e3⟩ := h.estimate
  have ca : checkAfter u e = .ok () := by
    unfold checkAfter
    rw [e2, e3]; rfl
  obtain ⟨f, f1, f2⟩ : ∃ f, predictedIf u o s cur = .ok f ∧ (u.checks.prediction = true → 0 ≤ u.sizes.arMaxD ∧ u.length1 + u.sizes.arMaxD ≤ f.1.length ∧
      u.length1 + u.sizes.arMaxD ≤ f.2.length) := by
    unfold predictedIf
    by_cases hp : u.checks.prediction = true
    · obtain ⟨f, v, q1, q2, q3, q4⟩ := h.forecast hp
      refine ⟨(f, v), ?_, fun _ => q4⟩
      rw [if_pos hp]
      unfold predicted
      have hn : ¬ anyNaN cur.length f = true := fun hh => by
        unfold anyNaN at hh
        obtain ⟨c, hc, hh⟩ := List.any_eq_true.1 hh
        obtain ⟨i, hi, hh⟩ := List.any_eq_true.1 hh
        exact q2 c hc i (List.mem_range.1 hi) (by simpa using hh)
      rw [q1, Outcome.ok_bind, if_neg hn]
      have hb : checkBounds u f cur = .ok () := by
        unfold checkBounds
        split
        · next l r hl hr => exact bounds_iff.1.2 (q3 l r hl hr)
        · rfl
      show (do let _ ← checkBounds u f cur; pure (f, v)) = _
      rw [hb]
      rfl
    · rw [if_neg hp]
      exact ⟨_, rfl, fun hh => absurd hh hp⟩
  obtain ⟨t1, ht1⟩ := Su.ssCrit_exists (u := u.asSystem) (T := T) (aic := e.aic) (sic := e.sic) (t := Su.ssTables0) hx
  have hin : inSample u w M o s cur T Su.ssTables0 = .ok (t1, f) := by
    unfold inSample
    rw [if_pos he, checkBefore_iff.1.2 h.enough, Outcome.ok_bind, hm, e1, Outcome.ok_bind, ca, Outcome.ok_bind, f1, Outcome.ok_bind, ht1]
    rfl
  obtain ⟨t2, ht2⟩ : ∃ t2, outOfSample u o s T t1 = .ok t2 := by
    unfold outOfSample
    by_cases c : u.simulates = true
    · obtain ⟨r, r1, r2, r3, r4⟩ := h.simulations c
      rw [if_pos c, r1, Outcome.ok_bind, if_neg r2]
      exact ssOut_exists (v := u.asSystem) hx r3 r4 _ _
    · rw [if_neg c]; exact ⟨_, rfl⟩
  obtain ⟨t3, ht3⟩ : ∃ t3, setForecasts u T f t2 = .ok t3 := by
    unfold setForecasts
    by_cases c : u.forecasts = true ∧ u.length1 > 0
    · rw [if_pos c]
      have hp : u.checks.prediction = true := by
        have := c.1
        unfold Setup.forecasts at this
        rw [Bool.and_eq_true] at this
        exact this.2
      obtain ⟨q1, q2, q3⟩ := f2 hp
      exact setForecast_exists q1 q2 q3 _ _ fun p hp => (mem_targetHorizons.1 (show (p.1, p.2) ∈ _ from hp)).2
    · rw [if_neg c]; exact ⟨_, rfl⟩
  refine ⟨⟨t3, u.params⟩, ?_⟩
  unfold estimateOne
  rw [hs, Outcome.ok_bind, hin, Outcome.ok_bind]
  dsimp only
  rw [ht2, Outcome.ok_bind, ht3]
  rfl

/-- **C133.** With bounds that can be read, the forecasts pass the check exactly if all of them are within their bounds. -/
theorem C133_bounds_iff {l r : Mat (Dbl ℝ)} {f : Vs.Cols} (hl : u.lower = some l) (hr : u.upper = some r) (h : Readable u l r f cur) :
    (checkBounds u f cur = .ok () ↔ InBounds u l r f cur) ∧ (checkBounds u f cur = .throws ↔ ¬ InBounds u l r f cur) := by
  unfold checkBounds
  rw [hl, hr]
  dsimp only
  obtain ⟨a, b⟩ := bounds_iff (u := u) (lower := l) (upper := r) (f := f) (cur := cur)
  refine ⟨⟨fun e => (a.1 e).2, fun e => a.2 ⟨h, e⟩⟩, fun e hh => ?_, fun e => b h e⟩
  rw [a.2 ⟨h, hh⟩] at e
  cases e

/-! ## Where it goes wrong -/

/-- **C133 (violated).** A search without simulations has no horizons (C40). Then the bounds are not looked at: every forecast passes. -/
theorem C133_bounds_unused_violated {m0 : SOpt.Metrics ℝ} (h : m0.update false true = .ok u.metrics) (h0 : m0.metricsOut = []) (f : Vs.Cols) :
    checkBounds u f cur = .ok () := by
  have hz : u.metrics.horizons = [] := by
    rw [(SOpt.C120_updated m0 u.metrics false true h).2.2.2.2.2.2.1, if_pos rfl]
    by_contra hc
    rw [((SOpt.C120_refused m0 false true).1.2 (SOpt.Contradiction.noMetric rfl hc h0))] at h
    cases h
  unfold checkBounds
  split
  · have : ∀ (ts : List ℤ) (l r : Mat (Dbl ℝ)) (k : ℕ), boundRows u l r f ts k = .ok () := by
      intro ts
      induction ts with
      | nil => intro l r k; rfl
      | cons t ts ih =>
        intro l r k
        rw [boundRows, hz]
        by_cases c : t < (u.targets : ℤ)
        · rw [if_pos c]; exact ih l r (k + 1)
        · rw [if_neg c]; exact ih l r (k + 1)
    exact this _ _ _ _
  · rfl

/-- **C133 (violated).** If predictions are wanted but not the estimation of the whole sample, nothing is predicted: the means of all models are NaN. -/
theorem C133_prediction_violated (hx : Dc.Indexed u.metrics) (_hp : u.checks.prediction = true) (_hl : 0 < u.length1) (he : u.checks.estimation = false) {t : Tables}
    (h : estimateOne u w M o d inner cur cols T = .ok t) (i j : ℕ) : t.cells.mean i j = none := by
  obtain ⟨s, -, R⟩ := C133_reports hx h
  exact R.noForecast i j (Or.inr (Or.inr (by unfold Setup.forecasts; rw [he]; rfl)))

/-- **C133 (violated).** A metric in the sample other than AIC and SIC is accepted and reported as 0 for every model. -/
theorem C133_zero_violated (hx : Dc.Indexed u.metrics) {t : Tables} (h : estimateOne u w M o d inner cur cols T = .ok t) {g : Gof} (ha : g ≠ .aic) (hs : g ≠ .sic)
    {i : ℕ} (hi : u.metrics.metricsIn[i]? = some g) (j : ℕ) : t.cells.metric i j = some 0 := by
  obtain ⟨s, a, t1, t2, h1, h2, h3, h4, rfl⟩ := estimate_parts h
  have hlt : i < u.metrics.metricsIn.length := (List.getElem?_eq_some_iff.mp hi).1
  have no : ∀ g', g ≠ g' → u.metrics.indexIn g' ≠ some (i : ℤ) := fun g' hg hh => by
    rcases Dc.indexed_in hx hh with ⟨-, q⟩ | ⟨k, q1, q2, -⟩
    · omega
    have : k = i := by omega
    subst this
    rw [hi] at q2
    exact hg (Option.some.inj q2)
  show t2.metric i j = _
  rw [(setForecasts_ok h4).1, (outOfSample_ok hx h3).2.2.1 i j hlt, (inSample_keeps hx h2).2 i j (no _ ha) (no _ hs)]
  rfl

/-- **C133 (violated).** The `j`-th variable of a model is taken back with the `j`-th parameter of the data, whichever variable it is. If that is a logarithm, the
observations and forecasts of a variable `b` without a transformation are exponentiated before they are compared. -/
theorem C133_boxcox_violated {j b : ℕ} (_hb : cur[j]? = some (b : ℤ)) (_hn : u.lambdas[b]? = some none) (hj : u.lambdas[j]? = some (some 0)) {data : Vs.Cols} {final : ℤ}
    {p : ℤ × Vs.Fit} {h : ℤ} {a f : ℝ} (ha : Vs.at_ data (final - p.1 + h) j = .num a) (hf : Vs.at_ p.2.forecast (p.2.start - 1 + h) j = .num f) :
    (Vs.point u.sim data final j p h).actual = .num (Real.exp a) ∧ (Vs.point u.sim data final j p h).forecast = .num (Real.exp f) := by
  have h0 : u.lambdas.length ≠ 0 := by
    have := (List.getElem?_eq_some_iff.mp hj).1
    omega
  have : Su.lambda u.sim.lambdas j = some 0 := by
    show Su.lambda (if u.lambdas.length = 0 then none else some u.lambdas) j = _
    rw [if_neg h0]
    show u.lambdas.getD j none = _
    rw [List.getD_eq_getElem?_getD, hj]
    rfl
  have back : ∀ x : ℝ, Su.backD (some 0) (.num x) = .num (Real.exp x) := fun x => by
    show (if (0 : ℝ) ≠ 0 then _ else Dbl.num (Real.exp x)) = _
    rw [if_neg (by simp)]
  unfold Vs.point
  dsimp only
  rw [this, ha, hf]
  exact ⟨back a, back f⟩

/-- **C133 (violated).** If a horizon of the simulations is larger than the horizon of the predictions, the bounds are compared with what is behind the forecasts. -/
theorem C133_bounds_horizon_violated (he : u.checks.estimation = true) (hp : u.checks.prediction = true) {s : Sample} (hs : sample d M.work inner cur cols = .ok s)
    (hm : estimated u w M o s = o.estimate (limit u.checks.checkCNAll u) s.y s.x) (hen : Enough u s) {e : Fitted}
    (h1 : o.estimate (limit u.checks.checkCNAll u) s.y s.x = .ok e) (h2 : u.checks.maxAic.lt e.aic = false) (h3 : u.checks.maxSic.lt e.sic = false) {f v : Vs.Cols}
    (h4 : o.forecast s.y s.x = .ok (f, v)) (h5 : (f.length : ℤ) = u.maxHorizon + u.sizes.arMaxD) (h6 : ∀ c ∈ f, ∀ i < cur.length, c i ≠ .nan)
    {l r : Mat (Dbl ℝ)} (hl : u.lower = some l) (hr : u.upper = some r) {t : ℤ} {ts : List ℤ} (hc : cur = t :: ts) (ht : t < u.targets) {h : ℤ} {hs' : List ℤ}
    (hh : u.metrics.horizons = h :: hs') (hgt : u.maxHorizon < h) :
    estimateOne u w M o d inner cur cols T = .ub := by
  have hn : ¬ anyNaN cur.length f = true := fun hh => by
    unfold anyNaN at hh
    obtain ⟨c, hc, hh⟩ := List.any_eq_true.1 hh
    obtain ⟨i, hi, hh⟩ := List.any_eq_true.1 hh
    exact h6 c hc i (List.mem_range.1 hi) (by simpa using hh)
  have hrd : Mx.read f (h + u.sizes.arMaxD - 1) = .ub := by
    unfold Mx.read
    by_cases c : 0 ≤ h + u.sizes.arMaxD - 1
    · rw [if_pos c, List.getElem?_eq_none (by omega)]
    · rw [if_neg c]
  have hb : checkBounds u f cur = .ub := by
    unfold checkBounds
    rw [hl, hr, hc]
    dsimp only
    rw [boundRows, if_pos ht, hh, boundRow]
    unfold boundCell
    rw [hrd]
    rfl
  have hpr : predictedIf u o s cur = .ub := by
    unfold predictedIf
    rw [if_pos hp]
    unfold predicted
    rw [h4, Outcome.ok_bind, if_neg hn]
    show (do let _ ← checkBounds u f cur; pure (f, v)) = _
    rw [hb]
    rfl
  have ca : checkAfter u e = .ok () := by
    unfold checkAfter
    rw [h2, h3]; rfl
  unfold estimateOne
  rw [hs, Outcome.ok_bind]
  unfold inSample
  rw [if_pos he, checkBefore_iff.1.2 hen, Outcome.ok_bind, hm, h1, Outcome.ok_bind, ca, Outcome.ok_bind, hpr]
  rfl

end

end Vm
end LDT
