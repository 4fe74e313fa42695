import Verif.Props.VarmaSet
import Verif.Props.ChoiceSearchLink
/-! # C134: what a search over VARMA models keeps, and requests that go wrong -/
namespace LDT
namespace Vm
open Op Mx Arr Score
open Dc (bind_ok Decided)

section
variable {r : SetRequest} {junk : ℤ} {w : Varma.Sizes → Needs} {big tiny : ℝ} {parallel : Bool} {ms : VarmaModelset}
  (h : varmaModelset r junk w big tiny parallel = .ok ms)
include h

/-- **C134.** The metrics of the searchers are those of the request, in its order: the weight of a value of one is its weight relative to the smallest value that is given for
the target (0 if none is), and it has the orientation of the metric. -/
theorem C134_weights (hs : Small r) {s : SetSearcher} (hm : s ∈ ms.searchers) (a : ℕ) (x : ℝ) :
    (∀ (i : ℕ) g, r.metrics.metricsIn[i]? = some g → (r.minIn g = none → Srch.weightOf s.cfg i a x = some (gofToWeight g x 0)) ∧
      (∀ l v, r.minIn g = some l → l[a]? = some v → Srch.weightOf s.cfg i a x = some (gofToWeight g x v)) ∧ ∃ b, s.cfg.pos[i]? = some b ∧ (b = true ↔ SOpt.inPositive g)) ∧
    (∀ (i : ℕ) g, r.metrics.metricsOut[i]? = some g → (r.minOut g = none → Srch.weightOf s.cfg (r.metrics.metricsIn.length + i) a x = some (scoToWeight g x 0)) ∧
      (∀ l v, r.minOut g = some l → l[a]? = some v → Srch.weightOf s.cfg (r.metrics.metricsIn.length + i) a x = some (scoToWeight g x v)) ∧
      ∃ b, s.cfg.pos[r.metrics.metricsIn.length + i]? = some b ∧ (b = true ↔ SOpt.outPositive g)) := by
  obtain ⟨n, od, e, P⟩ := set_part h hs hm
  obtain ⟨u1, u2, -⟩ := SOpt.C120_updated _ _ _ _ (varmaSet_of h).metrics
  obtain ⟨-, p1, p2⟩ := SOpt.C120_orientation _ _ _ _ (varmaSet_of h).metrics
  have f1 : s.cfg.metricsIn = r.metrics.metricsIn := by rw [P.cfg]; exact u1
  have f2 : s.cfg.metricsOut = r.metrics.metricsOut := by rw [P.cfg]; exact u2
  have f3 : s.cfg.minIn = r.minIn := by rw [P.cfg]; rfl
  have f4 : s.cfg.minOut = r.minOut := by rw [P.cfg]; rfl
  have f5 : s.cfg.pos = ms.metrics.orient := by rw [P.cfg]; rfl
  have hat : ∀ {l : List ℝ} {v : ℝ}, l[a]? = some v → Srch.atI l (a : ℤ) = some v := fun hv => by
    unfold Srch.atI
    rw [if_neg (by omega)]
    simpa using hv
  refine ⟨fun i g hi => ⟨fun h0 => ?_, fun l v h0 hv => ?_, ?_⟩, fun i g hi => ⟨fun h0 => ?_, fun l v h0 hv => ?_, ?_⟩⟩
  · unfold Srch.weightOf
    simp only [f1, hi, f3, h0]
  · unfold Srch.weightOf
    simp only [f1, hi, f3, h0, hat hv, Option.map_some]
  · rw [f5]; exact p1 i g hi
  · have hn : r.metrics.metricsIn[r.metrics.metricsIn.length + i]? = none := List.getElem?_eq_none (by omega)
    unfold Srch.weightOf
    simp only [f1, hn, f2, Nat.add_sub_cancel_left, hi, f4, h0]
  · have hn : r.metrics.metricsIn[r.metrics.metricsIn.length + i]? = none := List.getElem?_eq_none (by omega)
    unfold Srch.weightOf
    simp only [f1, hn, f2, Nat.add_sub_cancel_left, hi, f4, h0, hat hv, Option.map_some]
  · rw [f5]; exact p2 i g hi

/-- **C134** with C18, for no fixed items, no empty partition and sizes that are possible: a run of the set that is not cancelled counts as many models as announced,
whatever the estimations do. -/
theorem C134_counts_partial (hs : Small r) (h0 : r.comb.numFixItems = 0) (hne : ∀ g ∈ r.comb.partitions, g ≠ []) (hn : ∀ n ∈ r.sizes, n ≤ r.comb.partitions.length) :
    ∃ total bound : ℕ, ∀ (env : SetSearcher → Srch.Env) (lt : ℤ) (fuel : ℕ), (∀ s j, (env s).cancel j = false) → bound ≤ fuel →
      Dc.expectedAll (fun s => Srch.getCount r.comb s.cfg.n false lt fuel) ms.searchers = .ok total ∧
      ∃ sts, Dc.startAll (fun s : SetSearcher => Srch.start r.comb s.cfg.n (env s) false lt fuel) (fun _ => ⟨0, [], [], []⟩) (fun _ => false) 0 ms.searchers = .ok sts ∧
        Dc.searchedAll sts = total := by
  have key : ∀ s ∈ ms.searchers, ∃ total bound : ℕ, ∀ (env : Srch.Env) (lt : ℤ) (fuel : ℕ), (∀ j, env.cancel j = false) → bound ≤ fuel →
      Srch.getCount r.comb s.cfg.n false lt fuel = .ok total ∧ ∃ st, Srch.start r.comb s.cfg.n env false lt fuel = .ok st ∧ st.counter = total := by
    intro s hm
    obtain ⟨n, o, e, P⟩ := set_part h hs hm
    obtain ⟨p1, p2, p3⟩ := P.size
    have := hn n p1
    obtain ⟨total, bound, -, hb⟩ := Srch.C18_announced_partial r.comb h0 s.cfg.n hne P.room (by omega) (by omega)
    refine ⟨total, bound, fun env lt fuel hc hf => ?_⟩
    obtain ⟨a, st, b, c, -⟩ := hb env lt fuel hc hf
    exact ⟨a, st, b, c⟩
  generalize ms.searchers = l at key
  induction l with
  | nil => exact ⟨0, 0, fun env lt fuel _ _ => ⟨rfl, [], rfl, rfl⟩⟩
  | cons s l ih =>
    obtain ⟨t1, b1, h1⟩ := key s (by simp)
    obtain ⟨t2, b2, h2⟩ := ih fun s hs => key s (by simp [hs])
    refine ⟨t1 + t2, max b1 b2, fun env lt fuel hc hf => ?_⟩
    obtain ⟨e1, st, e2, e3⟩ := h1 (env s) lt fuel (hc s) (by omega)
    obtain ⟨f1, sts, f2, f3⟩ := h2 env lt fuel hc (by omega)
    refine ⟨?_, st :: sts, ?_, ?_⟩
    · rw [Dc.expectedAll, e1, Outcome.ok_bind, f1, Outcome.ok_bind]; rfl
    · rw [Dc.startAll_all] at f2 ⊢
      exact .cons e2 f2
    · rw [← e3, ← f3]; rfl

omit h in
/-- The calls of the estimator by a searcher of VARMA models with the exogenous variables `inner`; what it answers can depend on the models before. -/
noncomputable def vmEst {σ : Type} (u : Setup) (w : Needs) (M : Memory) (o : List Srch.Visit → Oracle σ) (d : DsTs ℝ) (message : String) (before after : List Srch.Visit → Bool)
    (inner : List ℤ) : List Srch.Visit → List ℤ → List ℤ → Srch.RegOut := fun done cols targets =>
  outcome (estimateOne u w M (o done) d inner (cols.take (cols.length - inner.length)) cols targets.length) message (before done) (after done)

omit h in
theorem outcome_returns {y : Outcome Tables} {message : String} {b a : Bool} (h : (outcome y message b a).reply = .returns "") : ∃ t, y = .ok t := by
  cases y with
  | ok t => exact ⟨t, rfl⟩
  | throws => cases h
  | ub => cases h
  | diverges => cases h

section
variable (hs : Small r) (hx : Dc.Indexed ms.metrics) {s : SetSearcher} (hm : s ∈ ms.searchers) {σ : Type} {o : List Srch.Visit → Oracle σ} {message : String}
  {before after : List Srch.Visit → Bool} {calls : List Srch.Visit}
include hs hx hm

/-- The models that a searcher estimates. -/
theorem search_model {q : List ℤ × Srch.RegOut}
    (hq : q ∈ Srch.estimated s.cfg (Srch.answers s.cfg (vmEst s.setup (w s.setup.sizes) s.memory o r.source message before after s.cfg.inner) [] calls)) :
    ∃ v ∈ calls, ∃ (d : List Srch.Visit) (x : Sample) (t : Tables), q.1 = v.cur ∧ sample r.source s.memory.work s.cfg.inner v.cur (v.cur ++ s.cfg.inner) = .ok x ∧
      Reported s.setup (o d) x v.cur (Srch.wanted s.cfg v.cur).length t ∧ q.2.metric = t.cells.metric ∧ q.2.mean = t.cells.mean ∧ q.2.variance = t.cells.variance ∧
      q.2.extra = t.extra ∧ Srch.endoOf s.cfg v.cur = v.cur ∧ Srch.exoOf s.cfg v.cur = s.cfg.inner := by
  unfold Srch.estimated at hq
  obtain ⟨hq, hest⟩ := List.mem_filter.1 hq
  replace hest : Srch.Estimated s.cfg q.1 q.2 := by simpa using hest
  obtain ⟨-, -, hrep, haft⟩ := hest
  obtain ⟨v, hvc, d, rfl⟩ := Dc.mem_answers calls [] q hq
  obtain ⟨n, od, e, P⟩ := set_part h hs hm
  have hcols : Srch.tableColumns s.cfg v.cur = v.cur ++ s.cfg.inner ∧ Srch.endoOf s.cfg v.cur = v.cur ∧ Srch.exoOf s.cfg v.cur = s.cfg.inner := by
    unfold Srch.tableColumns Srch.endoOf Srch.exoOf
    rw [P.cfg]
    exact ⟨rfl, rfl, rfl⟩
  unfold vmEst at hrep ⊢
  dsimp only at hrep ⊢
  rw [hcols.1, List.length_append, Nat.add_sub_cancel, List.take_left] at hrep ⊢
  obtain ⟨t, ht⟩ := outcome_returns hrep
  rw [ht]
  have hmx : s.setup.metrics = ms.metrics := by rw [P.setup]; rfl
  obtain ⟨x, h1, h2⟩ := C133_reports (by rw [hmx]; exact hx) ht
  exact ⟨v, hvc, d, x, t, rfl, h1, h2, rfl, rfl, rfl, rfl, hcols.2⟩

/-- **C134** with C119 and C133: whatever a searcher of the set keeps of a model for AIC or SIC of a target is the AIC or SIC of the estimation with the data of the common
window of its variables; it is kept with its endogenous and exogenous variables and its orders. -/
theorem C134_search_models (i a : ℕ) {x : Srch.Est}
    (hk : x ∈ (Srch.estimated s.cfg (Srch.answers s.cfg (vmEst s.setup (w s.setup.sizes) s.memory o r.source message before after s.cfg.inner) [] calls)).flatMap
      (Srch.modelKept s.cfg i a)) (he : ms.checks.estimation = true) :
    ∃ v ∈ calls, ∃ (d : List Srch.Visit) (y : Sample) (e : Fitted), sample r.source s.memory.work s.cfg.inner v.cur (v.cur ++ s.cfg.inner) = .ok y ∧
      x.endo = v.cur ∧ x.exo = s.cfg.inner ∧ x.extra = s.setup.params ∧ (a : ℤ) ∈ v.cur ∧ Enough s.setup y ∧
      (o d).estimate (limit ms.checks.checkCNAll s.setup) y.y y.x = .ok e ∧ NotBeyond e.aic ms.checks.maxAic ∧ NotBeyond e.sic ms.checks.maxSic ∧
      (ms.metrics.indexIn .aic = some (i : ℤ) → e.aic = .num x.metric) ∧ (ms.metrics.indexIn .sic = some (i : ℤ) → e.sic = .num x.metric) := by
  obtain ⟨q, hq, hxr⟩ := List.mem_flatMap.1 hk
  obtain ⟨v, hvc, d, y, t, r1, h1, h2, t1, t2, t3, t4, c2, c3⟩ := search_model h hs hx hm hq
  obtain ⟨n, od, e', P⟩ := set_part h hs hm
  have hmx : s.setup.metrics = ms.metrics := by rw [P.setup]; rfl
  have hcx : s.setup.checks = ms.checks := by rw [P.setup]; rfl
  obtain ⟨en, e, e1, e2, e3, e4, e5⟩ := h2.estimation (by rw [hcx]; exact he)
  rw [hcx] at e1 e2 e3
  rw [hmx] at e4 e5
  unfold Srch.modelKept at hxr
  obtain ⟨j, hj, hxr⟩ := List.mem_flatMap.1 hxr
  rw [r1] at hj hxr
  by_cases hw : (Srch.wanted s.cfg v.cur)[j]? = some (a : ℤ)
  swap
  · rw [if_neg hw] at hxr; simp at hxr
  rw [if_pos hw] at hxr
  have hjl := List.mem_range.1 hj
  have ha : (a : ℤ) ∈ v.cur := by
    have := List.mem_of_getElem? hw
    unfold Srch.wanted at this
    rw [c2] at this
    exact (List.mem_filter.1 this).1
  cases hz : q.2.metric i j with
  | none => rw [hz] at hxr; simp at hxr
  | some z =>
    rw [hz] at hxr
    simp only [List.mem_cons, List.not_mem_nil, or_false] at hxr
    subst hxr
    rw [t1] at hz
    refine ⟨v, hvc, d, y, e, h1, c2, c3, t4.trans h2.extra, ha, en, e1, e2, e3, fun hi => ?_, fun hi => ?_⟩
    · exact Dc.toVal_eq (hz.symm.trans (e4 i hi j hjl))
    · exact Dc.toVal_eq (hz.symm.trans (e5 i hi j hjl))

/-- **C134** with C119 and C133, for models whose targets come first (see `C133_target_violated`): whatever a searcher of the set keeps as forecast of a target
at a horizon is the forecast of that target at that horizon, with its variance. -/
theorem C134_search_forecasts_partial (i a k : ℕ) {x : Srch.Est}
    (hk : x ∈ (Srch.estimated s.cfg (Srch.answers s.cfg (vmEst s.setup (w s.setup.sizes) s.memory o r.source message before after s.cfg.inner) [] calls)).flatMap
      (Srch.coefKept s.cfg i a k)) (he : ms.checks.estimation = true) (hp : ms.checks.prediction = true) (hkl : k < r.length1)
    (hfirst : ∀ v ∈ calls, ∃ rest, v.cur = (v.cur.filter fun a => decide (a < (r.targets : ℤ))) ++ rest) :
    ∃ v ∈ calls, ∃ (d : List Srch.Visit) (y : Sample) (f g : Vs.Cols) (j : ℕ) (m g' : ℕ → Dbl ℝ),
      sample r.source s.memory.work s.cfg.inner v.cur (v.cur ++ s.cfg.inner) = .ok y ∧ x.endo = v.cur ∧ x.exo = s.cfg.inner ∧ x.extra = s.setup.params ∧
      (o d).forecast y.y y.x = .ok (f, g) ∧ v.cur[j]? = some (a : ℤ) ∧ f[(k + s.setup.sizes.arMaxD).toNat]? = some m ∧ g[(k + s.setup.sizes.arMaxD).toNat]? = some g' ∧
      x.mean = Srch.toVal (m j) ∧ x.variance = Srch.toVal (g' j) := by
  obtain ⟨q, hq, hxr⟩ := List.mem_flatMap.1 hk
  obtain ⟨v, hvc, d, y, t, r1, h1, h2, t1, t2, t3, t4, c2, c3⟩ := search_model h hs hx hm hq
  obtain ⟨n, od, e', P⟩ := set_part h hs hm
  have hcx : s.setup.checks = ms.checks := by rw [P.setup]; rfl
  have hlx : s.setup.length1 = r.length1 := by rw [P.setup]; rfl
  have htx : s.cfg.lengthTargets = r.targets := by rw [P.cfg]; rfl
  obtain ⟨f, g, f1, -, -, f2⟩ := h2.forecast (by rw [hcx]; exact he) (by rw [hcx]; exact hp)
  unfold Srch.coefKept at hxr
  obtain ⟨j, hj, hxr⟩ := List.mem_flatMap.1 hxr
  rw [r1] at hj hxr
  by_cases hw : (Srch.wanted s.cfg v.cur)[j]? = some (a : ℤ)
  swap
  · rw [if_neg hw] at hxr; simp at hxr
  rw [if_pos hw] at hxr
  have hjl := List.mem_range.1 hj
  obtain ⟨m, g', m1, m2, m3, m4⟩ := f2 k (by rw [hlx]; exact hkl) j hjl
  have ha : v.cur[j]? = some (a : ℤ) := by
    obtain ⟨rest, hrest⟩ := hfirst v hvc
    have hww : Srch.wanted s.cfg v.cur = v.cur.filter fun a => decide (a < (r.targets : ℤ)) := by
      unfold Srch.wanted
      rw [c2, htx]
    rw [hww] at hw hjl
    exact (congrArg (fun q : List ℤ => q[j]?) hrest).trans ((List.getElem?_append_left hjl).trans hw)
  cases hz : q.2.metric i j with
  | none => rw [hz] at hxr; simp at hxr
  | some z =>
    cases hmn : q.2.mean k j with
    | none => rw [hz, hmn] at hxr; simp at hxr
    | some mn =>
      rw [hz, hmn] at hxr
      simp only [List.mem_cons, List.not_mem_nil, or_false] at hxr
      subst hxr
      refine ⟨v, hvc, d, y, f, g, j, m, g', h1, c2, c3, t4.trans h2.extra, f1, ha, m1, m2, ?_, ?_⟩
      · show some mn = _
        rw [← hmn, t2, m3]
      · show q.2.variance k j = _
        rw [t3, m4]

end

/-- **C134** (violated): a horizon for the checks that is shorter than the one of the forecasts is accepted, but then no model with a target is reported. (A forecast
has as many periods as are checked.) -/
theorem C134_horizon_violated (hs : Small r) {s : SetSearcher} (hm : s ∈ ms.searchers) (he : ms.checks.estimation = true) (hp : ms.checks.prediction = true)
    (hlt : r.maxHorizon < r.length1) (h0 : 0 ≤ s.setup.sizes.arMaxD + r.maxHorizon) (hx : Dc.Indexed ms.metrics) {σ : Type} (o : Oracle σ)
    (hf : ∀ y x f, o.forecast y x = .ok f → (f.1.length : ℤ) = s.setup.sizes.arMaxD + r.maxHorizon) (cur cols : List ℤ) {T : ℕ} (hT : 0 < T) (t : Tables) :
    estimateOne s.setup (w s.setup.sizes) s.memory o r.source s.cfg.inner cur cols T ≠ .ok t := by
  intro ht
  obtain ⟨n, od, e', P⟩ := set_part h hs hm
  have hmx : s.setup.metrics = ms.metrics := by rw [P.setup]; rfl
  have hcx : s.setup.checks = ms.checks := by rw [P.setup]; rfl
  have hlx : s.setup.length1 = r.length1 := by rw [P.setup]; rfl
  obtain ⟨x, h1, h2⟩ := C133_reports (by rw [hmx]; exact hx) ht
  obtain ⟨f, g, f1, -, -, f2⟩ := h2.forecast (by rw [hcx]; exact he) (by rw [hcx]; exact hp)
  have hlen := hf _ _ _ f1
  have hpos : 0 < r.maxHorizon := by
    have hacc := (C134_accepted hs).1.1 ⟨ms, h⟩
    obtain ⟨g0, gs, hg, hh⟩ := hacc.searchers
    have hset := varmaSet_of h
    obtain ⟨u1, -, -, -, u5, -⟩ := SOpt.C120_updated _ _ _ _ hset.metrics
    obtain ⟨-, -, -, -, -, -, -, cp, ce, -⟩ := SOpt.C120_checks _ _ _ hset.checks
    refine (hh n P.size.1 od P.order.1).horizon ?_ (cp.1 hp).1
    have := ce.1 he
    unfold SOpt.WantsEstimation at this ⊢
    rw [u1] at this
    exact this
  obtain ⟨m, g', m1, -⟩ := f2 r.maxHorizon.toNat (by rw [hlx]; omega) 0 hT
  have := (List.getElem?_eq_some_iff.1 m1).1
  dsimp only at hlen
  omega

omit h in
/-- The request with other groups of exogenous variables. -/
def SetRequest.withGroups (r : SetRequest) (gs : List (List ℤ)) : SetRequest := { r with groups := gs }

omit h in
/-- **C134** (violated): the groups of exogenous variables are not looked at. A request is accepted with any others, … -/
theorem C134_groups_violated (hs : Small r) (gs : List (List ℤ)) : SetAccepted r → ∃ ms', varmaModelset (r.withGroups gs) junk w big tiny parallel = .ok ms' := by
  intro ha
  have conv : ∀ o, (r.withGroups gs).Wanted o → r.Wanted o := fun o h => ⟨h.p, h.d, h.q, h.sp, h.sd, h.sq, h.lag⟩
  have hs' : Small (r.withGroups gs) := ⟨hs.season, fun o ho => hs.diffs o (conv o ho)⟩
  refine (C134_accepted hs').1.2 ?_
  obtain ⟨g, gs', hg, hh⟩ := ha.searchers
  refine ⟨ha.options, ha.simulations, ha.targets, ha.forecasts, ha.partitions, ha.params, ha.sizes, g, gs', hg, fun s hsz o ho => ?_⟩
  have P := hh s hsz o (conv o ho)
  exact ⟨P.season, P.room, P.metrics, P.keeps, P.horizon, P.simulations⟩

omit h in
/-- … but with a variable that the data do not have all models of the group fail. -/
theorem C134_groups_fail_violated {d : DsTs ℝ} (hn : d.hasNaN = true) (hsel : d.select = true) {inner cur cols : List ℤ} (hcols : cols = cur ++ inner) {k : ℤ} (hk : k ∈ inner)
    (hout : k < 0 ∨ d.ranges.length ≤ k) {σ : Type} (u : Setup) (w' : Needs) (M : Memory) (o : Oracle σ) (T : ℕ) : estimateOne u w' M o d inner cur cols T = .throws := by
  have key : ∀ (l : List ℤ) (se : ℤ × ℤ), k ∈ l → l.foldlM (fun se i => do
      let r ← rangesAt d.ranges i
      pure (bigStep se r)) se = (.throws : Outcome (ℤ × ℤ)) := by
    intro l
    induction l with
    | nil => intro se hk; cases hk
    | cons a l ih =>
      intro se hk'
      rw [List.foldlM_cons]
      have hthrow : ∀ i, (∃ x, rangesAt d.ranges i = .ok x) ∨ rangesAt d.ranges i = .throws := by
        intro i
        unfold rangesAt
        by_cases hi : 0 ≤ i
        · rw [if_pos hi]
          cases d.ranges[i.toNat]? with
          | none => exact Or.inr rfl
          | some x => exact Or.inl ⟨x, rfl⟩
        · rw [if_neg hi]; exact Or.inr rfl
      rcases List.mem_cons.1 hk' with rfl | hk'
      · have : rangesAt d.ranges k = .throws := by
          unfold rangesAt
          by_cases hi : 0 ≤ k
          · rw [if_pos hi, List.getElem?_eq_none (by omega)]; rfl
          · rw [if_neg hi]
        rw [this]; rfl
      · rcases hthrow a with ⟨x, hx⟩ | hx
        · rw [hx]
          exact ih _ hk'
        · rw [hx]; rfl
  have hw : window d cols = .throws := by
    unfold window biggestWithoutNaN
    rw [if_pos hsel, if_pos hn]
    exact key cols _ (by rw [hcols]; simp [hk])
  have hsm : sample d M.work inner cur cols = .throws := by
    unfold sample
    rw [hw]; rfl
  unfold estimateOne
  rw [hsm]; rfl

omit h in
/-- **C134** (violated): one size without room for the fixed partitions makes the whole search impossible; in a search over systems of regressions it is left out (C127). -/
theorem C134_room_violated (hs : Small r) {n : ℤ} (hn : n ∈ r.sizes) (hr : n < r.comb.numFixPartitions) {o : Order} (ho : r.Wanted o) :
    varmaModelset r junk w big tiny parallel = .throws := by
  refine (C134_accepted hs).2 fun ha => ?_
  obtain ⟨g, gs, hg, hh⟩ := ha.searchers
  have := (hh n hn o ho).room
  omega

omit h in
/-- **C134** (violated): one order with too many lags for the simulations makes the whole search impossible, not only that model. -/
theorem C134_lags_violated (hs : Small r) {n : ℤ} (hn : n ∈ r.sizes) {g : Range} {gs : List Range} (hg : r.source.ranges = g :: gs) {o : Order} (ho : r.Wanted o)
    (h0 : 0 < r.metrics.simFix) (h1 : r.metrics.metricsOut ≠ []) (hlong : g.stop + 1 - o.lost r.period ≤ r.metrics.simFix) :
    varmaModelset r junk w big tiny parallel = .throws := by
  refine (C134_accepted hs).2 fun ha => ?_
  obtain ⟨g', gs', hg', hh⟩ := ha.searchers
  rw [hg] at hg'
  obtain ⟨rfl, -⟩ := List.cons.inj hg'
  have := (hh n hn o ho).simulations h0 h1
  omega

/-- **C134** (violated): a search without any lag is accepted, but it has no models. -/
theorem C134_nothing_violated (hs : Small r) (h0 : ∀ i ∈ [0, 2, 3, 5], r.params[i]? = some 0) : ms.searchers = [] := by
  have hacc := (C134_accepted hs).1.1 ⟨ms, h⟩
  obtain ⟨g, gs, hg, hall⟩ := set_all_made h
  have ho : orders r.params = [] := by
    refine List.eq_nil_iff_forall_not_mem.2 fun o hm => ?_
    have W := (mem_orders_iff hacc.params.1).1 hm
    obtain ⟨a, m, hm, ha⟩ := W.p
    obtain ⟨b, m', hm', hb⟩ := W.q
    obtain ⟨c, m'', hm'', hc⟩ := W.sp
    obtain ⟨d, m3, hm3, hd⟩ := W.sq
    rw [h0 0 (by simp)] at hm
    rw [h0 2 (by simp)] at hm'
    rw [h0 3 (by simp)] at hm''
    rw [h0 5 (by simp)] at hm3
    cases hm; cases hm'; cases hm''; cases hm3
    have := W.lag
    omega
  rw [ho] at hall
  have hnil : (r.sizes.flatMap fun s => ([] : List Order).flatMap fun o => r.innerGroups.map fun e => (s, o, e)) = [] := by
    rw [List.flatMap_eq_nil_iff]
    intro s _
    rfl
  rw [hnil] at hall
  exact List.forall₂_nil_right_iff.1 hall

end
end Vm
end LDT
