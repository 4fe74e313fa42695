import Verif.Lemmas.VarmaSet
import Verif.Props.VarmaSearcherExt
import Verif.Props.ChoiceSetSearch
/-! # C134: the set of the searchers of VARMA models -/
namespace LDT
namespace Vm
open Op Mx Arr Score
open Dc (bind_ok Decided)

/-- What a successful construction of the set consists of. -/
structure VarmaSetOf (r : SetRequest) (junk : ℤ) (w : Varma.Sizes → Needs) (big tiny : ℝ) (parallel : Bool) (ms : VarmaModelset) : Prop where
  metrics : r.metrics.update false true = .ok ms.metrics
  checks : r.checks.update ms.metrics = .ok ms.checks
  made : ∃ g gs, r.source.ranges = g :: gs ∧
    setSizes r junk w big tiny ms.metrics ms.checks ((ms.metrics.metricsIn.length + ms.metrics.metricsOut.length : ℕ) : ℤ) (g.stop + 1) r.sizes = .ok ms.searchers
  work : ms.work = Dc.workSize parallel (ms.searchers.map fun s => s.memory.work)

/-- The range of the first series ends with its last observation. -/
theorem first_range {m : Mat (Val ℝ)} {d : DsTs ℝ} (hl : Loaded m d) {g : Range} {gs : List Range} (hg : d.ranges = g :: gs) :
    ObsT true m 0 g.stop ∧ ∀ t, ObsT true m 0 t → t ≤ g.stop := by
  obtain ⟨R, C, d0, hR, hC, hmk, hset⟩ := hl.made
  have hd0 : d0 = ⟨true, true, R * C, ⟨0, 0, none⟩, [], false⟩ := by
    unfold DsTs.make at hmk
    by_cases c : C ≤ 0 ∨ R ≤ 0
    · rw [if_pos c] at hmk; cases hmk
    · rw [if_neg c] at hmk
      exact (Outcome.ok.inj hmk).symm
  have hT : 0 < nTime true m := hl.periods
  obtain ⟨r1, r2⟩ := C45_ranges true d0 (by rw [hd0]) (by rw [hd0]) m hl.wf hT
  have hall : ∀ k, 0 ≤ k → k < nSer true m → ∃ t, 0 ≤ t ∧ t < nTime true m ∧ ObsT true m k t := by
    by_contra hcon
    push Not at hcon
    obtain ⟨k, h1, h2, h3⟩ := hcon
    rw [r1 ⟨k, h1, h2, fun ⟨t, a, b, e⟩ => h3 t a b e⟩] at hset
    cases hset
  obtain ⟨d', e1, e2, e3, e4, e5, hlen, hrange, -⟩ := r2 hall
  rw [hset] at e1
  obtain rfl := Outcome.ok.inj e1
  have ho := hrange 0 g (by rw [hg]; rfl)
  exact ⟨ho.obs_stop, fun t ob => (ho.tight t (obs_in ob).1 (obs_in ob).2 ob).2⟩

section
variable {r : SetRequest} {junk : ℤ} {w : Varma.Sizes → Needs} {big tiny : ℝ} {parallel : Bool}

theorem varmaSet_decided (hs : Small r) : Decided (varmaModelset r junk w big tiny parallel) (SetAccepted r) := by
  unfold varmaModelset
  by_cases hC : SOpt.Contradiction r.metrics true
  · rw [(SOpt.C120_refused r.metrics false true).1.2 hC]
    exact ⟨fun h => absurd hC h.options, fun _ => rfl⟩
  obtain ⟨m, hmu⟩ := (SOpt.C120_refused r.metrics false true).2 hC
  obtain ⟨u1, u2, u3, -, u5, -, u7, -⟩ := SOpt.C120_updated _ _ _ _ hmu
  obtain ⟨ol, -, -⟩ := SOpt.C120_orientation _ _ _ _ hmu
  rw [hmu, Outcome.ok_bind]
  have dc : Decided (r.checks.update m) (¬ (0 < r.metrics.simFix ∧ r.metrics.simFix < r.checks.minOutSim)) := by
    rw [← u3]
    exact ⟨(SOpt.C120_checks_refused r.checks m).2, fun h => (SOpt.C120_checks_refused r.checks m).1.2 (not_not.1 h)⟩
  by_cases hD : 0 < r.metrics.simFix ∧ r.metrics.simFix < r.checks.minOutSim
  · rw [dc.no (not_not.2 hD)]
    exact ⟨fun h => absurd hD h.simulations, fun _ => rfl⟩
  obtain ⟨k', hck⟩ := dc.yes hD
  obtain ⟨-, -, -, -, -, -, -, cp, ce, -⟩ := SOpt.C120_checks _ _ _ hck
  have hest : k'.estimation = true ↔ r.checks.estimation = true ∨ SOpt.WantsEstimation r.checks r.metrics := by
    rw [ce]
    unfold SOpt.WantsEstimation
    rw [u1]
  have hpre : k'.prediction = true ↔ r.checks.prediction = true := by
    rw [cp, u5]
    exact ⟨fun h => h.1, fun h => ⟨h, rfl⟩⟩
  rw [hck, Outcome.ok_bind]
  by_cases hT : 0 < r.targets
  swap
  · rw [(SOpt.C120_items m (r.targets : ℤ)).1 (by omega)]
    exact ⟨fun h => absurd h.targets hT, fun _ => rfl⟩
  rw [(SOpt.C120_items m (r.targets : ℤ)).2 (by omega), Outcome.ok_bind]
  dsimp only
  have hlen : ((m.metricsIn.length : ℤ) + m.metricsOut.length).toNat = r.metrics.metricsIn.length + r.metrics.metricsOut.length := by
    rw [u1, u2]; omega
  have hne : r.metrics.metricsIn.length + r.metrics.metricsOut.length ≠ 0 ↔ r.metrics.metricsIn ≠ [] ∨ r.metrics.metricsOut ≠ [] := by
    rw [← List.length_pos_iff, ← List.length_pos_iff]; omega
  have hfits : ∀ T n o, SetFits r m k' ((m.metricsIn.length : ℤ) + m.metricsOut.length) T n o ↔ Possible r T n o := by
    intro T n o
    have hhor : r.metrics.metricsOut ≠ [] → r.metrics.horizons ≠ [] := fun h1 h2 => hC (.noHorizon rfl h2 h1)
    constructor
    · intro h
      refine ⟨h.season, h.room, ?_, h.keeps, fun a b => h.horizon (hest.2 a) (hpre.2 b), fun a b => ?_⟩
      · have := h.count
        rw [hlen] at this
        exact hne.1 this
      · have := (h.simulations (by rw [u3]; exact a) (by rw [u2]; exact b)).1
        rw [u3] at this
        exact this
    · intro h
      refine ⟨h.season, h.room, ?_, hT.ne', ?_, h.keeps, fun a b => h.horizon (hest.1 a) (hpre.1 b), fun a b => ?_⟩
      · rw [hlen]; exact hne.2 h.metrics
      · rw [hlen, ol]
      · rw [u3] at a ⊢
        rw [u2] at b
        rw [u7]
        exact ⟨h.simulations a b, hhor b⟩
  by_cases h1 : r.length1 > 0 ∧ k'.prediction = false
  · rw [if_pos h1]
    refine ⟨fun h => ?_, fun _ => rfl⟩
    rcases h.forecasts with h' | h'
    · omega
    · rw [hpre.2 h'] at h1
      cases h1.2
  rw [if_neg h1]
  by_cases h6 : r.params.length = 6 ∧ ∀ m ∈ r.params, 0 ≤ m
  swap
  · refine ⟨fun h => absurd h.params h6, fun _ => ?_⟩
    by_cases hb : ∀ b ∈ r.comb.partitions, ∀ a ∈ b, 0 ≤ a ∧ a ≤ (r.endo : ℤ)
    · obtain ⟨x, hx⟩ := (set_partitions_decided r.endo r.comb.partitions).yes hb
      rw [hx, Outcome.ok_bind, (set_params_decided r.params).no h6]
      rfl
    · rw [(set_partitions_decided r.endo r.comb.partitions).no hb]
      rfl
  by_cases hr : r.source.ranges = []
  · refine ⟨fun h => ?_, fun _ => ?_⟩
    · obtain ⟨g, gs, hg, -⟩ := h.searchers
      rw [hg] at hr; cases hr
    · by_cases hb : ∀ b ∈ r.comb.partitions, ∀ a ∈ b, 0 ≤ a ∧ a ≤ (r.endo : ℤ)
      · obtain ⟨x, hx⟩ := (set_partitions_decided r.endo r.comb.partitions).yes hb
        obtain ⟨y, hy⟩ := (set_params_decided r.params).yes h6
        rw [hx, Outcome.ok_bind, hy, Outcome.ok_bind, (set_obs_decided r).no (not_not.2 hr)]
        rfl
      · rw [(set_partitions_decided r.endo r.comb.partitions).no hb]
        rfl
  obtain ⟨T, hTT⟩ := (set_obs_decided r).yes hr
  obtain ⟨g, gs, hg, rfl⟩ := set_obs_ok r T hTT
  rw [hTT]
  refine (Decided.bind (set_partitions_decided r.endo r.comb.partitions) fun _ _ => Decided.bind (set_params_decided r.params) fun _ _ =>
    Decided.bind (Decided.of_ok rfl) fun T hT' => (?_ : Decided _ ((∀ s ∈ r.sizes, 0 < s) ∧ ∀ s ∈ r.sizes, ∀ o, r.Wanted o → Possible r (g.stop + 1) s o))).congr ?_
  · obtain rfl := Outcome.ok.inj hT'
    refine (Decided.bind (set_sizes_decided r junk w big tiny _ _ hs h6.1 r.sizes) fun _ _ => Decided.pure _).congr ?_
    rw [and_true]
    simp only [hfits]
  · constructor
    · rintro ⟨a, b, -, c, d⟩
      refine ⟨hC, hD, hT, ?_, a, b, c, g, gs, hg, d⟩
      by_cases h0 : r.length1 = 0
      · exact Or.inl h0
      · refine Or.inr (hpre.1 ?_)
        by_contra hx
        exact h1 ⟨by omega, by simpa using hx⟩
    · intro h
      obtain ⟨g', gs', hg', hh⟩ := h.searchers
      rw [hg] at hg'
      obtain ⟨rfl, -⟩ := List.cons.inj hg'
      exact ⟨h.partitions, h.params, trivial, h.sizes, hh⟩

theorem varmaSet_of {ms : VarmaModelset} (h : varmaModelset r junk w big tiny parallel = .ok ms) : VarmaSetOf r junk w big tiny parallel ms := by
  unfold varmaModelset at h
  obtain ⟨m, e1, h⟩ := bind_ok h
  obtain ⟨k', e2, h⟩ := bind_ok h
  obtain ⟨it, e3, h⟩ := bind_ok h
  by_cases hT : 0 < r.targets
  swap
  · rw [(SOpt.C120_items m (r.targets : ℤ)).1 (by omega)] at e3; cases e3
  rw [(SOpt.C120_items m (r.targets : ℤ)).2 (by omega)] at e3
  obtain rfl := Outcome.ok.inj e3
  dsimp only at h
  by_cases h3 : r.length1 > 0 ∧ k'.prediction = false
  · rw [if_pos h3] at h; cases h
  rw [if_neg h3] at h
  obtain ⟨_, -, h⟩ := bind_ok h
  obtain ⟨_, -, h⟩ := bind_ok h
  obtain ⟨T, e5, h⟩ := bind_ok h
  obtain ⟨ss, e6, h⟩ := bind_ok h
  obtain rfl := Outcome.ok.inj h
  obtain ⟨g, gs, hg, rfl⟩ := set_obs_ok r T e5
  refine ⟨e1, e2, ⟨g, gs, hg, ?_⟩, rfl⟩
  push_cast
  exact e6

/-- **C134.** The set is made exactly for these requests; for all others an exception is thrown. -/
theorem C134_accepted (hs : Small r) : ((∃ ms, varmaModelset r junk w big tiny parallel = .ok ms) ↔ SetAccepted r) ∧
    (¬ SetAccepted r → varmaModelset r junk w big tiny parallel = .throws) :=
  ⟨(varmaSet_decided hs).ok_iff, (varmaSet_decided hs).no⟩

/-- **C134.** The orders that are searched: all of the request, each one once, one after the other. -/
theorem C134_orders (h6 : r.params.length = 6) : (∀ o, o ∈ orders r.params ↔ r.Wanted o) ∧ (orders r.params).Pairwise Order.before ∧ (orders r.params).Nodup := by
  refine ⟨fun o => mem_orders_iff h6, orders_sorted _, (orders_sorted _).imp fun {a b} h hab => ?_⟩
  subst hab
  unfold Order.before Order.list at h
  have irr : ∀ l : List ℤ, ¬ List.Lex (· < ·) l l := by
    intro l
    induction l with
    | nil => intro h; cases h
    | cons x l ih =>
      intro h
      rcases h with _ | h | h
      · exact absurd h (lt_irrefl _)
      · exact ih h
  exact irr _ h

variable {ms : VarmaModelset} (h : varmaModelset r junk w big tiny parallel = .ok ms)
include h

theorem set_all_made : ∃ g gs, r.source.ranges = g :: gs ∧ List.Forall₂ (fun x (p : ℤ × Order × List ℤ) => SetMade r junk w big tiny ms.metrics ms.checks
    ((ms.metrics.metricsIn.length + ms.metrics.metricsOut.length : ℕ) : ℤ) (g.stop + 1) x p.1 p.2.1 p.2.2) ms.searchers
    (r.sizes.flatMap fun s => (orders r.params).flatMap fun o => r.innerGroups.map fun e => (s, o, e)) := by
  obtain ⟨g, gs, hg, hm⟩ := (varmaSet_of h).made
  refine ⟨g, gs, hg, ?_⟩
  rw [← exoGroups_eq]
  exact set_sizes_made r junk w big tiny _ _ r.sizes _ hm

/-- What a searcher of the set knows. -/
structure SetPart (r : SetRequest) (w : Varma.Sizes → Needs) (big tiny : ℝ) (ms : VarmaModelset) (s : SetSearcher) (n : ℤ) (o : Order) (e : List ℤ) : Prop where
  size : n ∈ r.sizes ∧ 0 < n ∧ (s.cfg.n : ℤ) = n
  order : r.Wanted o ∧ s.setup.params = o.list
  group : e ∈ r.innerGroups ∧ s.cfg.inner = e
  sizes : ∃ g gs, r.source.ranges = g :: gs ∧ SizesOf r (g.stop + 1) n o e s.setup.sizes
  polys : s.setup.sizes.diffPoly ≠ [] ∧ 0 ≤ s.setup.sizes.arMax
  cfg : s.cfg = r.cfg ms.metrics ((ms.metrics.metricsIn.length + ms.metrics.metricsOut.length : ℕ) : ℤ) n e
  setup : s.setup = r.setup ms.metrics ms.checks s.setup.sizes o
  reg : Srch.regConstruct s.cfg big tiny = .ok s.init
  memory : construct s.setup (w s.setup.sizes) r.source.pData.cols n.toNat e.length = .ok s.memory
  room : r.comb.numFixPartitions ≤ s.cfg.n

theorem set_part_of (hs : Small r) {g : Range} {gs : List Range} (hg : r.source.ranges = g :: gs) {s : SetSearcher} {n : ℤ} {o : Order} {e : List ℤ}
    (hp : (n, o, e) ∈ r.sizes.flatMap fun s => (orders r.params).flatMap fun o => r.innerGroups.map fun e => (s, o, e))
    (m : SetMade r junk w big tiny ms.metrics ms.checks ((ms.metrics.metricsIn.length + ms.metrics.metricsOut.length : ℕ) : ℤ) (g.stop + 1) s n o e) :
    SetPart r w big tiny ms s n o e := by
  have hacc := (C134_accepted hs).1.1 ⟨ms, h⟩
  obtain ⟨n', hn, hp⟩ := List.mem_flatMap.1 hp
  obtain ⟨o', ho, hp⟩ := List.mem_flatMap.1 hp
  obtain ⟨e', he, hp⟩ := List.mem_map.1 hp
  obtain ⟨hpn, hp⟩ := Prod.mk.inj hp
  obtain ⟨hpo, hpe⟩ := Prod.mk.inj hp
  subst hpn hpo hpe
  have ho := (mem_orders_iff hacc.params.1).1 ho
  have hpos := hacc.sizes n' hn
  obtain ⟨z1, z2, z3⟩ := sizes_of hs ho m.sizes
  have hN : (s.cfg.n : ℤ) = n' := by
    rw [m.cfg]
    show (n'.toNat : ℤ) = n'
    omega
  refine ⟨⟨hn, hpos, hN⟩, ⟨ho, ?_⟩, ⟨he, ?_⟩, ⟨g, gs, hg, z1⟩, ⟨z2, z3⟩, m.cfg, m.setup, m.reg, m.memory, ?_⟩
  · rw [m.setup]; rfl
  · rw [m.cfg]; rfl
  · have := m.room
    omega

theorem set_part (hs : Small r) {s : SetSearcher} (hm : s ∈ ms.searchers) : ∃ n o e, SetPart r w big tiny ms s n o e := by
  obtain ⟨g, gs, hg, hall⟩ := set_all_made h
  obtain ⟨p, hp, m⟩ := Dc.forall₂_left hall s hm
  exact ⟨p.1, p.2.1, p.2.2, set_part_of h hs hg hp m⟩

/-- **C134.** There is one searcher for each size, order and group of exogenous variables, in the order of the request, with the sizes of its model for the periods until
the end of the first series. -/
theorem C134_searchers (hs : Small r) : ∃ g gs, r.source.ranges = g :: gs ∧ List.Forall₂ (fun (s : SetSearcher) (p : ℤ × Order × List ℤ) => (s.cfg.n : ℤ) = p.1 ∧
      s.setup.params = p.2.1.list ∧ s.cfg.inner = p.2.2 ∧ SizesOf r (g.stop + 1) p.1 p.2.1 p.2.2 s.setup.sizes ∧ s.cfg.lengthTargets = r.targets ∧
      s.setup.metrics = ms.metrics ∧ s.setup.checks = ms.checks ∧ s.setup.maxHorizon = r.maxHorizon ∧ s.setup.usePrevious = r.usePrevious ∧
      s.setup.lambdas = r.lambdas ∧ s.setup.length1 = r.length1 ∧ s.setup.targets = r.targets ∧ s.setup.lower = r.lower ∧ s.setup.upper = r.upper)
    ms.searchers (r.sizes.flatMap fun s => (orders r.params).flatMap fun o => r.innerGroups.map fun e => (s, o, e)) := by
  obtain ⟨g, gs, hg, hall⟩ := set_all_made h
  refine ⟨g, gs, hg, (Dc.forall₂_mem hall).imp fun s p hsp => ?_⟩
  obtain ⟨m, -, hmem⟩ := hsp
  have P := set_part_of h hs hg hmem m
  obtain ⟨g', gs', hg', hz⟩ := P.sizes
  rw [hg] at hg'
  obtain ⟨rfl, -⟩ := List.cons.inj hg'
  refine ⟨P.size.2.2, P.order.2, P.group.2, hz, ?_⟩
  rw [P.cfg, P.setup]
  exact ⟨rfl, rfl, rfl, rfl, rfl, rfl, rfl, rfl, rfl, rfl⟩

/-- **C134.** Without parallel execution the work array of the set is large enough for each of its searchers. -/
theorem C134_work (hp : parallel = false) : ∀ s ∈ ms.searchers, s.memory.work ≤ ms.work := by
  have hset := varmaSet_of h
  intro s hs
  rw [hset.work]
  subst hp
  exact (Dc.le_foldMax (ms.searchers.map fun s => s.memory.work) 0).2 _ (List.mem_map.2 ⟨s, hs, rfl⟩)

/-- **C134** with C133, for models with the first series (see `C133_memory_violated`) and data that are longer than the lags (see `C133_short_violated`): the
memory is enough for the data and the estimation. -/
theorem C134_memory_partial (hs : Small r) {s : SetSearcher} (hm : s ∈ ms.searchers) {m : Mat (Val ℝ)} (hl : Loaded m r.source) {cur cols : List ℤ}
    (hcur : cur.length = s.cfg.n) (hc : Chosen m s.cfg.inner cur cols) (h0 : 0 ∈ cur) (he : ms.checks.estimation = true) {S E : ℤ} (hcw : CommonWindow m cols S E)
    (hSE : S ≤ E) (hlong : ∀ t, ObsT true m 0 t → (∀ t', t < t' → ¬ ObsT true m 0 t') → s.setup.sizes.arMaxD ≤ t + 1) {σ : Type} (o : Oracle σ) :
    ∃ x, sample r.source s.memory.work s.cfg.inner cur cols = .ok x ∧ Sampled m s.cfg.inner cur S E x ∧
      estimated s.setup (w s.setup.sizes) s.memory o x =
        if E - S + 1 ≤ s.setup.sizes.arMaxD ∨ s.setup.sizes.numParams = 0 then .throws else o.estimate (limit ms.checks.checkCNAll s.setup) x.y x.x := by
  obtain ⟨n, od, e, P⟩ := set_part h hs hm
  obtain ⟨g, gs, hg, hz⟩ := P.sizes
  have hchk : s.setup.checks = ms.checks := by rw [P.setup]; rfl
  obtain ⟨hpd, -⟩ := window_of hl hc
  obtain ⟨hlast, hend⟩ := first_range hl hg
  have hE : E ≤ g.stop := by
    obtain ⟨t, ht, ob⟩ := hcw.others_last 0 ((hc.mem 0).2 (Or.inl h0))
    have := hend t ob
    omega
  have hS := hcw.inside.1
  have hin := P.group.2
  have hL := hlong g.stop hlast fun t' ht' ob => by have := hend t' ob; omega
  have hP : Planned s.setup.sizes cur.length s.cfg.inner.length := by
    refine ⟨?_, ?_, P.polys.2, P.polys.1, ?_⟩
    · rw [hz.eqs, hcur, P.size.2.2]
    · rw [hz.exo, hin]
    · show 0 ≤ s.setup.sizes.obsCount - s.setup.sizes.arMaxD
      rw [hz.obs]
      omega
  have hM : construct s.setup (w s.setup.sizes) m.cols cur.length s.cfg.inner.length = .ok s.memory := by
    have := P.memory
    rw [hpd] at this
    rw [hcur, hin, show s.cfg.n = n.toNat by have := P.size.2.2; omega]
    exact this
  obtain ⟨x, h1, h2, h3⟩ := C133_memory hl hc hM hP (by rw [hchk]; exact he) hcw hSE (by rw [hz.obs]; omega) o
  exact ⟨x, h1, h2, by rw [h3, hchk]⟩

end
end Vm
end LDT
