import Verif.Lemmas.SurSet
import Verif.Props.SurSearcherLink
import Verif.Props.ChoiceSetSearch
/-! # C127: the set of the searchers of systems of regressions -/
namespace LDT
namespace Su
open Op Mx Arr Score
open Dc (bind_ok Decided)

/-- What a successful construction of the set consists of. -/
structure SurSetOf (q : SetRequest) (big tiny : ℝ) (parallel : Bool) (ms : SurModelset) : Prop where
  metrics : q.metrics.update true false = .ok ms.metrics
  checks : q.checks.update ms.metrics = .ok ms.checks
  made : setSizes q big tiny ms.metrics ms.checks ((ms.metrics.metricsIn.length + ms.metrics.metricsOut.length : ℕ) : ℤ) 0 q.sizes = .ok ms.searchers
  work : ms.work = Dc.workSize parallel (ms.searchers.map fun s => s.sizes.work)

section
variable {q : SetRequest} {big tiny : ℝ} {parallel : Bool}

theorem surSet_of : Decided (surModelset q big tiny parallel) (SetAccepted q) ∧
    ∀ ms, surModelset q big tiny parallel = .ok ms → SurSetOf q big tiny parallel ms := by
  have dm : Decided (q.metrics.update true false) (¬ SOpt.Contradiction q.metrics false) :=
    ⟨(SOpt.C120_refused q.metrics true false).2, fun h => (SOpt.C120_refused q.metrics true false).1.2 (not_not.1 h)⟩
  refine ⟨?_, fun ms h => ?_⟩
  · unfold surModelset
    by_cases hC : SOpt.Contradiction q.metrics false
    · rw [(SOpt.C120_refused q.metrics true false).1.2 hC]
      exact ⟨fun h => absurd hC h.options, fun _ => rfl⟩
    obtain ⟨m, hmu⟩ := dm.yes hC
    obtain ⟨u1, u2, u3, -⟩ := SOpt.C120_updated _ _ _ _ hmu
    obtain ⟨ol, -, -⟩ := SOpt.C120_orientation _ _ _ _ hmu
    rw [hmu, Outcome.ok_bind]
    have dc : Decided (q.checks.update m) (¬ (0 < q.metrics.simFix ∧ q.metrics.simFix < q.checks.minOutSim)) := by
      rw [← u3]
      exact ⟨(SOpt.C120_checks_refused q.checks m).2, fun h => (SOpt.C120_checks_refused q.checks m).1.2 (not_not.1 h)⟩
    by_cases hD : 0 < q.metrics.simFix ∧ q.metrics.simFix < q.checks.minOutSim
    · rw [dc.no (not_not.2 hD)]
      exact ⟨fun h => absurd hD h.simulations, fun _ => rfl⟩
    obtain ⟨k', hck⟩ := dc.yes hD
    have hest : k'.estimation = true ↔ q.checks.estimation = true ∨ SOpt.WantsEstimation q.checks q.metrics := by
      obtain ⟨-, -, -, -, -, -, -, -, ce, -⟩ := SOpt.C120_checks _ _ _ hck
      rw [ce]
      unfold SOpt.WantsEstimation
      rw [u1]
    rw [hck, Outcome.ok_bind]
    by_cases hT : 0 < q.targets
    swap
    · rw [(SOpt.C120_items m (q.targets : ℤ)).1 (by omega)]
      exact ⟨fun h => absurd h.targets hT, fun _ => rfl⟩
    rw [(SOpt.C120_items m (q.targets : ℤ)).2 (by omega), Outcome.ok_bind]
    dsimp only
    refine (Decided.guard fun _ => Decided.guard fun _ => Decided.bind (set_partitions_decided q.endo q.exo q.comb.partitions) fun _ _ =>
      Decided.bind (set_sizes_decided q big tiny k' _ q.sizes 0) fun _ _ => Decided.pure _).congr ?_
    have hlen : ((m.metricsIn.length : ℤ) + m.metricsOut.length).toNat = q.metrics.metricsIn.length + q.metrics.metricsOut.length := by
      rw [u1, u2]; omega
    have hne : q.metrics.metricsIn.length + q.metrics.metricsOut.length ≠ 0 ↔ q.metrics.metricsIn ≠ [] ∨ q.metrics.metricsOut ≠ [] := by
      rw [← List.length_pos_iff, ← List.length_pos_iff]; omega
    have hfits : ∀ e, SetFits q m ((m.metricsIn.length : ℤ) + m.metricsOut.length) e ↔ (q.metrics.metricsIn ≠ [] ∨ q.metrics.metricsOut ≠ []) ∧
        (q.keepModels = true ∨ q.length1 ≠ 0) ∧ q.HasTarget e ∧ 0 < q.source.rows := fun e => by
      unfold SetFits
      rw [hlen, hne, ol]
      constructor
      · rintro ⟨a, -, -, b, c, d⟩; exact ⟨a, b, c, d⟩
      · rintro ⟨a, b, c, d⟩; exact ⟨a, hT.ne', rfl, b, c, d⟩
    constructor
    · rintro ⟨a, b, c, ⟨d, e⟩, -⟩
      refine ⟨hC, hD, hT, ?_, c, d, fun hr e' he' => ⟨(e hr e' he').1, fun hc => ((hfits e').1 ((e hr e' he').2 hc)).2.2.1⟩, ?_⟩
      · by_cases h0 : q.length1 = 0
        · exact Or.inl h0
        refine Or.inr ⟨?_, hest.1 ?_⟩
        · by_contra hx; exact a ⟨h0, hx⟩
        · by_contra hx; exact b ⟨h0, by simpa using hx⟩
      · rintro hr ⟨e', he', hc⟩
        have := (hfits e').1 ((e hr e' he').2 hc)
        exact ⟨this.1, this.2.1, this.2.2.2⟩
    · intro h
      refine ⟨?_, ?_, h.partitions, ⟨h.sizes, fun hr e he => ⟨(h.groups hr e he).1, fun hc => (hfits e).2 ?_⟩⟩, trivial⟩
      · rintro ⟨h1, h2⟩
        exact h.coefficients.elim h1 fun hh => h2 hh.1
      · rintro ⟨h1, h2⟩
        refine h.coefficients.elim h1 fun hh => ?_
        rw [hest.2 hh.2] at h2
        cases h2
      · obtain ⟨x, y, z⟩ := h.searchers hr ⟨e, he, hc⟩
        exact ⟨x, y, (h.groups hr e he).2 hc, z⟩
  · unfold surModelset at h
    obtain ⟨m, e1, h⟩ := bind_ok h
    obtain ⟨k', e2, h⟩ := bind_ok h
    obtain ⟨it, e3, h⟩ := bind_ok h
    by_cases hT : 0 < q.targets
    swap
    · rw [(SOpt.C120_items m (q.targets : ℤ)).1 (by omega)] at e3; cases e3
    rw [(SOpt.C120_items m (q.targets : ℤ)).2 (by omega)] at e3
    obtain rfl := Outcome.ok.inj e3
    dsimp only at h
    by_cases h3 : q.length1 ≠ 0 ∧ q.length1 ≠ q.exo
    · rw [if_pos h3] at h; cases h
    rw [if_neg h3] at h
    by_cases h4 : q.length1 ≠ 0 ∧ k'.estimation = false
    · rw [if_pos h4] at h; cases h
    rw [if_neg h4] at h
    obtain ⟨_, -, h⟩ := bind_ok h
    obtain ⟨ss, e6, h⟩ := bind_ok h
    obtain rfl := Outcome.ok.inj h
    refine ⟨e1, e2, ?_, rfl⟩
    push_cast
    exact e6

/-- **C127.** The set is made exactly for these requests; for all others an exception is thrown. -/
theorem C127_accepted : ((∃ ms, surModelset q big tiny parallel = .ok ms) ↔ SetAccepted q) ∧ (¬ SetAccepted q → surModelset q big tiny parallel = .throws) :=
  ⟨surSet_of.1.ok_iff, surSet_of.1.no⟩

variable {ms : SurModelset} (h : surModelset q big tiny parallel = .ok ms)
include h

theorem set_all_made : List.Forall₂ (fun x (p : (ℤ × List ℤ) × ℤ) => SetMade q big tiny ms.metrics ms.checks
    ((ms.metrics.metricsIn.length + ms.metrics.metricsOut.length : ℕ) : ℤ) x p.1.1 p.1.2 p.2) ms.searchers (q.planned.zipIdx.map fun p => (p.1, q.seedAt p.2)) := by
  have hset := surSet_of.2 ms h
  have hall := set_sizes_made q big tiny ms.checks _ q.sizes 0 _ hset.made
  obtain ⟨-, -, -, -, -, u6, -⟩ := SOpt.C120_updated _ _ _ _ hset.metrics
  rw [if_pos rfl] at u6
  rw [u6] at hall
  exact hall

/-- **C127.** For each size with room for the fixed partitions there is one searcher for each chosen group, in the order of the request; each has a seed of its
own if the seed is positive. -/
theorem C127_searchers : List.Forall₂ (fun (s : SetSearcher) (p : (ℤ × List ℤ) × ℤ) => (s.cfg.n : ℤ) = p.1.1 ∧ s.cfg.inner = p.1.2 ∧ s.seed = p.2 ∧
      s.cfg.lengthTargets = q.targets ∧ s.setup.metrics = ms.metrics ∧ s.setup.checks = ms.checks ∧ s.setup.maxIter = q.maxIter ∧ s.setup.maxProb = q.maxProb ∧
      s.setup.lambdas = q.lambdas ∧ s.setup.length1 = q.length1) ms.searchers (q.planned.zipIdx.map fun p => (p.1, q.seedAt p.2)) := by
  have hacc := C127_accepted.1.1 ⟨ms, h⟩
  refine (Dc.forall₂_mem (set_all_made h)).imp fun s p hsp => ?_
  obtain ⟨m, -, hmem⟩ := hsp
  obtain ⟨a, ha, rfl⟩ := List.mem_map.1 hmem
  have hmem : a.1 ∈ q.planned := (List.mem_zipIdx' ha).2 ▸ List.getElem_mem _
  unfold SetRequest.planned at hmem
  obtain ⟨n, hn, hp⟩ := List.mem_flatMap.1 hmem
  obtain ⟨e, -, hp⟩ := List.mem_map.1 hp
  have := hacc.sizes n (List.mem_filter.1 hn).1
  rw [m.cfg, m.setup]
  refine ⟨?_, rfl, m.seed, rfl, rfl, rfl, rfl, rfl, rfl, rfl⟩
  dsimp only
  rw [← hp]
  show (n.toNat : ℤ) = n
  omega

/-- **C127.** Without parallel execution the work array of the set is large enough for each of its searchers, and with C126 for all that it lays over it. -/
theorem C127_memory (hp : parallel = false) : ∀ s ∈ ms.searchers, s.sizes.work ≤ ms.work ∧ ∀ l ∈ ssBlocks s.sizes, l.sum ≤ ms.work := by
  have hset := surSet_of.2 ms h
  intro s hs
  obtain ⟨p, -, m⟩ := Dc.forall₂_left (set_all_made h) s hs
  have hle : s.sizes.work ≤ ms.work := by
    rw [hset.work]
    subst hp
    exact (Dc.le_foldMax (ms.searchers.map fun s => s.sizes.work) 0).2 _ (List.mem_map.2 ⟨s, hs, rfl⟩)
  exact ⟨hle, fun l hl => ((C126_memory _ m.sizes).2.2.2 l hl).trans hle⟩

/-- What a searcher of the set knows. -/
structure SetPart (q : SetRequest) (big tiny : ℝ) (ms : SurModelset) (s : SetSearcher) : Prop where
  reg : Srch.regConstruct s.cfg big tiny = .ok s.init
  size : (s.cfg.n : ℤ) ∈ q.sizes
  fixed : q.comb.numFixPartitions ≤ s.cfg.n
  pos : 0 < s.cfg.n
  group : s.cfg.inner ∈ q.groups
  chosen : q.Chosen s.cfg.inner
  target : q.HasTarget s.cfg.inner
  cfg : s.cfg = q.cfg ms.metrics ((ms.metrics.metricsIn.length + ms.metrics.metricsOut.length : ℕ) : ℤ) s.cfg.n s.cfg.inner
  setup : s.setup = q.setup ms.metrics ms.checks

theorem set_part {s : SetSearcher} (hs : s ∈ ms.searchers) : SetPart q big tiny ms s := by
  classical
  have hacc := C127_accepted.1.1 ⟨ms, h⟩
  obtain ⟨p, hmem, m⟩ := Dc.forall₂_left (set_all_made h) s hs
  obtain ⟨a, ha, rfl⟩ := List.mem_map.1 hmem
  have hmem : a.1 ∈ q.planned := (List.mem_zipIdx' ha).2 ▸ List.getElem_mem _
  unfold SetRequest.planned at hmem
  obtain ⟨n, hn, hp⟩ := List.mem_flatMap.1 hmem
  obtain ⟨e, he, hp⟩ := List.mem_map.1 hp
  obtain ⟨hn1, hn2⟩ := List.mem_filter.1 hn
  obtain ⟨he1, he2⟩ := List.mem_filter.1 he
  replace hn2 := of_decide_eq_true hn2
  replace he2 := of_decide_eq_true he2
  have hpos := hacc.sizes n hn1
  dsimp only at m
  rw [← hp] at m
  have hc := m.cfg
  have hN : (s.cfg.n : ℤ) = n := by
    rw [hc]
    show (n.toNat : ℤ) = n
    omega
  have hI : s.cfg.inner = e := by rw [hc]; rfl
  have hroom : (q.comb.numFixPartitions : ℤ) ≤ n := hn2
  refine ⟨m.reg, hN ▸ hn1, by omega, by omega, hI ▸ he1, hI ▸ he2, ?_, ?_, m.setup⟩
  · rw [hI]
    exact (hacc.groups ⟨n, hn1, hn2⟩ e he1).2 he2
  · rw [hN, hI]
    exact hc

/-- **C127** with C18, for no fixed items, no empty partition and sizes that are possible: a run of the set that is not cancelled counts as many models as announced,
whatever the estimations do. -/
theorem C127_counts_partial (h0 : q.comb.numFixItems = 0) (hne : ∀ g ∈ q.comb.partitions, g ≠ []) (hn : ∀ n ∈ q.sizes, n ≤ q.comb.partitions.length) :
    ∃ total bound : ℕ, ∀ (env : SetSearcher → Srch.Env) (lt : ℤ) (fuel : ℕ), (∀ s j, (env s).cancel j = false) → bound ≤ fuel →
      Dc.expectedAll (fun s => Srch.getCount q.comb s.cfg.n false lt fuel) ms.searchers = .ok total ∧
      ∃ sts, Dc.startAll (fun s : SetSearcher => Srch.start q.comb s.cfg.n (env s) false lt fuel) (fun _ => ⟨0, [], [], []⟩) (fun _ => false) 0 ms.searchers = .ok sts ∧
        Dc.searchedAll sts = total := by
  have key : ∀ s ∈ ms.searchers, ∃ total bound : ℕ, ∀ (env : Srch.Env) (lt : ℤ) (fuel : ℕ), (∀ j, env.cancel j = false) → bound ≤ fuel →
      Srch.getCount q.comb s.cfg.n false lt fuel = .ok total ∧ ∃ st, Srch.start q.comb s.cfg.n env false lt fuel = .ok st ∧ st.counter = total := by
    intro s hs
    have hp := set_part h hs
    obtain ⟨total, bound, -, hb⟩ := Srch.C18_announced_partial q.comb h0 s.cfg.n hne hp.fixed (by have := hn _ hp.size; omega) hp.pos
    refine ⟨total, bound, fun env lt fuel hc hf => ?_⟩
    obtain ⟨a, st, b, c, -⟩ := hb env lt fuel hc hf
    exact ⟨a, st, b, c⟩
  generalize ms.searchers = l at key
  induction l with
  | nil => exact ⟨0, 0, fun env lt fuel _ _ => ⟨rfl, [], rfl, rfl⟩⟩
  | cons s l ih =>
    obtain ⟨t1, b1, h1⟩ := key s (by simp)
    obtain ⟨t2, b2, h2⟩ := ih fun s hs => key s (by simp [hs])
    refine ⟨t1 + t2, max b1 b2, fun env lt fuel hc hf => ?_⟩
    obtain ⟨e1, st, e2, e3⟩ := h1 (env s) lt fuel (hc s) (by omega)
    obtain ⟨f1, sts, f2, f3⟩ := h2 env lt fuel hc (by omega)
    refine ⟨?_, st :: sts, ?_, ?_⟩
    · rw [Dc.expectedAll, e1, Outcome.ok_bind, f1, Outcome.ok_bind]; rfl
    · rw [Dc.startAll_all] at f2 ⊢
      exact .cons e2 f2
    · rw [← e3, ← f3]; rfl

/-- **C127**, violated: a size that is larger than the number of partitions is accepted; the search throws then. -/
theorem C127_size_violated {s : SetSearcher} (hs : s ∈ ms.searchers) (hn : q.comb.partitions.length < s.cfg.n) (env : Srch.Env) (lt : ℤ) (fuel : ℕ) :
    Srch.start q.comb s.cfg.n env false lt fuel = .throws ∧ Srch.getCount q.comb s.cfg.n false lt fuel = .throws := by
  have hp := set_part h hs
  unfold Srch.start Srch.getCount
  rw [if_neg (not_lt.2 hp.fixed), if_pos hn, if_neg (not_lt.2 hp.fixed), if_pos hn]
  exact ⟨rfl, rfl⟩

/-- **C127**, for groups in which a target comes first if there is one (see `C127_skipped_violated`): for each size with room for the fixed partitions exactly the
groups with a target are searched. -/
theorem C127_groups_partial (hfirst : ∀ e ∈ q.groups, q.HasTarget e → ∃ a, e.head? = some a ∧ a < (q.targets : ℤ)) {n : ℤ} (hn : n ∈ q.sizes) (hr : q.Roomy n) {e : List ℤ}
    (he : e ∈ q.groups) : (∃ s ∈ ms.searchers, (s.cfg.n : ℤ) = n ∧ s.cfg.inner = e) ↔ q.HasTarget e := by
  classical
  constructor
  · rintro ⟨s, hs, -, rfl⟩
    exact (set_part h hs).target
  · intro ht
    obtain ⟨a, h1, h2⟩ := hfirst e he ht
    have hmem : (n, e) ∈ q.planned := by
      unfold SetRequest.planned
      exact List.mem_flatMap.2 ⟨n, List.mem_filter.2 ⟨hn, decide_eq_true hr⟩, List.mem_map.2 ⟨e, List.mem_filter.2 ⟨he, decide_eq_true ⟨a, h1, h2.le⟩⟩, rfl⟩⟩
    obtain ⟨k, hk, hke⟩ := List.getElem_of_mem hmem
    have hmem' : ((n, e), q.seedAt k) ∈ q.planned.zipIdx.map fun p => (p.1, q.seedAt p.2) := by
      refine List.mem_map.2 ⟨((n, e), k), ?_, rfl⟩
      rw [List.mem_zipIdx_iff_getElem?, List.getElem?_eq_getElem hk, hke]
    obtain ⟨s, hs, r⟩ := Dc.forall₂_left (C127_searchers h).flip _ hmem'
    exact ⟨s, hs, r.1, r.2.1⟩

/-- **C127**, violated: a group with a target is left out without a notice if its first variable is behind the targets (by more than one). -/
theorem C127_skipped_violated {a : ℤ} {e : List ℤ} (ha : (q.targets : ℤ) < a) : ∀ s ∈ ms.searchers, s.cfg.inner ≠ a :: e := by
  intro s hs hI
  obtain ⟨b, hb, hle⟩ := (set_part h hs).chosen
  rw [hI] at hb
  cases hb
  omega

omit h in
/-- **C127**, violated: a group without a target is left out, but if its first variable is the one that follows the targets nothing is searched at all: the whole set is
refused. -/
theorem C127_boundary_violated {e : List ℤ} (he : ((q.targets : ℤ) :: e) ∈ q.groups) (hn : ¬ q.HasTarget ((q.targets : ℤ) :: e)) (hr : ∃ s ∈ q.sizes, q.Roomy s) :
    surModelset q big tiny parallel = .throws := by
  refine C127_accepted.2 fun ha => hn ((ha.groups hr _ he).2 ⟨_, rfl, le_rfl⟩)

end
end Su
end LDT
