import Verif.Props.SurSet
/-! # C127: what the searchers of the set find, and a concrete request -/
namespace LDT
namespace Su
open Op Mx Arr Score
open Matrix
open Dc (bind_ok)

theorem set_columns_nodup {q : SetRequest} (hc : SetData q) {n : ℕ} {v : Srch.Visit} (hm : Srch.IsModel q.comb.partitions n v.parts v.items)
    (hcol : Srch.Columns q.comb.partitions v.parts v.items v.cur) : v.cur.Nodup := by
  rw [List.nodup_iff_injective_getElem]
  intro a b hab
  obtain ⟨l1, l2⟩ := hcol
  have ha := a.2
  have hb := b.2
  obtain ⟨g, e1, e2, e3⟩ := l2 a (by omega)
  obtain ⟨g', f1, f2, f3⟩ := l2 b (by omega)
  rw [List.getElem?_eq_getElem ha, List.getElem?_eq_getElem e2] at e3
  rw [List.getElem?_eq_getElem hb, List.getElem?_eq_getElem f2] at f3
  have hab : v.cur[(a : ℕ)] = v.cur[(b : ℕ)] := hab
  have := hc.apart _ _ g g' v.cur[(a : ℕ)] e1 f1 (by rw [Option.some.inj e3]; exact List.getElem_mem _)
    (by rw [hab, Option.some.inj f3]; exact List.getElem_mem _)
  have hpw := List.pairwise_iff_getElem.1 hm.incr
  have lk : ∀ k (hk : k < v.parts.length), v.parts.getD k 0 = v.parts[k] := fun k hk => by simp [hk]
  rw [lk _ (by omega), lk _ (by omega)] at this
  rcases lt_trichotomy (a : ℕ) b with hlt | heq | hlt
  · have := hpw a b (by omega) (by omega) hlt; omega
  · exact Fin.ext heq
  · have := hpw b a (by omega) (by omega) hlt; omega

section
variable {q : SetRequest} {big tiny : ℝ} {parallel : Bool} {ms : SurModelset} (hi : SOpt.Fresh q.metrics.metricsIn q.metrics.indexIn)
  (ho : SOpt.Fresh q.metrics.metricsOut q.metrics.indexOut) (h : surModelset q big tiny parallel = .ok ms)

/-- The estimator of a searcher that is never cancelled; `sim` are the simulations. -/
noncomputable def setEst (lu : List ℝ → List ℝ) (f : Fns ℝ) (other : Outcome ExtRes) (sim : Mat ℝ → Outcome SimResult) (source : Mat (Val ℝ))
    (dataStorage : List (Val ℝ)) (rmem storage work : List ℝ) (message : String) (s : SetSearcher) : List ℤ → List ℤ → Srch.RegOut :=
  ssEst lu f s.setup other (fun _ => sim) source dataStorage (fun _ => rmem) storage work (fun _ _ => false) message (fun _ => false) (fun _ => false) s.cfg.inner []

include hi ho h

/-- **C127** with C119 and C126, without a search for significant coefficients: a searcher of the set that is not cancelled tries each model of its size that has the
fixed partitions exactly once; its summaries receive, for AIC and SIC, only those of least squares systems within the limits, for the complete rows of
their columns; and the coefficients of equations of such systems. -/
theorem C127_search (lu : List ℝ → List ℝ) {f : Fns ℝ} (hf : SquareRoot f) (other : Outcome ExtRes) (sim : Mat ℝ → Outcome SimResult) (rmem : List ℝ) (message : String)
    (S : Di.Fns) (hc : SetData q) (hrows : 0 < q.source.rows) (hmin : ∀ g l, q.minIn g = some l → q.targets ≤ l.length)
    (hmout : ∀ g l, q.minOut g = some l → q.targets ≤ l.length) (he : q.checks.estimation = true ∨ SOpt.WantsEstimation q.checks q.metrics) (hplain : q.maxIter = 0)
    (h0 : q.comb.numFixItems = 0) {s : SetSearcher} (hs : s ∈ ms.searchers) (hn : s.cfg.n ≤ q.comb.partitions.length)
    (dataStorage : List (Val ℝ)) (hst : (dataStorage.length : ℤ) = q.source.rows * (s.cfg.inner.length + s.cfg.n)) (storage work : List ℝ)
    (hsz : extStorage s.setup.model q.source.rows s.cfg.inner.length s.cfg.n 0 ≤ storage.length ∧ extWork s.setup.model q.source.rows s.cfg.inner.length s.cfg.n 0 ≤ work.length) :
    ∃ (order : List (List ℕ × List ℕ)) (bound : ℕ), order.Nodup ∧
      (∀ p i, (p, i) ∈ order ↔ Srch.IsModel q.comb.partitions s.cfg.n p i ∧ ∀ k, k < q.comb.numFixPartitions → k ∈ p) ∧
      ∀ (lt : ℤ) (fuel : ℕ), bound ≤ fuel →
        let e := setEst lu f other sim q.source dataStorage rmem storage work message s
        ∃ run, Srch.start q.comb s.cfg.n (Srch.regEnv S s.cfg (fun _ => e) message (fun _ => false) s.init) false lt fuel = .ok run ∧ run.positions = order ∧
          (∀ v ∈ run.log, Srch.Columns q.comb.partitions v.parts v.items v.cur) ∧
          let fin := Srch.stateAfter S s.cfg (fun _ => e) message [] run.log s.init
          let es := Srch.estimated s.cfg (run.log.map fun v => (v.cur, e (Srch.tableColumns s.cfg v.cur) (Srch.wanted s.cfg v.cur)))
          (q.keepModels = true → ∀ i a, i < ms.metrics.metricsIn.length + ms.metrics.metricsOut.length →
            Srch.FedBy S q.items (Srch.posOf s.cfg) big tiny q.numEndo q.numExo (fin.s0 i a, (es.flatMap (Srch.modelKept s.cfg i a)).map fun x => (true, x)) ∧
            ∀ x ∈ es.flatMap (Srch.modelKept s.cfg i a), ∃ v ∈ run.log, ∃ kept Y X B G, SystemModel ms.checks q.source s.cfg.inner v.cur kept Y X B G ∧
              x.endo = s.cfg.inner ∧ x.exo = v.cur ∧ (a : ℤ) ∈ s.cfg.inner ∧
              (q.metrics.metricsIn[i]? = some .aic → (∀ j < i, q.metrics.metricsIn[j]? ≠ some .aic) →
                Akaike kept.length (s.cfg.inner.length * v.cur.length) (cov (left Y X B)) = .num x.metric) ∧
              (q.metrics.metricsIn[i]? = some .sic → (∀ j < i, q.metrics.metricsIn[j]? ≠ some .sic) →
                Schwarz kept.length (s.cfg.inner.length * v.cur.length) (cov (left Y X B)) = .num x.metric)) ∧
          (∀ i a k : ℕ, i < ms.metrics.metricsIn.length + ms.metrics.metricsOut.length → k < q.length1 →
            Srch.FedBy S q.items (Srch.posOf s.cfg) big tiny q.numEndo q.numExo (fin.s1 i a k, (es.flatMap (Srch.coefKept s.cfg i a k)).map fun x => (false, x)) ∧
            ∀ x ∈ es.flatMap (Srch.coefKept s.cfg i a k), ∃ v ∈ run.log, ∃ kept Y X B G, SystemModel ms.checks q.source s.cfg.inner v.cur kept Y X B G ∧
              x.endo = s.cfg.inner ∧ x.exo = v.cur ∧ ∃ (l : Fin v.cur.length) (j : Fin s.cfg.inner.length), v.cur.get l = k + (q.endo : ℤ) ∧
                (Srch.wanted s.cfg v.cur)[(j : ℕ)]? = some (a : ℤ) ∧ x.mean = some (B l j) ∧ x.variance = some (cov (left Y X B) j j * G l l)) := by
  have hp := set_part h hs
  have hset := surSet_of.2 ms h
  have hacc := C127_accepted.1.1 ⟨ms, h⟩
  obtain ⟨u1, u2, -⟩ := SOpt.C120_updated _ _ _ _ hset.metrics
  have hsu := hp.setup
  have c1 : s.cfg.lengthEvals = ms.metrics.metricsIn.length + ms.metrics.metricsOut.length := by
    rw [hp.cfg]; exact Int.toNat_natCast _
  have c2 : s.cfg.lengthTargets = q.targets := by rw [hp.cfg]; rfl
  have c3 : s.cfg.numEndo = q.numEndo := by rw [hp.cfg]; rfl
  have c4 : s.cfg.numExo = q.numExo := by rw [hp.cfg]; rfl
  have c6 : s.cfg.innerExo = false := by rw [hp.cfg]; rfl
  have c7 : s.cfg.length1 = q.length1 := by rw [hp.cfg]; rfl
  have c8 : s.cfg.keepModels = q.keepModels := by rw [hp.cfg]; rfl
  have c9 : s.cfg.hasWeight = false := by rw [hp.cfg]; rfl
  have c10 : s.cfg.items = q.items := by rw [hp.cfg]; rfl
  obtain ⟨n1, n2⟩ := hc.counts
  have hgroup := hc.groups _ hp.group
  have hr : Srch.Ready s.cfg := by
    refine ⟨?_, ?_, ?_, ?_⟩
    · rw [c1, hp.cfg]; rfl
    · rw [c2, hp.cfg]; exact hmin
    · rw [c2, hp.cfg]; exact hmout
    · rw [c3, c4]; intro a ha; have := hgroup a ha; constructor <;> omega
  have hrange : ∀ g ∈ q.comb.partitions, ∀ a ∈ g, 0 ≤ a ∧ a < (s.cfg.numEndo + s.cfg.numExo : ℕ) := by
    intro g hg a ha
    have := hacc.partitions g hg a ha
    rw [c3, c4]
    omega
  obtain ⟨order, bound, o1, o2, o3⟩ := Srch.C119_search (S := S) hp.reg hr q.comb h0 hp.fixed hn hp.pos hrange
    (setEst lu f other sim q.source dataStorage rmem storage work message s) message
  refine ⟨order, bound, o1, o2, fun lt fuel hfu => ?_⟩
  obtain ⟨run, r1, r2, r3, r4, r5⟩ := o3 (fun _ => false) lt fuel (fun _ => rfl) hfu
  refine ⟨run, r1, r2, r3, ?_⟩
  have hcfg : SsCfg s.setup s.cfg := ⟨c9, c6, by rw [c3, hsu]; rfl, by rw [c7, hsu]; rfl⟩
  have hx : Dc.Indexed s.setup.metrics := by
    have := SOpt.C120_positions_partial _ _ _ _ hset.metrics hi ho
    rw [← u1, ← u2] at this
    rw [hsu]
    exact this
  have hck : s.setup.checks = ms.checks := by rw [hsu]; rfl
  have hest : s.setup.checks.estimation = true := by
    obtain ⟨-, -, -, -, -, -, -, -, ce, -⟩ := SOpt.C120_checks _ _ _ hset.checks
    rw [hck]
    refine ce.2 (he.imp id fun hw => ?_)
    unfold SOpt.WantsEstimation at hw ⊢
    rw [u1]
    exact hw
  have hv : ∀ v ∈ run.log, SsReady s.setup q.source dataStorage storage work s.cfg.inner v.cur := by
    intro v hv
    have hmem : (v.parts, v.items) ∈ order := by
      rw [← r2]
      exact List.mem_map.2 ⟨v, hv, rfl⟩
    have hm := ((o2 _ _).1 hmem).1
    obtain ⟨l1, l2⟩ := Srch.columns_selects rfl hrange hm.lenP (r3 v hv)
    have hcols := hc.cols
    refine ⟨hc.wf, hrows, fun k hk => ?_, ?_, ?_, ?_, set_columns_nodup hc hm (r3 v hv), ?_, ?_, hx, by rw [hsu]; exact hplain⟩
    · rcases List.mem_append.1 hk with hk | hk
      · have := hgroup k hk; omega
      · have := l2 k hk
        rw [c3, c4] at this
        omega
    · rw [List.length_append, l1]; push_cast; exact hst
    · obtain ⟨a, ha, -⟩ := hp.chosen
      cases hI : s.cfg.inner with
      | nil => rw [hI] at ha; cases ha
      | cons b e => simp
    · rw [l1]; exact hp.pos
    · rw [l1]; exact hsz.1
    · rw [l1]; exact hsz.2
  have hans := Srch.answers_const (c := s.cfg) (setEst lu f other sim q.source dataStorage rmem storage work message s) run.log []
  have hmono : ∀ (d : List Srch.Visit) (k : ℕ), (fun _ _ => false : List Srch.Visit → ℕ → Bool) d k = true → (fun _ => false : List Srch.Visit → Bool) d = true :=
    fun d k hk => by cases hk
  have hpos : ∀ g (i : ℕ), q.metrics.metricsIn[i]? = some g → (∀ j < i, q.metrics.metricsIn[j]? ≠ some g) → s.setup.metrics.indexIn g = some (i : ℤ) := by
    intro g i hg hf
    obtain ⟨i', e1, e2⟩ := hx.1 g
    have hP : SOpt.Position s.setup.metrics.metricsIn g i := by
      have : s.setup.metrics.metricsIn = q.metrics.metricsIn := by rw [hsu]; exact u1
      rw [this]
      exact Or.inr ⟨i, rfl, hg, hf⟩
    rw [e1, SOpt.C120_position_unique _ _ _ _ e2 hP]
  refine ⟨fun hk i a hi' => ?_, fun i a k hi' hk => ?_⟩
  · have := r4 (by rw [c8]; exact hk) i a (by omega)
    rw [c10, c3, c4] at this
    refine ⟨this, fun x hx' => ?_⟩
    rw [← hans] at hx'
    obtain ⟨v, w1, kept, Y, X, B, G, w2, w3, w4, w5, w6, w7⟩ := C126_search_models hcfg hest hf hmono hv i a hx'
    rw [hck] at w2
    exact ⟨v, w1, kept, Y, X, B, G, w2, w3, w4, w5, fun a b => w6 (hpos _ i a b), fun a b => w7 (hpos _ i a b)⟩
  · have := r5 i a k (by omega) (by omega)
    rw [c10, c3, c4] at this
    refine ⟨this, fun x hx' => ?_⟩
    rw [← hans] at hx'
    have hl : 0 < s.setup.length1 := by rw [hsu]; show 0 < q.length1; omega
    obtain ⟨v, w1, kept, Y, X, B, G, w2, w3, w4, l, j, w5, w6, w7, w8⟩ := C126_search_equations hcfg hest hf hmono hv i a k hx' hl
    rw [hck] at w2
    refine ⟨v, w1, kept, Y, X, B, G, w2, w3, w4, l, j, ?_, w6, w7, w8⟩
    rw [w5, hsu, ← n1]
    rfl

end

/-! ## A concrete request -/

/-- Three dependent variables and a constant (`exData`); the first `targets` of the dependent variables are targets. -/
noncomputable def exRequest (targets : ℕ) (groups : List (List ℤ)) : SetRequest where
  source := exData
  numEndo := 3
  numExo := 1
  lambdas := []
  comb := ⟨[[3]], 0, 0⟩
  sizes := [1]
  groups := groups
  items := { keepBest := 0, keepAll := true, keepInclusion := false, keepMixture := false, cdfsAt := [], mult := 0 }
  keepModels := true
  targets := targets
  endo := 3
  exo := 1
  length1 := 1
  metrics := { metricsIn := [.aic], metricsOut := [], trainRatio := .num 0, seed := 3 }
  minIn := fun _ => none
  minOut := fun _ => none
  checks := {}
  maxIter := 0
  maxProb := 0

theorem exRequest_accepted {targets : ℕ} (ht : 0 < targets) {groups : List (List ℤ)}
    (hg : ∀ e ∈ groups, e ≠ [] ∧ ((exRequest targets groups).Chosen e → (exRequest targets groups).HasTarget e)) : SetAccepted (exRequest targets groups) := by
  refine ⟨?_, ?_, ht, Or.inr ⟨rfl, Or.inr (Or.inl (by simp [exRequest]))⟩, ?_, ?_, fun _ => hg, fun _ _ => ⟨Or.inl (by simp [exRequest]), Or.inl rfl, show (0 : ℤ) < 4 by decide⟩⟩
  · rintro (⟨a, -⟩ | ⟨a, -⟩ | ⟨a, -⟩ | ⟨a, -⟩)
    · simp [exRequest] at a
    · simp [exRequest] at a
    · cases a
    · cases a
  · rintro ⟨a, -⟩; simp [exRequest] at a
  · intro b hb a ha
    have hb : b ∈ [[(3 : ℤ)]] := hb
    rw [List.mem_singleton.1 hb] at ha
    rw [List.mem_singleton.1 ha]
    exact ⟨show ((3 : ℕ) : ℤ) ≤ 3 by decide, show (3 : ℤ) < ((3 : ℕ) : ℤ) + ((1 : ℕ) : ℤ) by decide⟩
  · intro s hs
    have hs : s ∈ [(1 : ℤ)] := hs
    rw [List.mem_singleton.1 hs]
    decide

/-- The request with the groups (0, 2, 1) and (0) is accepted and meets the hypotheses of C127. -/
theorem C127_example : SetAccepted (exRequest 2 [[0, 2, 1], [0]]) ∧ SetData (exRequest 2 [[0, 2, 1], [0]]) ∧
    SOpt.Fresh (exRequest 2 [[0, 2, 1], [0]]).metrics.metricsIn (exRequest 2 [[0, 2, 1], [0]]).metrics.indexIn ∧
    SOpt.Fresh (exRequest 2 [[0, 2, 1], [0]]).metrics.metricsOut (exRequest 2 [[0, 2, 1], [0]]).metrics.indexOut ∧
    ∃ ms, surModelset (exRequest 2 [[0, 2, 1], [0]]) 1 0 false = .ok ms ∧ ms.searchers.map (fun s => (s.cfg.inner, s.seed)) = [([0, 2, 1], 3), ([0], 4)] := by
  have hacc : SetAccepted (exRequest 2 [[0, 2, 1], [0]]) := by
    refine exRequest_accepted (by decide) fun e he => ?_
    simp only [List.mem_cons, List.not_mem_nil, or_false] at he
    rcases he with rfl | rfl <;> exact ⟨by simp, fun _ => ⟨0, by simp, by decide⟩⟩
  refine ⟨hacc, ⟨⟨rfl, rfl⟩, exReady.wf, by decide, ?_, ?_⟩, fun x i h => (by cases h), fun x i h => (by cases h), ?_⟩
  · intro e he a ha
    have he : e ∈ [[0, 2, 1], [(0 : ℤ)]] := he
    show 0 ≤ a ∧ a < ((3 : ℕ) : ℤ)
    simp only [List.mem_cons, List.not_mem_nil, or_false] at he
    rcases he with rfl | rfl <;> simp only [List.mem_cons, List.not_mem_nil, or_false] at ha <;> omega
  · intro i j b b' a h1 h2 h3 h4
    have h1 : [[(3 : ℤ)]][i]? = some b := h1
    have h2 : [[(3 : ℤ)]][j]? = some b' := h2
    rcases i with _ | i <;> rcases j with _ | j <;> simp at h1 h2 ⊢
  · obtain ⟨ms, hms⟩ := (C127_accepted (big := 1) (tiny := 0) (parallel := false)).1.2 hacc
    refine ⟨ms, hms, ?_⟩
    have hs := C127_searchers hms
    have hpl : (exRequest 2 [[0, 2, 1], [0]]).planned = [(1, [0, 2, 1]), (1, [0])] := by
      unfold SetRequest.planned
      have h1 : (exRequest 2 [[0, 2, 1], [0]]).Roomy 1 := show (0 : ℤ) ≤ 1 by decide
      have h2 : (exRequest 2 [[0, 2, 1], [0]]).Chosen [0, 2, 1] := ⟨0, rfl, by decide⟩
      have h3 : (exRequest 2 [[0, 2, 1], [0]]).Chosen [0] := ⟨0, rfl, by decide⟩
      show ([(1 : ℤ)].filter fun s => @decide ((exRequest 2 [[0, 2, 1], [0]]).Roomy s) (Classical.propDecidable _)).flatMap (fun s =>
        ([[0, 2, 1], [(0 : ℤ)]].filter fun e => @decide ((exRequest 2 [[0, 2, 1], [0]]).Chosen e) (Classical.propDecidable _)).map fun e => (s, e)) = _
      simp [h1, h2, h3]
    rw [hpl] at hs
    generalize ms.searchers = l at hs
    cases hs with
    | cons x hs =>
      cases hs with
      | cons y hs =>
        cases hs
        rw [List.map_cons, List.map_cons, List.map_nil, x.2.1, x.2.2.1, y.2.1, y.2.2.1]
        rfl

/-- A concrete case of the violations: with the group (2) of a variable that is not a target nothing is searched, not even the group (0); with one target the group (2, 0)
is left out although 0 is a target. -/
theorem C127_example_violated : surModelset (exRequest 2 [[0], [2]]) 1 0 false = .throws ∧
    ∃ ms, surModelset (exRequest 1 [[0], [2, 0]]) 1 0 false = .ok ms ∧ (exRequest 1 [[0], [2, 0]]).HasTarget [2, 0] ∧ ∀ s ∈ ms.searchers, s.cfg.inner ≠ [2, 0] := by
  constructor
  · refine C127_boundary_violated (q := exRequest 2 [[0], [2]]) (e := []) (by simp [exRequest]) ?_ ⟨1, by simp [exRequest], by unfold SetRequest.Roomy; decide⟩
    rintro ⟨t, ht, hlt⟩
    rw [List.mem_singleton.1 ht] at hlt
    omega
  · have hacc : SetAccepted (exRequest 1 [[0], [2, 0]]) := by
      refine exRequest_accepted (by decide) fun e he => ?_
      simp only [List.mem_cons, List.not_mem_nil, or_false] at he
      rcases he with rfl | rfl <;> exact ⟨by simp, fun _ => ⟨0, by simp, by decide⟩⟩
    obtain ⟨ms, hms⟩ := (C127_accepted (big := 1) (tiny := 0) (parallel := false)).1.2 hacc
    exact ⟨ms, hms, ⟨0, by simp, by decide⟩, C127_skipped_violated hms (by decide)⟩

/-- **C127**, violated: the members of the groups are not checked. The group (0, 7) is accepted for data with four columns; the search reads outside of the data. -/
theorem C127_group_violated (lu : List ℝ → List ℝ) (f : Fns ℝ) (other : Outcome ExtRes) (sim : Mat ℝ → Outcome SimResult) (dataStorage : List (Val ℝ))
    (rmem storage work : List ℝ) (cancel : ℕ → Bool) : SetAccepted (exRequest 2 [[0, 7]]) ∧
    ssEstimate lu f exSetup other sim exData dataStorage rmem storage work cancel [0, 7] ([0, 7] ++ [3]) [3] 1 = .ub := by
  refine ⟨exRequest_accepted (by decide) fun e he => ?_, ?_⟩
  · rw [List.mem_singleton.1 he]
    exact ⟨by simp, fun _ => ⟨0, by simp, by decide⟩⟩
  · rfl

end Su
end LDT
