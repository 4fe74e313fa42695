import Verif.Props.ChoiceSet
import Verif.Props.SearchRegMore
import Verif.Props.ChoiceSearchExample
/-! # C122: the searchers of the set and the search -/
namespace LDT
namespace Dc
open Op Di Mx Arr Score

/-! ## The searchers -/

theorem plan_eq (q : Request) : ∀ (l : List ℤ) (k : ℕ), plan q q.metrics.seed k l =
    (l.zipIdx k).flatMap fun p => q.laws.map fun l =>
      (p.1, l, if q.metrics.seed = 0 then 0 else if q.metrics.seed < 0 then -q.metrics.seed else q.metrics.seed + (p.2 + 1))
  | [], _ => rfl
  | s :: ss, k => by
    rw [plan, List.zipIdx_cons, List.flatMap_cons, ← plan_eq q ss (k + 1)]
    push_cast
    rfl

theorem forall₂_mem {α β : Type} {R : α → β → Prop} : ∀ {l : List α} {u : List β}, List.Forall₂ R l u → List.Forall₂ (fun a b => R a b ∧ a ∈ l ∧ b ∈ u) l u
  | _, _, .nil => .nil
  | _, _, .cons h t => .cons ⟨h, by simp, by simp⟩ ((forall₂_mem t).imp fun _ _ h => ⟨h.1, by simp [h.2.1], by simp [h.2.2]⟩)

theorem forall₂_left {α β : Type} {R : α → β → Prop} : ∀ {l : List α} {u : List β}, List.Forall₂ R l u → ∀ a ∈ l, ∃ b ∈ u, R a b
  | _, _, .nil, a, h => by simp at h
  | _, _, .cons h t, a, ha => by
    rcases List.mem_cons.1 ha with rfl | ha
    · exact ⟨_, by simp, h⟩
    · obtain ⟨b, hb, r⟩ := forall₂_left t a ha
      exact ⟨b, by simp [hb], r⟩

section
variable {q : Request} {big tiny : ℝ} {parallel : Bool} {top : ℝ} {ms : DcModelset}
  (wd : q.source.Wf) (hw : ∀ c ∈ q.costs, c.Wf) (hi : SOpt.Fresh q.metrics.metricsIn q.metrics.indexIn)
  (ho : SOpt.Fresh q.metrics.metricsOut q.metrics.indexOut) (ht : TopOf q.source 0 top) (h : dcModelset q big tiny parallel = .ok ms)

include wd hw hi ho ht h

/-- **C122.** There is one searcher for each size and each law, in the order of the sizes, with the seed of that size. -/
theorem C122_searchers : List.Forall₂ (fun (s : DcSearcher) (p : ℤ × Law × ℤ) => (s.cfg.n : ℤ) = p.1 ∧ s.setup.law = p.2.1 ∧ s.seed = p.2.2 ∧
      s.setup.form = q.form ∧ s.setup.numChoices = trunc (top + 1) ∧ s.setup.hasWeight = q.hasWeight ∧ s.setup.costs = q.costs ∧
      s.setup.metrics = ms.metrics ∧ s.setup.checks = ms.checks) ms.searchers q.planned := by
  have hset := (set_of wd hw hi ho ht).2 ms h
  have hacc := (C122_accepted wd hw hi ho ht).1.1 ⟨ms, h⟩
  have hall := all_made q big tiny ms.checks _ q.sizes 0 _ hset.made
  obtain ⟨-, -, -, -, -, u6, -⟩ := SOpt.C120_updated _ _ _ _ hset.metrics
  rw [if_pos rfl] at u6
  have hp := plan_eq q q.sizes 0
  rw [u6] at hall
  rw [Nat.cast_zero] at hp
  rw [hp] at hall
  refine (forall₂_mem hall).imp fun s p hsp => ?_
  obtain ⟨m, -, hmem⟩ := hsp
  have hmem : p.1 ∈ q.sizes := by
    obtain ⟨a, ha, hp⟩ := List.mem_flatMap.1 hmem
    obtain ⟨l, -, rfl⟩ := List.mem_map.1 hp
    exact (List.mem_zipIdx' ha).2 ▸ List.getElem_mem _
  have := hacc.sizes _ hmem
  rw [m.cfg, m.setup]
  refine ⟨?_, rfl, m.seed, rfl, rfl, rfl, rfl, rfl, rfl⟩
  show (p.1.toNat : ℤ) = p.1
  omega

omit wd hw hi ho ht h in
theorem le_foldMax : ∀ (l : List ℤ) (a : ℤ), a ≤ l.foldl max a ∧ ∀ x ∈ l, x ≤ l.foldl max a
  | [], a => ⟨le_rfl, by simp⟩
  | y :: l, a => by
    obtain ⟨h1, h2⟩ := le_foldMax l (max a y)
    rw [List.foldl_cons]
    refine ⟨(le_max_left _ _).trans h1, fun x hx => ?_⟩
    rcases List.mem_cons.1 hx with rfl | hx
    · exact (le_max_right _ _).trans h1
    · exact h2 x hx

/-- **C122.** Without parallel execution the work arrays of the set are large enough for each of its searchers. -/
theorem C122_memory (hp : parallel = false) : ∀ s ∈ ms.searchers, s.sizes.work ≤ ms.work ∧ s.sizes.workI ≤ ms.workI := by
  have hset := (set_of wd hw hi ho ht).2 ms h
  intro s hs
  rw [hset.work, hset.workI]
  subst hp
  exact ⟨(le_foldMax (ms.searchers.map fun s => s.sizes.work) 0).2 _ (List.mem_map.2 ⟨s, hs, rfl⟩),
    (le_foldMax (ms.searchers.map fun s => s.sizes.workI) 0).2 _ (List.mem_map.2 ⟨s, hs, rfl⟩)⟩

/-! ## The search -/

/-- What a searcher of the set knows. -/
structure Part (q : Request) (big tiny : ℝ) (choices : ℤ) (ms : DcModelset) (s : DcSearcher) : Prop where
  reg : Srch.regConstruct s.cfg big tiny = .ok s.init
  size : (s.cfg.n : ℤ) ∈ q.sizes
  fixed : q.comb.numFixPartitions ≤ s.cfg.n
  pos : 0 < s.cfg.n
  cfg : s.cfg = q.cfg ms.metrics ((ms.metrics.metricsIn.length + ms.metrics.metricsOut.length : ℕ) : ℤ) 1 s.cfg.n
  setup : ∃ law, s.setup = q.setup ms.metrics ms.checks choices law
  indexed : Indexed ms.metrics
  proper : s.setup.Proper

theorem part_of {s : DcSearcher} (hs : s ∈ ms.searchers) : Part q big tiny (trunc (top + 1)) ms s := by
  have hset := (set_of wd hw hi ho ht).2 ms h
  have hacc := (C122_accepted wd hw hi ho ht).1.1 ⟨ms, h⟩
  have hall := all_made q big tiny ms.checks _ q.sizes 0 _ hset.made
  obtain ⟨u1, u2, -, -, -, u6, -⟩ := SOpt.C120_updated _ _ _ _ hset.metrics
  rw [if_pos rfl] at u6
  have hp := plan_eq q q.sizes 0
  rw [Nat.cast_zero] at hp
  rw [u6, hp] at hall
  obtain ⟨p, hmem, m⟩ := forall₂_left hall s hs
  obtain ⟨a, ha, hp⟩ := List.mem_flatMap.1 hmem
  obtain ⟨l, hl, rfl⟩ := List.mem_map.1 hp
  have hmem : a.1 ∈ q.sizes := (List.mem_zipIdx' ha).2 ▸ List.getElem_mem _
  have hpos := hacc.sizes _ hmem
  have hn : (s.cfg.n : ℤ) = a.1 := by
    rw [m.cfg]
    show (a.1.toNat : ℤ) = a.1
    omega
  have hen := m.enough
  dsimp only at hen
  have hse : Searchable q (trunc (top + 1)) := by
    refine hacc.searchers (List.ne_nil_of_mem hmem) ?_
    unfold Request.laws at hl
    cases h1 : q.addLogit
    · cases h2 : q.addProbit
      · rw [h1, h2] at hl; simp at hl
      · exact Or.inr rfl
    · exact Or.inl rfl
  refine ⟨m.reg, hn ▸ hmem, by omega, by omega, ?_, ⟨l, m.setup⟩, ?_, ?_⟩
  · rw [hn]; exact m.cfg
  · have := SOpt.C120_positions_partial _ _ _ _ hset.metrics hi ho
    rw [← u1, ← u2] at this
    exact this
  · rw [m.setup]
    constructor
    · intro hf
      rcases hse.form with ⟨-, e⟩ | ⟨e, -⟩
      · exact e
      · have hf : q.form = .binary := hf
        rw [e] at hf; cases hf
    · intro hf
      rcases hse.form with ⟨e, -⟩ | ⟨-, e⟩
      · have hf : q.form = .ordered := hf
        rw [e] at hf; cases hf
      · exact e

omit wd hw hi ho ht h in
/-- The columns of a model of different partitions are different. -/
theorem columns_nodup (hc : Candidates q) {n : ℕ} {v : Srch.Visit} (hm : Srch.IsModel q.comb.partitions n v.parts v.items)
    (hcol : Srch.Columns q.comb.partitions v.parts v.items v.cur) : v.cur.Nodup := by
  rw [List.nodup_iff_injective_getElem]
  intro a b hab
  obtain ⟨l1, l2⟩ := hcol
  have ha := a.2
  have hb := b.2
  obtain ⟨g, e1, e2, e3⟩ := l2 a (by omega)
  obtain ⟨g', f1, f2, f3⟩ := l2 b (by omega)
  rw [List.getElem?_eq_getElem ha, List.getElem?_eq_getElem e2] at e3
  rw [List.getElem?_eq_getElem hb, List.getElem?_eq_getElem f2] at f3
  have hab : v.cur[(a : ℕ)] = v.cur[(b : ℕ)] := hab
  have := hc.apart _ _ g g' v.cur[(a : ℕ)] e1 f1 (by rw [Option.some.inj e3]; exact List.getElem_mem _)
    (by rw [hab, Option.some.inj f3]; exact List.getElem_mem _)
  have hpw := List.pairwise_iff_getElem.1 hm.incr
  have lk : ∀ k (hk : k < v.parts.length), v.parts.getD k 0 = v.parts[k] := fun k hk => by simp [hk]
  rw [lk _ (by omega), lk _ (by omega)] at this
  rcases lt_trichotomy (a : ℕ) b with hlt | heq | hlt
  · have := hpw a b (by omega) (by omega) hlt; omega
  · exact Fin.ext heq
  · have := hpw b a (by omega) (by omega) hlt; omega

/-- The estimator of a searcher that is never cancelled; `sim` are the simulations and `junk` the memory. -/
noncomputable def oneEst (S : Fns) (E : ∀ k, Env k) (sim : Mat ℝ → Outcome SimResult) (source : Mat (Val ℝ)) (storage : List (Val ℝ)) (junk : ℕ → ℕ → Val ℝ)
    (message : String) (s : DcSearcher) : List ℤ → List ℤ → Srch.RegOut :=
  dcEst S s.setup s.sizes E (fun _ => sim) source storage (fun _ => junk) (fun _ _ => false) message (fun _ => false) (fun _ => false) []

/-- **C122** with C119 and C121: a searcher of the set that is not cancelled tries each model of its size that has the fixed partitions exactly once; its summaries receive,
for AIC and SIC, only those of models of C114 within the limits, for the complete rows of their columns; and the coefficients of such models. -/
theorem C122_search (S : Fns) (E : ∀ k, Env k) (sim : Mat ℝ → Outcome SimResult) (junk : ℕ → ℕ → Val ℝ) (message : String) (hc : Candidates q)
    (hmin : ∀ g l, q.minIn g = some l → l ≠ []) (hmout : ∀ g l, q.minOut g = some l → l ≠ [])
    (he : q.checks.estimation = true ∨ SOpt.WantsEstimation q.checks q.metrics)
    (h0 : q.comb.numFixItems = 0) {s : DcSearcher} (hs : s ∈ ms.searchers) (hn : s.cfg.n ≤ q.comb.partitions.length)
    (storage : List (Val ℝ)) (hst : (storage.length : ℤ) = q.source.rows * (1 + s.cfg.w + s.cfg.n)) :
    ∃ (order : List (List ℕ × List ℕ)) (bound : ℕ), order.Nodup ∧
      (∀ p i, (p, i) ∈ order ↔ Srch.IsModel q.comb.partitions s.cfg.n p i ∧ ∀ k, k < q.comb.numFixPartitions → k ∈ p) ∧
      ∀ (lt : ℤ) (fuel : ℕ), bound ≤ fuel →
        let e := oneEst S E sim q.source storage junk message s
        ∃ run, Srch.start q.comb s.cfg.n (Srch.regEnv S s.cfg (fun _ => e) message (fun _ => false) s.init) false lt fuel = .ok run ∧ run.positions = order ∧
          (∀ v ∈ run.log, Srch.Columns q.comb.partitions v.parts v.items v.cur) ∧
          let fin := Srch.stateAfter S s.cfg (fun _ => e) message [] run.log s.init
          let es := Srch.estimated s.cfg (run.log.map fun v => (v.cur, e (Srch.tableColumns s.cfg v.cur) (Srch.wanted s.cfg v.cur)))
          (q.keepModels = true → ∀ i, i < ms.metrics.metricsIn.length + ms.metrics.metricsOut.length →
            Srch.FedBy S q.items (Srch.posOf s.cfg) big tiny q.numEndo q.numExo (fin.s0 i 0, (es.flatMap (Srch.modelKept s.cfg i 0)).map fun x => (true, x)) ∧
            ∀ x ∈ es.flatMap (Srch.modelKept s.cfg i 0), ∃ v ∈ run.log, ∃ kept D e, ModelOf S s.setup E q.source (Srch.tableColumns s.cfg v.cur) kept D e ∧
              x.exo = v.cur ∧ x.endo = [0] ∧ x.extra = [lawCode s.setup.law] ∧
              (q.metrics.metricsIn[i]? = some .aic → (∀ j < i, q.metrics.metricsIn[j]? ≠ some .aic) → e.aic = .num x.metric) ∧
              (q.metrics.metricsIn[i]? = some .sic → (∀ j < i, q.metrics.metricsIn[j]? ≠ some .sic) → e.sic = .num x.metric)) ∧
          (∀ i k : ℕ, i < ms.metrics.metricsIn.length + ms.metrics.metricsOut.length → (k : ℤ) < q.length1 →
            Srch.FedBy S q.items (Srch.posOf s.cfg) big tiny q.numEndo q.numExo (fin.s1 i 0 k, (es.flatMap (Srch.coefKept s.cfg i 0 k)).map fun x => (false, x)) ∧
            ∀ x ∈ es.flatMap (Srch.coefKept s.cfg i 0 k), ∃ v ∈ run.log, ∃ kept D e, ModelOf S s.setup E q.source (Srch.tableColumns s.cfg v.cur) kept D e ∧
              x.exo = v.cur ∧ x.endo = [0] ∧ x.extra = [lawCode s.setup.law] ∧
              ∃ j hj, v.cur[j]? = some ((k : ℤ) + 1) ∧ x.mean = some (e.beta ⟨j, hj⟩) ∧ x.variance = some (e.betaVar ⟨j, hj⟩ ⟨j, hj⟩)) := by
  have hp := part_of wd hw hi ho ht h hs
  have hset := (set_of wd hw hi ho ht).2 ms h
  have hacc := (C122_accepted wd hw hi ho ht).1.1 ⟨ms, h⟩
  obtain ⟨u1, u2, -⟩ := SOpt.C120_updated _ _ _ _ hset.metrics
  obtain ⟨law, hsu⟩ := hp.setup
  have c1 : s.cfg.lengthEvals = ms.metrics.metricsIn.length + ms.metrics.metricsOut.length := by
    rw [hp.cfg]; exact Int.toNat_natCast _
  have c2 : s.cfg.lengthTargets = 1 := by rw [hp.cfg]; rfl
  have c3 : s.cfg.numEndo = 1 := by rw [hp.cfg]; exact hc.data.1
  have c4 : s.cfg.numExo = q.numExo := by rw [hp.cfg]; rfl
  have c5 : s.cfg.inner = [0] := by rw [hp.cfg]; rfl
  have c6 : s.cfg.innerExo = false := by rw [hp.cfg]; rfl
  have c7 : s.cfg.length1 = q.length1.toNat := by rw [hp.cfg]; rfl
  have c8 : s.cfg.keepModels = q.keepModels := by rw [hp.cfg]; rfl
  have c9 : s.cfg.hasWeight = q.hasWeight := by rw [hp.cfg]; rfl
  have c10 : s.cfg.items = q.items := by rw [hp.cfg]; rfl
  have hexo := hacc.exo
  have hd2 := hc.data.2
  have hr : Srch.Ready s.cfg := by
    refine ⟨?_, ?_, ?_, ?_⟩
    · rw [c1, hp.cfg]; rfl
    · rw [c2, hp.cfg]; exact fun g l hl => List.length_pos_iff.2 (hmin g l hl)
    · rw [c2, hp.cfg]; exact fun g l hl => List.length_pos_iff.2 (hmout g l hl)
    · rw [c5, c3]; intro a ha; rw [List.mem_singleton.1 ha]; constructor <;> omega
  have hrange : ∀ g ∈ q.comb.partitions, ∀ a ∈ g, 0 ≤ a ∧ a < (s.cfg.numEndo + s.cfg.numExo : ℕ) := by
    intro g hg a ha
    have := hacc.elements g hg a ha
    rw [c3, c4]
    omega
  obtain ⟨order, bound, o1, o2, o3⟩ := Srch.C119_search (S := S) hp.reg hr q.comb h0 hp.fixed hn hp.pos hrange
    (oneEst S E sim q.source storage junk message s) message
  refine ⟨order, bound, o1, o2, fun lt fuel hfu => ?_⟩
  obtain ⟨run, r1, r2, r3, r4, r5⟩ := o3 (fun _ => false) lt fuel (fun _ => rfl) hfu
  refine ⟨run, r1, r2, r3, ?_⟩
  have hcfg : DcCfg s.setup s.cfg := ⟨by rw [c9, hsu]; rfl, c6, c5, c3⟩
  have hx : Indexed s.setup.metrics := by rw [hsu]; exact hp.indexed
  have hest : s.setup.checks.estimation = true := by
    obtain ⟨-, -, -, -, -, -, -, -, ce, -⟩ := SOpt.C120_checks _ _ _ hset.checks
    rw [hsu]
    refine ce.2 (he.imp id fun hw => ?_)
    unfold SOpt.WantsEstimation at hw ⊢
    rw [u1]
    exact hw
  have hcols : ((s.cfg.numEndo + s.cfg.w + s.cfg.numExo : ℕ) : ℤ) ≤ q.source.cols := by
    have : q.exo = q.source.cols - front q.hasWeight := rfl
    have hwf : (s.cfg.w : ℤ) + 1 = front q.hasWeight := by
      unfold Srch.RegCfg.w front
      rw [c9]
      cases q.hasWeight <;> rfl
    rw [c3, c4]
    push_cast
    omega
  have hv : ∀ v ∈ run.log, Srch.Selects s.cfg v ∧ v.cur.Nodup := by
    intro v hv
    have hmem : (v.parts, v.items) ∈ order := by
      rw [← r2]
      exact List.mem_map.2 ⟨v, hv, rfl⟩
    have hm := ((o2 _ _).1 hmem).1
    exact ⟨Srch.columns_selects rfl hrange hm.lenP (r3 v hv), columns_nodup hc hm (r3 v hv)⟩
  have hans := Srch.answers_const (c := s.cfg) (oneEst S E sim q.source storage junk message s) run.log []
  have hmono : ∀ (d : List Srch.Visit) (k : ℕ), (fun _ _ => false : List Srch.Visit → ℕ → Bool) d k = true → (fun _ => false : List Srch.Visit → Bool) d = true :=
    fun d k hk => by cases hk
  have hpos : ∀ g (i : ℕ), q.metrics.metricsIn[i]? = some g → (∀ j < i, q.metrics.metricsIn[j]? ≠ some g) → s.setup.metrics.indexIn g = some (i : ℤ) := by
    intro g i hg hf
    obtain ⟨i', e1, e2⟩ := hx.1 g
    have hP : SOpt.Position s.setup.metrics.metricsIn g i := by
      have : s.setup.metrics.metricsIn = q.metrics.metricsIn := by rw [hsu]; exact u1
      rw [this]
      exact Or.inr ⟨i, rfl, hg, hf⟩
    rw [e1, SOpt.C120_position_unique _ _ _ _ e2 hP]
  refine ⟨fun hk i hi' => ?_, fun i k hi' hk => ?_⟩
  · have := r4 (by rw [c8]; exact hk) i 0 (by omega)
    rw [c10, c3, c4] at this
    refine ⟨by rw [hc.data.1]; exact this, fun x hx' => ?_⟩
    rw [← hans] at hx'
    obtain ⟨v, w1, kept, D, e, w2, w3, w4, w5, w6, w7⟩ := C121_search_models hcfg wd hx hest hp.proper hcols hst hmono hv i hx'
    exact ⟨v, w1, kept, D, e, w2, w3, w4, w5, fun a b => w6 (hpos _ i a b), fun a b => w7 (hpos _ i a b)⟩
  · have := r5 i 0 k (by omega) (by omega)
    rw [c10, c3, c4] at this
    refine ⟨by rw [hc.data.1]; exact this, fun x hx' => ?_⟩
    rw [← hans] at hx'
    have hl : 0 < s.setup.length1 := by rw [hsu]; show 0 < q.length1.toNat; omega
    exact C121_search_coefficients hcfg wd hx hest hp.proper hcols hst hmono hv hl i k hx'

end
end Dc
end LDT
