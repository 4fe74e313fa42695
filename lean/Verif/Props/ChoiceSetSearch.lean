import Verif.Props.ChoiceSetMore
/-! # C122: the run of the set, what is wrongly accepted, and a concrete request -/
namespace LDT
namespace Dc
open Op Di Mx Arr Score

/-! ## The run -/

theorem startAll_run {σ τ : Type} (run : σ → Outcome τ) (idle : σ → τ) (cancel : ℕ → Bool) : ∀ (l : List σ) (k m : ℕ) (xs : List τ),
    (∀ j, k ≤ j → j < k + m → cancel j = false) → (m < l.length → cancel (k + m) = true) → m ≤ l.length →
    (startAll run idle cancel k l = .ok xs ↔ ∃ ys, List.Forall₂ (fun s y => run s = .ok y) (l.take m) ys ∧ xs = ys ++ (l.drop m).map idle)
  | [], k, m, xs, _, _, _ => by
    rw [startAll, List.take_nil, List.drop_nil]
    constructor
    · intro h
      rw [← Outcome.ok.inj h]
      exact ⟨[], .nil, rfl⟩
    · rintro ⟨ys, h, rfl⟩
      cases h
      rfl
  | s :: l, k, 0, xs, _, h2, _ => by
    rw [startAll, if_pos (show cancel k = true from h2 (by simp))]
    constructor
    · intro h
      rw [← Outcome.ok.inj h]
      exact ⟨[], .nil, rfl⟩
    · rintro ⟨ys, h, rfl⟩
      cases h
      rfl
  | s :: l, k, m + 1, xs, h1, h2, hm => by
    have ih := startAll_run run idle cancel l (k + 1) m
    rw [startAll, if_neg (by rw [h1 k le_rfl (by omega)]; simp)]
    simp only [List.length_cons] at hm h2
    have ih := fun xs => ih xs (fun j a b => h1 j (by omega) (by omega)) (fun h => by have := h2 (by omega); rwa [show k + 1 + m = k + (m + 1) by omega]) (by omega)
    rw [List.take_succ_cons, List.drop_succ_cons]
    constructor
    · intro h
      obtain ⟨x, hx, h⟩ := bind_ok h
      obtain ⟨rest, hr, h⟩ := bind_ok h
      obtain rfl := Outcome.ok.inj h
      obtain ⟨ys, e1, rfl⟩ := (ih rest).1 hr
      exact ⟨x :: ys, .cons hx e1, rfl⟩
    · rintro ⟨ys, h, rfl⟩
      cases h with
      | cons hx ht =>
        rename_i y ys
        rw [hx, Outcome.ok_bind, (ih _).2 ⟨ys, ht, rfl⟩, Outcome.ok_bind]
        rfl

/-- **C122.** The searchers are started one after the other: those before the cancellation have been run, each once, the others not. -/
theorem C122_start {σ τ : Type} (run : σ → Outcome τ) (idle : σ → τ) (cancel : ℕ → Bool) (l : List σ) (m : ℕ) (hm : m ≤ l.length)
    (h1 : ∀ j < m, cancel j = false) (h2 : m < l.length → cancel m = true) (xs : List τ) :
    startAll run idle cancel 0 l = .ok xs ↔ ∃ ys, List.Forall₂ (fun s y => run s = .ok y) (l.take m) ys ∧ xs = ys ++ (l.drop m).map idle :=
  startAll_run run idle cancel l 0 m xs (fun j _ h => h1 j (by omega)) (by simpa using h2) hm

theorem startAll_all {σ τ : Type} (run : σ → Outcome τ) (idle : σ → τ) (l : List σ) (xs : List τ) :
    startAll run idle (fun _ => false) 0 l = .ok xs ↔ List.Forall₂ (fun s y => run s = .ok y) l xs := by
  rw [C122_start run idle (fun _ => false) l l.length le_rfl (fun _ _ => rfl) (by simp) xs]
  simp

/-- **C122.** The order in which the searchers are started (they are shuffled) does not change what they find. -/
theorem C122_shuffled {σ τ : Type} (run : σ → Outcome τ) (idle : σ → τ) {l l' : List σ} (hp : l.Perm l') (xs : List τ)
    (h : startAll run idle (fun _ => false) 0 l = .ok xs) :
    ∃ xs', startAll run idle (fun _ => false) 0 l' = .ok xs' ∧ (l.zip xs).Perm (l'.zip xs') := by
  rw [startAll_all] at h
  suffices ∃ xs', List.Forall₂ (fun s y => run s = .ok y) l' xs' ∧ (l.zip xs).Perm (l'.zip xs') by
    obtain ⟨xs', a, b⟩ := this
    exact ⟨xs', (startAll_all run idle l' xs').2 a, b⟩
  clear idle
  induction hp generalizing xs with
  | nil => exact ⟨xs, h, .refl _⟩
  | cons x _ ih =>
    cases h with
    | cons hx ht =>
      obtain ⟨xs', a, b⟩ := ih _ ht
      exact ⟨_ :: xs', .cons hx a, b.cons _⟩
  | swap x y l =>
    cases h with
    | cons hx ht =>
      cases ht with
      | cons hy ht => exact ⟨_, .cons hy (.cons hx ht), .swap _ _ _⟩
  | trans _ _ ih1 ih2 =>
    obtain ⟨x1, a1, b1⟩ := ih1 _ h
    obtain ⟨x2, a2, b2⟩ := ih2 _ a1
    exact ⟨x2, a2, b1.trans b2⟩

theorem expectedAll_ok {σ : Type} (count : σ → Outcome ℕ) (f : σ → ℕ) : ∀ (l : List σ), (∀ s ∈ l, count s = .ok (f s)) → expectedAll count l = .ok (l.map f).sum
  | [], _ => rfl
  | s :: l, h => by
    rw [expectedAll, h s (by simp), Outcome.ok_bind, expectedAll_ok count f l (fun s hs => h s (by simp [hs])), Outcome.ok_bind]
    rfl

section
variable {q : Request} {big tiny : ℝ} {parallel : Bool} {top : ℝ} {ms : DcModelset}
  (wd : q.source.Wf) (hw : ∀ c ∈ q.costs, c.Wf) (hi : SOpt.Fresh q.metrics.metricsIn q.metrics.indexIn)
  (ho : SOpt.Fresh q.metrics.metricsOut q.metrics.indexOut) (ht : TopOf q.source 0 top) (h : dcModelset q big tiny parallel = .ok ms)

include wd hw hi ho ht h

/-- **C122** with C18, for no fixed items, no empty partition and sizes that are possible: a run of the set that is not cancelled counts as many models as announced,
whatever the estimations do. -/
theorem C122_counts_partial (h0 : q.comb.numFixItems = 0) (hne : ∀ g ∈ q.comb.partitions, g ≠ []) (hn : ∀ n ∈ q.sizes, n ≤ q.comb.partitions.length) :
    ∃ total bound : ℕ, ∀ (env : DcSearcher → Srch.Env) (lt : ℤ) (fuel : ℕ), (∀ s j, (env s).cancel j = false) → bound ≤ fuel →
      expectedAll (fun s => Srch.getCount q.comb s.cfg.n false lt fuel) ms.searchers = .ok total ∧
      ∃ sts, startAll (fun s : DcSearcher => Srch.start q.comb s.cfg.n (env s) false lt fuel) (fun _ => ⟨0, [], [], []⟩) (fun _ => false) 0 ms.searchers = .ok sts ∧
        searchedAll sts = total := by
  have key : ∀ s ∈ ms.searchers, ∃ total bound : ℕ, ∀ (env : Srch.Env) (lt : ℤ) (fuel : ℕ), (∀ j, env.cancel j = false) → bound ≤ fuel →
      Srch.getCount q.comb s.cfg.n false lt fuel = .ok total ∧ ∃ st, Srch.start q.comb s.cfg.n env false lt fuel = .ok st ∧ st.counter = total := by
    intro s hs
    have hp := part_of wd hw hi ho ht h hs
    obtain ⟨total, bound, -, hb⟩ := Srch.C18_announced_partial q.comb h0 s.cfg.n hne hp.fixed (by have := hn _ hp.size; omega) hp.pos
    refine ⟨total, bound, fun env lt fuel hc hf => ?_⟩
    obtain ⟨a, st, b, c, -⟩ := hb env lt fuel hc hf
    exact ⟨a, st, b, c⟩
  generalize ms.searchers = l at key
  induction l with
  | nil => exact ⟨0, 0, fun env lt fuel _ _ => ⟨rfl, [], rfl, rfl⟩⟩
  | cons s l ih =>
    obtain ⟨t1, b1, h1⟩ := key s (by simp)
    obtain ⟨t2, b2, h2⟩ := ih fun s hs => key s (by simp [hs])
    refine ⟨t1 + t2, max b1 b2, fun env lt fuel hc hf => ?_⟩
    obtain ⟨e1, st, e2, e3⟩ := h1 (env s) lt fuel (hc s) (by omega)
    obtain ⟨f1, sts, f2, f3⟩ := h2 env lt fuel hc (by omega)
    refine ⟨?_, st :: sts, ?_, ?_⟩
    · rw [expectedAll, e1, Outcome.ok_bind, f1, Outcome.ok_bind]; rfl
    · rw [startAll_all] at f2 ⊢
      exact .cons e2 f2
    · rw [← e3, ← f3]; rfl

/-- **C122**, violated: a size that is larger than the number of partitions is accepted; the search throws then. -/
theorem C122_violated_size {s : DcSearcher} (hs : s ∈ ms.searchers) (hn : q.comb.partitions.length < s.cfg.n) (env : Srch.Env) (lt : ℤ) (fuel : ℕ) :
    Srch.start q.comb s.cfg.n env false lt fuel = .throws ∧ Srch.getCount q.comb s.cfg.n false lt fuel = .throws := by
  have hp := part_of wd hw hi ho ht h hs
  unfold Srch.start Srch.getCount
  rw [if_neg (not_lt.2 hp.fixed), if_pos hn, if_neg (not_lt.2 hp.fixed), if_pos hn]
  exact ⟨rfl, rfl⟩

end

/-! ## What is wrongly refused and wrongly accepted -/

/-- **C122**, violated: the Brier score out of the sample alone is refused. -/
theorem C122_violated_brier {q : Request} {choices : ℤ} (ho : q.metrics.metricsOut = [.brier]) (hc : q.costs = []) (hs : q.sizes ≠ [])
    (hl : q.addLogit = true ∨ q.addProbit = true) : ¬ Accepted q choices := by
  intro h
  rcases ((h.searchers hs hl).sims (by rw [ho]; simp)).1 with e | e
  · exact e hc
  · rw [ho] at e; simp at e

/-- **C122**, violated: the cutoffs of models with more than two choices are demanded as coefficients (`Length1` has to count them), but nothing is kept for them. -/
theorem C122_violated_cutoffs {q : Request} {big tiny : ℝ} {parallel : Bool} {top : ℝ} {ms : DcModelset}
    (wd : q.source.Wf) (hw : ∀ c ∈ q.costs, c.Wf) (hi : SOpt.Fresh q.metrics.metricsIn q.metrics.indexIn)
    (ho : SOpt.Fresh q.metrics.metricsOut q.metrics.indexOut) (ht : TopOf q.source 0 top) (h : dcModelset q big tiny parallel = .ok ms)
    (S : Fns) (E : ∀ k, Env k) (sim : Mat ℝ → Outcome SimResult) (junk : ℕ → ℕ → Val ℝ) (message : String) (hc : Candidates q)
    (hmin : ∀ g l, q.minIn g = some l → l ≠ []) (hmout : ∀ g l, q.minOut g = some l → l ≠ [])
    (h0 : q.comb.numFixItems = 0) {s : DcSearcher} (hs : s ∈ ms.searchers) (hn : s.cfg.n ≤ q.comb.partitions.length)
    (storage : List (Val ℝ)) (hst : (storage.length : ℤ) = q.source.rows * (1 + s.cfg.w + s.cfg.n)) (hl : q.length1 ≠ 0) :
    q.length1 = q.exo + (trunc (top + 1) - 2) ∧ ∃ bound : ℕ, ∀ (lt : ℤ) (fuel : ℕ), bound ≤ fuel →
      let e := oneEst S E sim q.source storage junk message s
      ∃ run, Srch.start q.comb s.cfg.n (Srch.regEnv S s.cfg (fun _ => e) message (fun _ => false) s.init) false lt fuel = .ok run ∧
        let es := Srch.estimated s.cfg (run.log.map fun v => (v.cur, e (Srch.tableColumns s.cfg v.cur) (Srch.wanted s.cfg v.cur)))
        ∀ i k : ℕ, i < ms.metrics.metricsIn.length + ms.metrics.metricsOut.length → q.exo ≤ k → (k : ℤ) < q.length1 →
          es.flatMap (Srch.coefKept s.cfg i 0 k) = [] := by
  have hacc := (C122_accepted wd hw hi ho ht).1.1 ⟨ms, h⟩
  obtain ⟨l1, l2⟩ := hacc.coefficients.resolve_left hl
  refine ⟨by omega, ?_⟩
  obtain ⟨order, bound, -, -, hb⟩ := C122_search wd hw hi ho ht h S E sim junk message hc hmin hmout l2 h0 hs hn storage hst
  refine ⟨bound, fun lt fuel hf => ?_⟩
  obtain ⟨run, r1, -, r3, -, r5⟩ := hb lt fuel hf
  refine ⟨run, r1, fun i k hi' hk hk' => ?_⟩
  obtain ⟨-, r6⟩ := r5 i k hi' hk'
  rw [List.eq_nil_iff_forall_not_mem]
  intro x hx
  obtain ⟨v, hv, -, -, -, -, -, -, -, j, -, hj, -⟩ := r6 x hx
  have hlt := (List.getElem?_eq_some_iff.1 hj).1
  obtain ⟨g, e1, e2, e3⟩ := (r3 v hv).2 j (by rw [← (r3 v hv).1]; exact hlt)
  rw [hj, List.getElem?_eq_getElem e2] at e3
  have := hacc.elements g (List.mem_of_getElem? e1) ((k : ℤ) + 1) (by rw [Option.some.inj e3]; exact List.getElem_mem _)
  omega

/-- **C122**, violated: the dependent variable is accepted as an explanatory variable (see `C122_violated_accepted`), but no model with it is reported if coefficients
are wanted: its coefficient would be written before the start of the table. -/
theorem C122_violated_dependent {S : Fns} {u : DcSetup} {z : DcSizes} {E : ∀ k, Env k} {sim : Mat ℝ → Outcome SimResult} {source : Mat (Val ℝ)}
    {storage : List (Val ℝ)} {junk : ℕ → ℕ → Val ℝ} {cancel : ℕ → Bool} {cols cur : List ℤ} {t : DcTables} (he : u.checks.estimation = true) (hl : 0 < u.length1)
    (h0 : 0 ∈ cur) : estimateReg S u z E sim source storage junk cancel cols cur ≠ .ok (t, false) := by
  have hub : ∀ (l : List ℤ) (beta var : ℕ → ℝ) (i : ℕ) (t t' : DcTables), 0 ∈ l → writeCoefs u.length1 beta var l i t ≠ .ok t' := by
    intro l
    induction l with
    | nil => intro _ _ _ _ _ h; simp at h
    | cons b l ih =>
      intro beta var i t t' h
      unfold writeCoefs
      split_ifs with hb
      · simp
      · rcases List.mem_cons.1 h with h | h
        · omega
        · exact ih _ _ _ _ _ h
  intro h
  obtain ⟨ds, m, est, r, q, q', R⟩ := run_parts h
  obtain ⟨e, e1, -⟩ := estimated_ok he R.fit
  have hco := R.coef
  rw [e1] at hco
  unfold coefs at hco
  dsimp only at hco
  rw [if_pos hl] at hco
  exact hub _ _ _ _ _ _ h0 hco

/-! ## A concrete request -/

/-- Three rows: the choices 0, 1, 1; the constant; a variable. -/
noncomputable def setTable : Mat (Val ℝ) := ⟨3, 3, some [some 0, some 1, some 1, some 1, some 1, some 1, some 2, some 5, some 3]⟩

/-- Logit and probit models with the constant alone and with the variable. -/
noncomputable def exRequest : Request where
  source := setTable
  hasWeight := false
  form := .binary
  numEndo := 1
  numExo := 2
  comb := ⟨[[1], [2]], 1, 0⟩
  sizes := [1, 2]
  items := { keepBest := 0, keepAll := true, keepInclusion := false, keepMixture := false, cdfsAt := [], mult := 0 }
  keepModels := true
  length1 := 2
  metrics := { metricsIn := [.aic], metricsOut := [], trainRatio := .num 0, seed := 3 }
  weightedEval := false
  minIn := fun _ => none
  minOut := fun _ => none
  checks := {}
  costs := []
  roc := { epsilon := 0 }
  rocCosts := none
  addLogit := true
  addProbit := true

theorem setTable_wf : setTable.Wf := ⟨by decide, by decide, by simp [setTable], by decide⟩

theorem setTable_cells {i j : ℤ} {x : ℝ} (h : setTable.get i j = .ok (some x)) : (j = 0 → x ≤ 1) ∧ (j = 1 → x = 1) := by
  obtain ⟨⟨a, b, c, d⟩, -⟩ := get_inv h
  have b : i < 3 := b
  have d : j < 3 := d
  interval_cases i <;> interval_cases j <;> (have h := Option.some.inj (Outcome.ok.inj h); subst h; constructor <;> intro e <;> first | (cases e; done) | norm_num)

theorem setTable_top : TopOf setTable 0 1 := ⟨⟨1, rfl⟩, fun _ _ h => (setTable_cells h).1 rfl⟩

theorem trunc_two : trunc ((1 : ℝ) + 1) = 2 := by
  unfold trunc
  rw [if_pos (by norm_num)]
  norm_num

/-- The request is accepted and meets the hypotheses of C122. -/
theorem C122_example : Accepted exRequest (trunc ((1 : ℝ) + 1)) ∧ exRequest.source.Wf ∧ TopOf exRequest.source 0 1 ∧ Candidates exRequest ∧
    SOpt.Fresh exRequest.metrics.metricsIn exRequest.metrics.indexIn ∧ SOpt.Fresh exRequest.metrics.metricsOut exRequest.metrics.indexOut ∧
    ∃ ms, dcModelset exRequest 1 0 false = .ok ms ∧ ms.searchers.length = 4 := by
  have hf : SOpt.Fresh exRequest.metrics.metricsIn exRequest.metrics.indexIn := fun x i h => by cases h
  have hf' : SOpt.Fresh exRequest.metrics.metricsOut exRequest.metrics.indexOut := fun x i h => by cases h
  have hacc : Accepted exRequest (trunc ((1 : ℝ) + 1)) := by
    rw [trunc_two]
    refine ⟨le_rfl, by decide, ?_, ?_, Or.inr ⟨rfl, Or.inr (Or.inl (by simp [exRequest]))⟩, fun i x h => (setTable_cells h).2 rfl, ?_, fun _ _ => rfl, ?_, ?_, ?_⟩
    · rintro (⟨a, -⟩ | ⟨a, -⟩ | ⟨a, -⟩ | ⟨a, -⟩)
      · simp [exRequest] at a
      · simp [exRequest] at a
      · cases a
      · cases a
    · rintro ⟨a, -⟩; simp [exRequest] at a
    · intro b hb a ha
      have hb : b ∈ [[(1 : ℤ)], [2]] := hb
      have he : exRequest.exo = 2 := rfl
      rw [he]
      simp only [List.mem_cons, List.not_mem_nil, or_false] at hb
      rcases hb with rfl | rfl <;> (rw [List.mem_singleton.1 ha]; omega)
    · rintro (h | h) <;> simp [Later, exRequest] at h
    · intro s hs
      have hs : s ∈ [(1 : ℤ), 2] := hs
      simp only [List.mem_cons, List.not_mem_nil, or_false] at hs
      omega
    · intro _ _
      refine ⟨by decide, ?_, Or.inl (by simp [exRequest]), Or.inl rfl, Or.inl ⟨rfl, rfl⟩, by decide, fun h => absurd rfl h⟩
      intro s hs
      have hs : s ∈ [(1 : ℤ), 2] := hs
      simp only [List.mem_cons, List.not_mem_nil, or_false] at hs
      show (1 : ℤ) ≤ s
      omega
  refine ⟨hacc, setTable_wf, setTable_top, ⟨⟨rfl, rfl⟩, ?_, ?_⟩, hf, hf', ?_⟩
  · intro b hb a ha
    have hb : b ∈ [[(1 : ℤ)], [2]] := hb
    simp only [List.mem_cons, List.not_mem_nil, or_false] at hb
    rcases hb with rfl | rfl <;> rw [List.mem_singleton.1 ha] <;> decide
  · intro i j b b' a h1 h2 h3 h4
    have h1 : [[(1 : ℤ)], [2]][i]? = some b := h1
    have h2 : [[(1 : ℤ)], [2]][j]? = some b' := h2
    rcases i with _ | _ | i <;> rcases j with _ | _ | j <;> simp at h1 h2 ⊢ <;> subst h1 <;> subst h2 <;> simp at h3 h4 <;> omega
  · obtain ⟨ms, hms⟩ := (C122_accepted (big := 1) (tiny := 0) (parallel := false) setTable_wf (by simp [exRequest]) hf hf' setTable_top).1.2 hacc
    refine ⟨ms, hms, ?_⟩
    rw [(C122_searchers setTable_wf (by simp [exRequest]) hf hf' setTable_top hms).length_eq]
    rfl

/-- **C122**, violated: accepted are also requests with the dependent variable among the explanatory variables, and requests with a table of costs that is not one, if
the costs are the first metric. -/
theorem C122_violated_accepted :
    Accepted { exRequest with comb := ⟨[[1], [0]], 1, 0⟩ } 2 ∧
    ∃ c : Mat ℝ, ¬ CostTable c 2 ∧ Accepted { exRequest with metrics := { metricsIn := [.frequencyCost], metricsOut := [], trainRatio := .num 0, seed := 3 }, costs := [c] } 2 := by
  have hacc := C122_example.1
  rw [trunc_two] at hacc
  refine ⟨⟨hacc.two, hacc.exo, hacc.options, hacc.simulations, hacc.coefficients, hacc.constant, ?_, hacc.noCosts, hacc.costs, hacc.sizes, ?_⟩,
    ⟨0, 0, none⟩, fun h => absurd h.rows (by decide), ?_⟩
  · intro b hb a ha
    have hb : b ∈ [[(1 : ℤ)], [0]] := hb
    show 0 ≤ a ∧ a ≤ (2 : ℤ)
    simp only [List.mem_cons, List.not_mem_nil, or_false] at hb
    rcases hb with rfl | rfl <;> (rw [List.mem_singleton.1 ha]; omega)
  · intro a b
    have := hacc.searchers a b
    exact ⟨by decide, this.enough, this.metric, this.keep, this.form, this.rows, this.sims⟩
  · refine ⟨hacc.two, hacc.exo, ?_, ?_, Or.inr ⟨rfl, Or.inr (Or.inl (by simp))⟩, hacc.constant, hacc.elements, fun h => absurd (by simp) h, ?_, hacc.sizes, ?_⟩
    · rintro (⟨a, -⟩ | ⟨a, -⟩ | ⟨a, -⟩ | ⟨a, -⟩)
      · simp at a
      · simp at a
      · cases a
      · cases a
    · rintro ⟨a, -⟩; simp at a
    · rintro (h | h) <;> simp [Later] at h
    · intro a b
      have := hacc.searchers a b
      exact ⟨this.fixed, this.enough, Or.inl (by simp), this.keep, this.form, this.rows, fun h => absurd rfl h⟩

end Dc
end LDT
