import Verif.Lemmas.ChoiceSearch
/-! # Lemmas for C121: the cells of the table of metrics -/
namespace LDT
namespace Dc
open Op Di Mx Arr Score

/-- The probabilities in memory. -/
noncomputable def probsOf (S : Fns) (u : DcSetup) (D : Data) (β : ℕ → ℝ) (junk : ℕ → ℕ → Val ℝ) : ℕ → ℕ → Val ℝ :=
  probabilities S u.law u.form u.cuts D.k0 β D.n D.x junk

/-- The score the code computes. -/
noncomputable def brierOf (S : Fns) (u : DcSetup) (rows : ℕ) (mem : List (Val ℝ)) (D : Data) (β : ℕ → ℝ) (junk : ℕ → ℕ → Val ℝ) : Val ℝ :=
  brier rows (fun i => if u.hasWeight && u.weightedEval then mem.getD (D.n + i) none else some 1) (fun i => mem.getD i none)
    (fun i => probsOf S u D β junk i 1)

/-- What `inScores` writes. -/
structure Scores (S : Fns) (u : DcSetup) (rows : ℕ) (mem : List (Val ℝ)) (D : Data) (β : ℕ → ℝ) (junk : ℕ → ℕ → Val ℝ) (t q : DcTables)
    (pc pu pb : ℤ) (c a : Val ℝ) : Prop where
  icost : u.metrics.indexIn .frequencyCost = some pc
  iauc : u.metrics.indexIn .auc = some pu
  ibrier : u.metrics.indexIn .brier = some pb
  cost : 0 < pc → ∃ r, FCost.calculate u.costs (costObs D.n D.y fun i => if u.hasWeight && u.weightedEval then D.wt i else 1)
    (dense rows u.numChoices.toNat fun i j => (probsOf S u D β junk i j).getD 0) = .ok r ∧ c = some r.2
  auc : 0 < pu → aucOf u.roc none D.n D.y (fun i => (probsOf S u D β junk i 0).getD 0)
    (fun i => if u.hasWeight && u.weightedEval then D.wt i else 1) = .ok a
  cells : q = { t with metric := fun i => if 0 < pu ∧ (i : ℤ) = pu then a else if 0 < pc ∧ (i : ℤ) = pc then c
    else if 0 < pb ∧ (i : ℤ) = pb then brierOf S u rows mem D β junk else t.metric i }

theorem inScores_ok {S : Fns} {u : DcSetup} {rows : ℕ} {mem : List (Val ℝ)} {D : Data} {β : ℕ → ℝ} {junk : ℕ → ℕ → Val ℝ} {cancel : ℕ → Bool} {t q : DcTables}
    (h : inScores S u rows mem D β junk cancel t = .ok (q, false)) : ∃ pc pu pb c a, Scores S u rows mem D β junk t q pc pu pb c a := by
  unfold inScores at h
  obtain ⟨pc, i1, h⟩ := bind_ok h
  obtain ⟨pu, i2, h⟩ := bind_ok h
  obtain ⟨pb, i3, h⟩ := bind_ok h
  have i1 := pos_ok i1
  have i2 := pos_ok i2
  have i3 := pos_ok i3
  by_cases hany : pc > 0 ∨ pu > 0 ∨ pb > 0
  · rw [if_pos hany] at h
    dsimp only at h
    obtain ⟨t1, h1, h⟩ := bind_ok h
    by_cases c4 : pc > 0 ∧ cancel 4 = true
    · rw [if_pos c4] at h; cases h
    rw [if_neg c4] at h
    obtain ⟨t2, h2, h⟩ := bind_ok h
    by_cases c5 : pu > 0 ∧ cancel 5 = true
    · rw [if_pos c5] at h; cases h
    rw [if_neg c5] at h
    obtain ⟨t3, h3, h⟩ := bind_ok h
    have e3 : t3 = q := congrArg Prod.fst (Outcome.ok.inj h)
    subst e3
    have e1 : t1 = { t with metric := fun i => if 0 < pb ∧ (i : ℤ) = pb then brierOf S u rows mem D β junk else t.metric i } := by
      by_cases hb : pb > 0
      · rw [if_pos hb] at h1
        obtain ⟨-, -, rfl⟩ := setMetric_ok h1
        simp [hb, brierOf, probsOf]
      · rw [if_neg hb] at h1
        obtain rfl := Outcome.ok.inj h1
        simp [hb]
    have e2 : ∃ c, (0 < pc → ∃ r, FCost.calculate u.costs (costObs D.n D.y fun i => if u.hasWeight && u.weightedEval then D.wt i else 1)
        (dense rows u.numChoices.toNat fun i j => (probsOf S u D β junk i j).getD 0) = .ok r ∧ c = some r.2) ∧
        t2 = { t1 with metric := fun i => if 0 < pc ∧ (i : ℤ) = pc then c else t1.metric i } := by
      by_cases hc : pc > 0
      · rw [if_pos hc] at h2
        obtain ⟨r, hr, h2⟩ := bind_ok h2
        obtain ⟨-, -, rfl⟩ := setMetric_ok h2
        exact ⟨some r.2, fun _ => ⟨r, hr, rfl⟩, by simp [hc]⟩
      · rw [if_neg hc] at h2
        obtain rfl := Outcome.ok.inj h2
        exact ⟨none, fun h => absurd h hc, by simp [hc]⟩
    have e3 : ∃ a, (0 < pu → aucOf u.roc none D.n D.y (fun i => (probsOf S u D β junk i 0).getD 0)
        (fun i => if u.hasWeight && u.weightedEval then D.wt i else 1) = .ok a) ∧
        t3 = { t2 with metric := fun i => if 0 < pu ∧ (i : ℤ) = pu then a else t2.metric i } := by
      by_cases hc : pu > 0
      · rw [if_pos hc] at h3
        obtain ⟨r, hr, h3⟩ := bind_ok h3
        obtain ⟨-, -, rfl⟩ := setMetric_ok h3
        exact ⟨r, fun _ => hr, by simp [hc]⟩
      · rw [if_neg hc] at h3
        obtain rfl := Outcome.ok.inj h3
        exact ⟨none, fun h => absurd h hc, by simp [hc]⟩
    obtain ⟨c, hc, e2⟩ := e2
    obtain ⟨a, ha, e3⟩ := e3
    exact ⟨pc, pu, pb, c, a, i1, i2, i3, hc, ha, by rw [e3, e2, e1]⟩
  · rw [if_neg hany] at h
    have e : t = q := congrArg Prod.fst (Outcome.ok.inj h)
    subst e
    push Not at hany
    exact ⟨pc, pu, pb, none, none, i1, i2, i3, fun h => by omega, fun h => by omega,
      by simp [show ¬ 0 < pc by omega, show ¬ 0 < pu by omega, show ¬ 0 < pb by omega]⟩

/-- What `inMetrics` writes for an estimated model. -/
structure InCells (S : Fns) (u : DcSetup) (rows : ℕ) (mem : List (Val ℝ)) (D : Data) {k : ℕ} (e : Est k) (junk : ℕ → ℕ → Val ℝ) (q : DcTables)
    (pa ps pc pu pb : ℤ) (c a : Val ℝ) : Prop where
  iaic : u.metrics.indexIn .aic = some pa
  isic : u.metrics.indexIn .sic = some ps
  scores : Scores S u rows mem D (ext e.beta) junk { tables0 with metric := fun i => (if 0 ≤ ps ∧ (i : ℤ) = ps then Srch.toVal e.sic else
    if 0 ≤ pa ∧ (i : ℤ) = pa then Srch.toVal e.aic else some 0) } q pc pu pb c a

theorem inMetrics_ok {S : Fns} {u : DcSetup} {rows : ℕ} {mem : List (Val ℝ)} {D : Data} {e : Est (kOf u.form u.cuts D)} {junk : ℕ → ℕ → Val ℝ}
    {cancel : ℕ → Bool} {q : DcTables} (h : inMetrics S u rows mem D (some e) junk cancel tables0 = .ok (q, false)) :
    ∃ pa ps pc pu pb c a, InCells S u rows mem D e junk q pa ps pc pu pb c a := by
  unfold inMetrics at h
  dsimp only at h
  obtain ⟨pa, i1, h⟩ := bind_ok h
  obtain ⟨t1, h1, h⟩ := bind_ok h
  obtain ⟨ps, i2, h⟩ := bind_ok h
  obtain ⟨t2, h2, h⟩ := bind_ok h
  obtain ⟨pc, pu, pb, c, a, hs⟩ := inScores_ok h
  have e1 := setIf_ok (le_refl 0) h1
  have e2 := setIf_ok (le_refl 0) h2
  rw [e2, e1] at hs
  simp only [zero_add] at hs
  exact ⟨pa, ps, pc, pu, pb, c, a, pos_ok i1, pos_ok i2, hs⟩

/-- What `outMetrics` writes. -/
structure OutCells (u : DcSetup) (r : SimResult) (t q : DcTables) (pc pu pb : ℤ) (mean : Val ℝ) : Prop where
  icost : u.metrics.indexOut .frequencyCost = some pc
  iauc : u.metrics.indexOut .auc = some pu
  ibrier : u.metrics.indexOut .brier = some pb
  avg : Mat.mean ⟨r.ratios.length, 1, some r.ratios⟩ false = .ok mean
  cells : q = { t with metric := fun i => if 0 ≤ pb ∧ (i : ℤ) = u.metrics.metricsIn.length + pb then r.brier
    else if 0 ≤ pu ∧ (i : ℤ) = u.metrics.metricsIn.length + pu then r.auc
    else if 0 ≤ pc ∧ (i : ℤ) = u.metrics.metricsIn.length + pc then mean else t.metric i }

theorem outMetrics_ok {u : DcSetup} {r : SimResult} {t q : DcTables} (h : outMetrics u (some r) t = .ok q) :
    ∃ pc pu pb mean, OutCells u r t q pc pu pb mean := by
  unfold outMetrics at h
  dsimp only at h
  obtain ⟨pc, i1, h⟩ := bind_ok h
  obtain ⟨mean, hm, h⟩ := bind_ok h
  obtain ⟨t1, h1, h⟩ := bind_ok h
  obtain ⟨pu, i2, h⟩ := bind_ok h
  obtain ⟨t2, h2, h⟩ := bind_ok h
  obtain ⟨pb, i3, h⟩ := bind_ok h
  have z : (0 : ℤ) ≤ u.metrics.metricsIn.length := by omega
  have e1 := setIf_ok z h1
  have e2 := setIf_ok z h2
  have e3 := setIf_ok z h
  exact ⟨pc, pu, pb, mean, pos_ok i1, pos_ok i2, pos_ok i3, hm, by rw [e3, e2, e1]⟩

/-- Out-of-sample metrics are behind the others. -/
theorem out_keeps {u : DcSetup} {r : Option SimResult} {t q : DcTables} (h : outMetrics u r t = .ok q) :
    (∀ i < u.metrics.metricsIn.length, q.metric i = t.metric i) ∧ q.mean = t.mean ∧ q.variance = t.variance := by
  cases r with
  | none =>
    have : t = q := Outcome.ok.inj h
    subst this
    exact ⟨fun _ _ => rfl, rfl, rfl⟩
  | some r =>
    obtain ⟨pc, pu, pb, mean, hc⟩ := outMetrics_ok h
    rw [hc.cells]
    refine ⟨fun i hi => ?_, rfl, rfl⟩
    show (if _ then _ else _) = _
    rw [if_neg (by omega), if_neg (by omega), if_neg (by omega)]

theorem coefs_metric {u : DcSetup} {k : ℕ} {est : Option (Est k)} {cur : List ℤ} {t q : DcTables} (hn : cur.Nodup) (h : coefs u est cur t = .ok q) :
    q.metric = t.metric ∧ q.extra = lawCode u.law := by
  unfold coefs at h
  dsimp only at h
  cases est with
  | none => rw [← Outcome.ok.inj h]; exact ⟨rfl, rfl⟩
  | some e =>
    dsimp only at h
    split_ifs at h
    · obtain ⟨h1, h2, -⟩ := writeCoefs_ok _ _ _ _ hn h
      exact ⟨h1, h2⟩
    · rw [← Outcome.ok.inj h]; exact ⟨rfl, rfl⟩

/-- Two metrics are not at the same position. -/
theorem position_inj {α : Type} {l : List α} {x y : α} {i j : ℤ} (hx : SOpt.Position l x i) (hy : SOpt.Position l y j) (hi : 0 ≤ i) (hij : j = i) : x = y := by
  subst hij
  rcases hx with ⟨-, h⟩ | ⟨k, h1, h2, -⟩
  · omega
  rcases hy with ⟨-, h⟩ | ⟨k', h1', h2', -⟩
  · omega
  obtain rfl : k = k' := by omega
  rw [h2] at h2'
  exact Option.some.inj h2'

theorem position_lt {α : Type} {l : List α} {x : α} {i : ℤ} (hx : SOpt.Position l x i) : i < l.length := by
  rcases hx with ⟨-, h⟩ | ⟨k, h1, h2, -⟩
  · omega
  · have := (List.getElem?_eq_some_iff.mp h2).1; omega

theorem indexed_in {m : SOpt.Metrics ℝ} (h : Indexed m) {g : Gof} {i : ℤ} (hi : m.indexIn g = some i) : SOpt.Position m.metricsIn g i := by
  obtain ⟨j, h1, h2⟩ := h.1 g
  rw [hi] at h1; rw [Option.some.inj h1]; exact h2

theorem indexed_out {m : SOpt.Metrics ℝ} (h : Indexed m) {g : Sco} {i : ℤ} (hi : m.indexOut g = some i) : SOpt.Position m.metricsOut g i := by
  obtain ⟨j, h1, h2⟩ := h.2 g
  rw [hi] at h1; rw [Option.some.inj h1]; exact h2

/-- The cells of the in-sample metrics. -/
theorem in_cells {S : Fns} {u : DcSetup} {rows : ℕ} {mem : List (Val ℝ)} {D : Data} {k : ℕ} {e : Est k} {junk : ℕ → ℕ → Val ℝ} {q : DcTables}
    {pa ps pc pu pb : ℤ} {c a : Val ℝ} (h : InCells S u rows mem D e junk q pa ps pc pu pb c a) (hx : Indexed u.metrics) :
    (∀ i : ℕ, pa = i → q.metric i = Srch.toVal e.aic) ∧ (∀ i : ℕ, ps = i → q.metric i = Srch.toVal e.sic) ∧
    (∀ i : ℕ, pc = i → q.metric i = if i = 0 then some 0 else c) ∧ (∀ i : ℕ, pu = i → q.metric i = if i = 0 then some 0 else a) ∧
    (∀ i : ℕ, pb = i → q.metric i = if i = 0 then some 0 else brierOf S u rows mem D (ext e.beta) junk) := by
  have xa := indexed_in hx h.iaic
  have xs := indexed_in hx h.isic
  have xc := indexed_in hx h.scores.icost
  have xu := indexed_in hx h.scores.iauc
  have xb := indexed_in hx h.scores.ibrier
  have nas : 0 ≤ pa → ps ≠ pa := fun h0 hh => by cases position_inj xa xs h0 hh
  have nac : 0 ≤ pa → pc ≠ pa := fun h0 hh => by cases position_inj xa xc h0 hh
  have nau : 0 ≤ pa → pu ≠ pa := fun h0 hh => by cases position_inj xa xu h0 hh
  have nab : 0 ≤ pa → pb ≠ pa := fun h0 hh => by cases position_inj xa xb h0 hh
  have nsc : 0 ≤ ps → pc ≠ ps := fun h0 hh => by cases position_inj xs xc h0 hh
  have nsu : 0 ≤ ps → pu ≠ ps := fun h0 hh => by cases position_inj xs xu h0 hh
  have nsb : 0 ≤ ps → pb ≠ ps := fun h0 hh => by cases position_inj xs xb h0 hh
  have ncu : 0 ≤ pc → pu ≠ pc := fun h0 hh => by cases position_inj xc xu h0 hh
  have ncb : 0 ≤ pc → pb ≠ pc := fun h0 hh => by cases position_inj xc xb h0 hh
  have nub : 0 ≤ pu → pb ≠ pu := fun h0 hh => by cases position_inj xu xb h0 hh
  rw [h.scores.cells]
  dsimp only
  refine ⟨fun i hi => ?_, fun i hi => ?_, fun i hi => ?_, fun i hi => ?_, fun i hi => ?_⟩
  · rw [if_neg (by omega), if_neg (by omega), if_neg (by omega), if_neg (by omega), if_pos (by omega)]
  · rw [if_neg (by omega), if_neg (by omega), if_neg (by omega), if_pos (by omega)]
  · by_cases h0 : i = 0
    · rw [if_neg (by omega), if_neg (by omega), if_neg (by omega), if_neg (by omega), if_neg (by omega), if_pos h0]
    · rw [if_neg (by omega), if_pos (by omega), if_neg h0]
  · by_cases h0 : i = 0
    · rw [if_neg (by omega), if_neg (by omega), if_neg (by omega), if_neg (by omega), if_neg (by omega), if_pos h0]
    · rw [if_pos (by omega), if_neg h0]
  · by_cases h0 : i = 0
    · rw [if_neg (by omega), if_neg (by omega), if_neg (by omega), if_neg (by omega), if_neg (by omega), if_pos h0]
    · rw [if_neg (by omega), if_neg (by omega), if_pos (by omega), if_neg h0]

/-- The cells of the out-of-sample metrics. -/
theorem out_cells {u : DcSetup} {r : SimResult} {t q : DcTables} {pc pu pb : ℤ} {mean : Val ℝ} (h : OutCells u r t q pc pu pb mean) (hx : Indexed u.metrics) :
    (∀ i : ℕ, pc = i → q.metric (u.metrics.metricsIn.length + i) = mean) ∧ (∀ i : ℕ, pu = i → q.metric (u.metrics.metricsIn.length + i) = r.auc) ∧
    (∀ i : ℕ, pb = i → q.metric (u.metrics.metricsIn.length + i) = r.brier) := by
  have xc := indexed_out hx h.icost
  have xu := indexed_out hx h.iauc
  have xb := indexed_out hx h.ibrier
  have ncu : 0 ≤ pc → pu ≠ pc := fun h0 hh => by cases position_inj xc xu h0 hh
  have ncb : 0 ≤ pc → pb ≠ pc := fun h0 hh => by cases position_inj xc xb h0 hh
  have nub : 0 ≤ pu → pb ≠ pu := fun h0 hh => by cases position_inj xu xb h0 hh
  rw [h.cells]
  dsimp only
  refine ⟨fun i hi => ?_, fun i hi => ?_, fun i hi => ?_⟩
  · rw [if_neg (by omega), if_neg (by omega), if_pos (by omega)]
  · rw [if_neg (by omega), if_pos (by omega)]
  · rw [if_pos (by omega)]

end Dc
end LDT
