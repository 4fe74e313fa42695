import Verif.Lemmas.ChoiceSet
/-! # The set of the searchers of discrete choice models -/
namespace LDT
namespace Dc
open Op Di Mx Arr Score

/-! ## What is accepted -/

theorem column_top {m : Mat (Val ℝ)} (w : m.Wf) {j : ℤ} (h0 : 0 ≤ j) (h1 : j < m.cols) :
    (∃ x k, m.maximumInColumn j = .ok (some (x, k)) ∧ TopOf m j x) ∨ (m.maximumInColumn j = .ok none ∧ ∀ i x, m.get i j ≠ .ok (some x)) := by
  obtain ⟨xs, hxs⟩ := exists_isColumn w h0 h1
  obtain ⟨r, hr, he⟩ := ((C67_rows_columns m).2 j xs hxs).1
  have cell : ∀ i x, m.get i j = .ok (some x) → some x ∈ xs := by
    intro i x hi
    obtain ⟨hin, -⟩ := get_inv hi
    obtain ⟨k, rfl⟩ := Int.eq_ofNat_of_zero_le hin.1
    have hk : k < xs.length := by have := hxs.len; have := hin.2.1; omega
    have := hxs.cell k xs[k] (List.getElem?_eq_getElem hk)
    rw [hi] at this
    rw [Outcome.ok.inj this]
    exact List.getElem_mem hk
  cases r with
  | none => exact Or.inr ⟨hr, fun i x hi => he x (cell i x hi)⟩
  | some r =>
    obtain ⟨v, k⟩ := r
    obtain ⟨q, rfl, e1, e2, e3⟩ := he
    refine Or.inl ⟨v, q, hr, ⟨q, hxs.cell q _ e1⟩, fun i y hi => ?_⟩
    rcases e2 y (cell i y hi) with h | h
    · exact h.le
    · exact le_of_lt h

theorem top_unique {m : Mat (Val ℝ)} {j : ℤ} {x y : ℝ} (hx : TopOf m j x) (hy : TopOf m j y) : x = y := by
  obtain ⟨⟨i, hi⟩, hx⟩ := hx
  obtain ⟨⟨k, hk⟩, hy⟩ := hy
  exact le_antisymm (hy i x hi) (hx k y hk)

theorem ones_iff {m : Mat (Val ℝ)} (w : m.Wf) {j : ℤ} (h0 : 0 ≤ j) (h1 : j < m.cols) :
    ∃ b, m.equalsValueColumn j (some 1) 0 false true = .ok b ∧ (b = true ↔ Ones m j) := by
  obtain ⟨b, hb, e⟩ := (C64_equals_value m w (some 1) 0 false true).2 j h0 h1
  refine ⟨b, hb, e.trans ⟨fun h i x hi => ?_, fun h i x hi => ?_⟩⟩
  · rcases h i _ hi with ⟨-, hn | hn⟩ | ⟨hn, -⟩ | ⟨a, c, ha, hc, hd⟩
    · cases hn
    · cases hn
    · cases hn
    · cases ha; cases hc
      have := abs_nonpos_iff.1 hd
      linarith
  · cases x with
    | none => exact Or.inl ⟨rfl, Or.inr rfl⟩
    | some x =>
      have := h i x hi
      exact Or.inr (Or.inr ⟨1, x, rfl, rfl, by rw [this]; simp⟩)

theorem searchable_iff (q : Request) {metrics : SOpt.Metrics ℝ} {checks : SOpt.Checks ℝ} {choices : ℤ} (h2 : 2 ≤ choices) (hexo : 1 ≤ q.exo)
    (hu : q.metrics.update true false = .ok metrics) (hc : q.checks.update metrics = .ok checks)
    (hl : q.length1 = 0 ∨ q.length1 = q.exo + choices - 2) (hpos : ∀ s ∈ q.sizes, 0 < s) (hs : q.sizes ≠ []) :
    (∀ s ∈ q.sizes, OneFits q metrics checks ((metrics.metricsIn.length : ℤ) + metrics.metricsOut.length) choices s) ↔ Searchable q choices := by
  obtain ⟨u1, u2, u3, u4, -, -, -, u8, u9⟩ := SOpt.C120_updated _ _ _ _ hu
  obtain ⟨ol, -, -⟩ := SOpt.C120_orientation _ _ _ _ hu
  obtain ⟨-, -, -, -, -, -, -, -, ce, -⟩ := SOpt.C120_checks _ _ _ hc
  have hnc : ¬ SOpt.Contradiction q.metrics false := fun hn => by
    rw [(SOpt.C120_refused q.metrics true false).1.2 hn] at hu; cases hu
  have hsim : (q.setup metrics checks choices .logit).simulates = true ↔ q.metrics.metricsOut ≠ [] := by
    unfold DcSetup.simulates
    show (decide (metrics.simFix > 0) && decide (metrics.metricsOut.length > 0)) = true ↔ _
    rw [u2, u3, Bool.and_eq_true, decide_eq_true_iff, decide_eq_true_iff]
    constructor
    · rintro ⟨-, h⟩; exact List.length_pos_iff.1 h
    · intro h
      refine ⟨?_, List.length_pos_iff.2 h⟩
      by_contra hn
      exact hnc (.noSimulation h (by omega))
  have hlen : ((metrics.metricsIn.length : ℤ) + metrics.metricsOut.length).toNat = q.metrics.metricsIn.length + q.metrics.metricsOut.length := by
    rw [u1, u2]; omega
  have hne : q.metrics.metricsIn.length + q.metrics.metricsOut.length ≠ 0 ↔ q.metrics.metricsIn ≠ [] ∨ q.metrics.metricsOut ≠ [] := by
    rw [← List.length_pos_iff, ← List.length_pos_iff]; omega
  have hl1 : q.length1.toNat ≠ 0 ↔ q.length1 ≠ 0 := by omega
  have hfit : SimFits (q.setup metrics checks choices .logit) q.source.rows ↔ FormFits q.form choices ∧
      (q.costs ≠ [] ∨ Sco.auc ∈ q.metrics.metricsOut) ∧ 0 ≤ q.metrics.trainFix ∧
      (q.metrics.trainFix = 0 → ∃ r, q.metrics.trainRatio = .num r ∧ 0 < r ∧ r < 1 ∧ 0 < Split.trainSize q.source.rows r 0 ∧
        Split.trainSize q.source.rows r 0 ≠ q.source.rows) ∧ (0 < q.metrics.trainFix → q.metrics.trainFix ≠ q.source.rows) := by
    unfold SimFits
    show FormFits q.form choices ∧ (q.costs ≠ [] ∨ Sco.auc ∈ metrics.metricsOut) ∧ 0 ≤ metrics.trainFix ∧ (metrics.trainFix = 0 →
      0 < (Srch.toVal metrics.trainRatio).getD 0 ∧ (Srch.toVal metrics.trainRatio).getD 0 < 1) ∧
      0 < Split.trainSize q.source.rows ((Srch.toVal metrics.trainRatio).getD 0) metrics.trainFix ∧
      Split.trainSize q.source.rows ((Srch.toVal metrics.trainRatio).getD 0) metrics.trainFix ≠ q.source.rows ↔ _
    rw [u2, u4]
    refine and_congr_right fun _ => and_congr_right fun _ => and_congr_right fun h0 => ?_
    rcases h0.eq_or_lt with he | hp
    · rw [u9 (by omega), ← he]
      constructor
      · rintro ⟨a, b, c⟩
        obtain ⟨a1, a2⟩ := a rfl
        cases hr : q.metrics.trainRatio with
        | num r =>
          rw [hr] at a1 a2 b c
          exact ⟨fun _ => ⟨r, rfl, a1, a2, b, c⟩, fun h => absurd h (lt_irrefl _)⟩
        | _ => rw [hr] at a1; exact absurd a1 (lt_irrefl _)
      · rintro ⟨a, -⟩
        obtain ⟨r, hr, a1, a2, a3, a4⟩ := a rfl
        rw [hr]
        exact ⟨fun _ => ⟨a1, a2⟩, a3, a4⟩
    · have e : ∀ r : ℝ, Split.trainSize q.source.rows r q.metrics.trainFix = q.metrics.trainFix := fun r => if_pos hp
      rw [e]
      constructor
      · rintro ⟨-, -, c⟩
        exact ⟨fun h => by omega, fun _ => c⟩
      · rintro ⟨-, c⟩
        exact ⟨fun h => by omega, hp, c hp⟩
  have hwants : q.metrics.metricsIn ≠ [] → checks.estimation = true := fun h => ce.2 (Or.inr (Or.inl (by rw [u1]; exact h)))
  unfold OneFits
  rw [hlen, ol, hl1, hsim, hfit]
  constructor
  · intro h
    obtain ⟨s, hss⟩ := List.exists_mem_of_ne_nil _ hs
    obtain ⟨-, a2, -, a4, a5, a6, a7, a8⟩ := h s hss
    refine ⟨Nat.pos_of_ne_zero a5, fun s hs => (h s hs).1, hne.1 a2, a4, ?_, a6, fun ho => (a8 ho).2⟩
    rcases hne.1 a2 with hi | ho
    · exact a7 (hwants hi)
    · exact (a8 ho).1
  · intro h s hss
    exact ⟨h.enough s hss, hne.2 h.metric, rfl, h.keep, h.fixed.ne', h.rows, fun _ => h.form, fun ho => ⟨h.form, h.sims ho⟩⟩

/-- What a successful construction of the set consists of. -/
structure SetOf (q : Request) (big tiny : ℝ) (parallel : Bool) (choices : ℤ) (ms : DcModelset) : Prop where
  number : ms.numChoices = choices
  metrics : q.metrics.update true false = .ok ms.metrics
  checks : q.checks.update ms.metrics = .ok ms.checks
  made : makeSearchers q big tiny ms.metrics ms.checks ((ms.metrics.metricsIn.length + ms.metrics.metricsOut.length : ℕ) : ℤ) 1 choices 0 q.sizes = .ok ms.searchers
  work : ms.work = workSize parallel (ms.searchers.map fun s => s.sizes.work)
  workI : ms.workI = workSize parallel (ms.searchers.map fun s => s.sizes.workI)

section
variable {q : Request} {big tiny : ℝ} {parallel : Bool} {top : ℝ}

theorem set_of (wd : q.source.Wf) (hw : ∀ c ∈ q.costs, c.Wf) (hi : SOpt.Fresh q.metrics.metricsIn q.metrics.indexIn)
    (ho : SOpt.Fresh q.metrics.metricsOut q.metrics.indexOut) (ht : TopOf q.source 0 top) :
    Decided (dcModelset q big tiny parallel) (Accepted q (trunc (top + 1))) ∧
    ∀ ms, dcModelset q big tiny parallel = .ok ms → SetOf q big tiny parallel (trunc (top + 1)) ms := by
  have hcols : 0 < q.source.cols := by
    obtain ⟨⟨i, hi⟩, -⟩ := ht
    have := (get_inv hi).1.2.2.2
    exact this
  rcases column_top wd le_rfl hcols with ⟨x, k, hx, htx⟩ | ⟨-, hn⟩
  swap
  · obtain ⟨⟨i, hi⟩, -⟩ := ht
    exact absurd hi (hn i top)
  obtain rfl := top_unique ht htx
  clear htx
  have hexo : q.source.cols - (if q.hasWeight then 2 else 1) = q.exo := by
    unfold Request.exo front
    cases q.hasWeight <;> rfl
  have hfr : ((front q.hasWeight : ℕ) : ℤ) = if q.hasWeight then 2 else 1 := by
    unfold front
    cases q.hasWeight <;> rfl
  generalize hch : trunc (top + 1) = choices
  have dm : Decided (q.metrics.update true false) (¬ SOpt.Contradiction q.metrics false) :=
    ⟨(SOpt.C120_refused q.metrics true false).2, fun h => (SOpt.C120_refused q.metrics true false).1.2 (not_not.1 h)⟩
  unfold dcModelset
  rw [hx, Outcome.ok_bind, hexo]
  dsimp only
  rw [hch]
  refine ⟨?_, fun ms h => ?_⟩
  · by_cases hA : 2 ≤ choices
    swap
    · rw [if_pos (by omega)]
      exact ⟨fun h => absurd h.two hA, fun _ => rfl⟩
    rw [if_neg (by omega)]
    by_cases hB : 1 ≤ q.exo
    swap
    · rw [if_pos (by omega)]
      exact ⟨fun h => absurd h.exo hB, fun _ => rfl⟩
    rw [if_neg (by omega)]
    have one := ones_iff wd (j := front q.hasWeight) (by omega) (by have : q.exo = q.source.cols - front q.hasWeight := rfl; omega)
    rw [hfr] at one
    obtain ⟨b, hb, hones⟩ := one
    by_cases hC : SOpt.Contradiction q.metrics false
    · rw [(SOpt.C120_refused q.metrics true false).1.2 hC]
      exact ⟨fun h => absurd hC h.options, fun _ => rfl⟩
    obtain ⟨m, hmu⟩ := dm.yes hC
    obtain ⟨u1, u2, u3, -⟩ := SOpt.C120_updated _ _ _ _ hmu
    have hidx : Indexed m := by
      have := SOpt.C120_positions_partial _ _ _ _ hmu hi ho
      rw [← u1, ← u2] at this
      exact this
    rw [hmu, Outcome.ok_bind]
    have dc : Decided (q.checks.update m) (¬ (0 < q.metrics.simFix ∧ q.metrics.simFix < q.checks.minOutSim)) := by
      rw [← u3]
      exact ⟨(SOpt.C120_checks_refused q.checks m).2, fun h => (SOpt.C120_checks_refused q.checks m).1.2 (not_not.1 h)⟩
    by_cases hD : 0 < q.metrics.simFix ∧ q.metrics.simFix < q.checks.minOutSim
    · rw [dc.no (not_not.2 hD)]
      exact ⟨fun h => absurd hD h.simulations, fun _ => rfl⟩
    obtain ⟨k', hck⟩ := dc.yes hD
    have hest : k'.estimation = true ↔ q.checks.estimation = true ∨ SOpt.WantsEstimation q.checks q.metrics := by
      obtain ⟨-, -, -, -, -, -, -, -, ce, -⟩ := SOpt.C120_checks _ _ _ hck
      rw [ce]
      unfold SOpt.WantsEstimation
      rw [u1]
    rw [hck, Outcome.ok_bind, (SOpt.C120_items m 1).2 one_pos, Outcome.ok_bind]
    dsimp only
    by_cases hE : q.length1 = 0 ∨ (q.length1 = q.exo + choices - 2 ∧ k'.estimation = true)
    swap
    · have hacc : ¬ Accepted q choices := fun h => hE (by rw [hest]; exact h.coefficients)
      refine ⟨fun h => absurd h hacc, fun _ => ?_⟩
      by_cases h1 : q.length1 ≠ 0 ∧ q.length1 ≠ q.exo + choices - 2
      · rw [if_pos h1]
      rw [if_neg h1, if_pos]
      push Not at h1 hE
      refine ⟨hE.1, ?_⟩
      have := hE.2 (h1 hE.1)
      simpa using this
    rw [if_neg (by rintro ⟨h1, h2⟩; exact hE.elim h1 fun h => h2 h.1), if_neg (by rintro ⟨h1, h2⟩; exact hE.elim h1 fun h => by rw [h.2] at h2; cases h2)]
    rw [hb, Outcome.ok_bind]
    refine (Decided.guard fun _ => Decided.bind (elements_decided q.exo q.comb.partitions) fun _ _ =>
      Decided.bind (costs_decided hidx hw (by omega)) fun _ _ =>
      Decided.bind (all_decided q big tiny k' _ hidx hA q.sizes 0) fun _ _ => Decided.pure _).congr ?_
    have hsr : (∀ s ∈ q.sizes, 0 < s ∧ (q.addLogit = true ∨ q.addProbit = true →
        OneFits q m k' ((m.metricsIn.length + m.metricsOut.length : ℕ) : ℤ) choices s)) ↔
        (∀ s ∈ q.sizes, 0 < s) ∧ (q.sizes ≠ [] → q.addLogit = true ∨ q.addProbit = true → Searchable q choices) := by
      push_cast
      constructor
      · intro h
        refine ⟨fun s hs => (h s hs).1, fun hne hl => ?_⟩
        exact (searchable_iff q hA hB hmu hck (hE.imp id And.left) (fun s hs => (h s hs).1) hne).1 fun s hs => (h s hs).2 hl
      · rintro ⟨h1, h2⟩ s hs
        refine ⟨h1 s hs, fun hl => ?_⟩
        have hne := List.ne_nil_of_mem hs
        exact (searchable_iff q hA hB hmu hck (hE.imp id And.left) h1 hne).2 (h2 hne hl) s hs
    push_cast at hsr
    rw [and_true, Bool.not_eq_false, hones, ← hfr, u1, u2]
    rw [u1, u2] at hsr
    rw [hsr]
    constructor
    · rintro ⟨a, b, ⟨c, d⟩, e, f⟩
      exact ⟨hA, hB, hC, hD, by rw [← hest]; exact hE, a, b, c, d, e, f⟩
    · intro h
      exact ⟨h.constant, h.elements, ⟨h.noCosts, h.costs⟩, h.sizes, h.searchers⟩
  · by_cases h1 : choices < 2
    · rw [if_pos h1] at h; cases h
    rw [if_neg h1] at h
    by_cases h2 : q.exo < 1
    · rw [if_pos h2] at h; cases h
    rw [if_neg h2] at h
    obtain ⟨m, e1, h⟩ := bind_ok h
    obtain ⟨k', e2, h⟩ := bind_ok h
    obtain ⟨it, e3, h⟩ := bind_ok h
    rw [(SOpt.C120_items m 1).2 one_pos] at e3
    obtain rfl := Outcome.ok.inj e3
    dsimp only at h
    by_cases h3 : q.length1 ≠ 0 ∧ q.length1 ≠ q.exo + choices - 2
    · rw [if_pos h3] at h; cases h
    rw [if_neg h3] at h
    by_cases h4 : q.length1 ≠ 0 ∧ k'.estimation = false
    · rw [if_pos h4] at h; cases h
    rw [if_neg h4] at h
    obtain ⟨b, -, h⟩ := bind_ok h
    by_cases h5 : b = false
    · rw [if_pos h5] at h; cases h
    rw [if_neg h5] at h
    obtain ⟨_, -, h⟩ := bind_ok h
    obtain ⟨_, -, h⟩ := bind_ok h
    obtain ⟨ss, e6, h⟩ := bind_ok h
    obtain rfl := Outcome.ok.inj h
    refine ⟨rfl, e1, e2, ?_, rfl, rfl⟩
    push_cast
    exact e6

/-- **C122.** The set is made exactly for the requests that are possible; for all others an exception is thrown. -/
theorem C122_accepted (wd : q.source.Wf) (hw : ∀ c ∈ q.costs, c.Wf) (hi : SOpt.Fresh q.metrics.metricsIn q.metrics.indexIn)
    (ho : SOpt.Fresh q.metrics.metricsOut q.metrics.indexOut) (ht : TopOf q.source 0 top) :
    ((∃ ms, dcModelset q big tiny parallel = .ok ms) ↔ Accepted q (trunc (top + 1))) ∧
    (¬ Accepted q (trunc (top + 1)) → dcModelset q big tiny parallel = .throws) :=
  ⟨(set_of wd hw hi ho ht).1.ok_iff, (set_of wd hw hi ho ht).1.no⟩

/-- **C122**, violated: if the first column has no number, the number of choices is not defined (the cast of minus infinity). -/
theorem C122_violated_no_number (wd : q.source.Wf) (hc : 0 < q.source.cols) (hn : ∀ i x, q.source.get i 0 ≠ .ok (some x)) :
    dcModelset q big tiny parallel = .ub := by
  rcases column_top wd le_rfl hc with ⟨x, k, hx, ⟨i, hi⟩, -⟩ | ⟨hx, -⟩
  · exact absurd hi (hn i x)
  · unfold dcModelset
    rw [hx, Outcome.ok_bind]

end

end Dc
end LDT
