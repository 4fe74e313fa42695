import Verif.Props.ChoiceExtended
/-! # C116: scores, memory, and runs that go wrong -/
namespace LDT
namespace Dc
open Op Di Mx Arr

section
variable {S : Fns} (hS : S.Good) {u : ExtSetup} {self : ExtSizes} {E : ∀ k, Env k} {other : Outcome (Ext u.form u.cuts)} {data : Mat (Val ℝ)}
  {storage : List (Val ℝ)} {ols : Bool} {start : ∀ k, Option (Fin k → ℝ)}
  {fore : Option (ℕ × (ℕ → ℕ → ℝ))} {junk : ℕ → ℕ → Val ℝ} {r : Ext u.form u.cuts}

theorem rocObs_congr {n : ℕ} {y s s' w x : ℕ → ℝ} (h : ∀ i < n, s i = s' i) : rocObs n y s w x = rocObs n y s' w x :=
  List.map_congr_left fun i hi => by rw [h i (List.mem_range.1 hi)]

include hS in
/-- **C116.** `Auc` of a model of two choices (default options, no costs): the weighted share of the pairs of an observation with another choice
than 0 and an observation of choice 0 in which choice 0 is more probable for the latter (ties count one half). -/
theorem C116_auc (hb : u.form = .binary) (hc : u.numChoices = 2) (hd : u.details = true) (hp : Roc.Plain u.roc) (hx : u.rocCosts = none)
    (h : extended S u self E other data storage ols start fore junk = .ok r) (hE : ∀ r, other ≠ .ok r) :
    let obs := rocObs r.data.n r.data.y
      (fun i => chance u.law.cdf 1 r.data.k0 (ext r.est.beta) (index r.data.k0 r.data.x (ext r.est.beta) i) 0) (u.evalWeight r.data) fun _ => 1
    ((Roc.positives obs).map (·.2)).sum ≠ 0 → ((Roc.negatives obs).map (·.2)).sum ≠ 0 →
    ∃ d, r.details = some d ∧ d.auc = some (Roc.rankProb (Roc.positives obs) (Roc.negatives obs)) := by
  intro obs h1 h2
  obtain ⟨m, t, dn⟩ := extended_done h hE
  obtain ⟨d, hx', hr⟩ := dn.scored hd
  have e1 : u.cuts = 1 := by unfold ExtSetup.cuts; rw [hc]; rfl
  obtain ⟨ps, -⟩ := details_parts hb hx'
  refine ⟨d, hr, ?_⟩
  have ha := ps.auc
  unfold aucOf at ha
  rw [hx] at ha
  dsimp only at ha
  obtain ⟨q, hq, ha⟩ := bind_ok ha
  have hobs : rocObs r.data.n r.data.y (fun i => (probabilities S u.law .binary u.cuts r.data.k0 (ext r.est.beta) r.data.n r.data.x junk i 0).getD 0)
      (u.evalWeight r.data) (fun _ => 1) = obs := rocObs_congr fun i hi => by
    rw [probabilities_binary hS e1 hi (by omega : 0 ≤ 1)]; rfl
  rw [hobs] at hq
  obtain ⟨pts, hk⟩ := Roc.C27_auc_is_rank_probability { u.roc with cost := none } ⟨hp.bounds, hp.eps, hp.pess⟩ rfl obs h1 h2
  rw [hk] at hq
  obtain rfl := Outcome.ok.inj hq
  exact (Outcome.ok.inj ha).symm

theorem dense_congr {n k : ℕ} {f g : ℕ → ℕ → ℝ} (h : ∀ i < n, ∀ j < k, f i j = g i j) : dense n k f = dense n k g := by
  unfold dense
  congr 3
  funext t
  have ht := t.isLt
  have hn : 0 < n := Nat.pos_of_ne_zero fun h0 => by subst h0; omega
  exact h _ (Nat.mod_lt _ hn) _ (Nat.div_lt_of_lt_mul ht)

include hS in
/-- **C116.** The average cost (no row left out): that of the choices and the (evaluation) weights of the sample with the probabilities of the estimated
model, see C29. -/
theorem C116_cost (hb : u.form = .binary) (hc : u.numChoices = 2) (hd : u.details = true) {c : List (Mat ℝ)} (hcs : u.costs = some c)
    (h : extended S u self E other data storage ols start fore junk = .ok r) (hE : ∀ r, other ≠ .ok r) (hn : (r.data.n : ℤ) = data.rows) :
    ∃ d totals avg, r.details = some d ∧ d.costAverage = some avg ∧
      FCost.calculate c ((List.range r.data.n).map fun i => (some (trunc (r.data.y i)), u.evalWeight r.data i)) (dense r.data.n 2 fun i j =>
        chance u.law.cdf 1 r.data.k0 (ext r.est.beta) (index r.data.k0 r.data.x (ext r.est.beta) i) j) = .ok (totals, avg) := by
  obtain ⟨m, t, dn⟩ := extended_done h hE
  obtain ⟨d, hx', hr⟩ := dn.scored hd
  have e1 : u.cuts = 1 := by unfold ExtSetup.cuts; rw [hc]; rfl
  obtain ⟨ps, -⟩ := details_parts hb hx'
  have hq := ps.cost
  rw [hcs] at hq
  obtain ⟨q, hq, ha⟩ := hq
  refine ⟨d, q.1, q.2, hr, ha, ?_⟩
  rw [← hq, show data.rows.toNat = r.data.n by omega]
  unfold costObs
  congr 1
  refine dense_congr fun i hi j hj => ?_
  rw [probabilities_binary hS e1 hi (by omega : j ≤ 1)]; rfl

/-- **C116**: the embedded model is made for the choice's regressors: all the columns but the choice and, if there is one, the
weight; the embedded table for all rows and columns. -/
theorem C116_sizes {form : Form} {rows cols : ℤ} {hasWeight checkNan details : Bool} {numChoices nf : ℤ} {costs : Option ℤ} {sz : ExtSizes}
    (h : extConstruct form rows cols hasWeight checkNan numChoices details nf costs = .ok sz) :
    construct form rows (if hasWeight then cols - 1 - 1 else cols - 1) numChoices details = .ok sz.model ∧ sz.data = rows * cols := by
  unfold extConstruct at h
  obtain ⟨ds, h1, h⟩ := bind_ok h
  obtain ⟨m, h2, h⟩ := bind_ok h
  dsimp only at h
  have key : sz.data = ds.storageSize ∧ sz.model = m := by
    split_ifs at h <;> exact ⟨by rw [← Outcome.ok.inj h], by rw [← Outcome.ok.inj h]⟩
  constructor
  · rw [key.2, ← h2]
    cases hasWeight <;> simp <;> congr 1
    ring
  · rw [key.1]
    unfold Dataset.make at h1
    split_ifs at h1 with h0
    rw [← Outcome.ok.inj h1]

/-- **C116.** An object that was made for the sizes with which it is called has room for the sample, the model and the results, and its work array for
the probabilities of as many rows as the table has. -/
theorem C116_memory (hc : extConstruct u.form data.rows data.cols u.hasWeight u.checkNan u.numChoices u.details (foreRows fore)
      (u.costs.map fun c => (c.length : ℤ)) = .ok self) :
    data.rows * data.cols ≤ self.data ∧
    (extBlocks self data.rows u.numChoices u.details (foreRows fore) (u.costs.map fun c => (c.length : ℤ))).sum ≤ self.storage ∧
    (u.details = true ∨ 0 < foreRows fore → ∀ q : ℤ, q ≤ data.rows → (u.form = .binary → u.numChoices = 2) →
      probWork u.form q (u.numChoices - 1) ≤ self.work) := by
  unfold extConstruct at hc
  obtain ⟨ds, h1, hc⟩ := bind_ok hc
  obtain ⟨m, h2, hc⟩ := bind_ok hc
  dsimp only at hc
  have hds : ds.storageSize = data.rows * data.cols ∧ 0 < data.rows ∧ 0 < data.cols := by
    unfold Dataset.make at h1
    split_ifs at h1 with h0
    rw [← Outcome.ok.inj h1]; exact ⟨rfl, by omega, by omega⟩
  have hf : 0 ≤ foreRows fore := by unfold foreRows; split <;> omega
  have key : self.data = ds.storageSize ∧ self.model = m := by
    split_ifs at hc <;> exact ⟨by rw [← Outcome.ok.inj hc], by rw [← Outcome.ok.inj hc]⟩
  refine ⟨by rw [key.1, hds.1], ?_, ?_⟩
  · unfold extBlocks
    rw [key.1, key.2]
    by_cases hd : u.details = true
    · rw [if_pos hd] at hc ⊢
      rw [← Outcome.ok.inj hc]
      dsimp only
      generalize (match u.costs.map fun c => (c.length : ℤ) with | some c => costStorage c | none => 0) = z
      by_cases hf0 : foreRows fore > 0
      · rw [if_pos hf0]; simp; nlinarith
      · rw [if_neg hf0]
        have : foreRows fore = 0 := by omega
        rw [this]; simp; nlinarith
    · rw [if_neg hd] at hc ⊢
      rw [← Outcome.ok.inj hc]
      by_cases hf0 : foreRows fore > 0
      · rw [if_pos hf0]; simp; nlinarith
      · rw [if_neg hf0]
        have : foreRows fore = 0 := by omega
        rw [this]; simp
  · intro hor q hq hbin
    have hw : data.rows + u.numChoices - 2 ≤ self.work := by
      by_cases hd : u.details = true
      · rw [if_pos hd] at hc
        rw [← Outcome.ok.inj hc]
        exact le_max_right _ _
      · rw [if_neg hd] at hc
        rw [← Outcome.ok.inj hc]
        rcases hor with h | h
        · exact absurd h hd
        · dsimp only; rw [if_pos h]; exact le_max_right _ _
    unfold probWork
    split_ifs with hfm
    · have := hbin hfm; omega
    · omega

/-- **C116.** With more than two choices the scores are not available: `Calculate` with details fails. -/
theorem C116_ordered (ho : u.form = .ordered) (hd : u.details = true) (hE : ∀ r, other ≠ .ok r) :
    extended S u self E other data storage ols start fore junk ≠ .ok r := by
  intro h
  obtain ⟨m, t, dn⟩ := extended_done h hE
  obtain ⟨d, hx, hr⟩ := dn.scored hd
  have : ∀ form : Form, form = .ordered → ∀ (x y : Outcome ExtDetails), (match form with | .ordered => Outcome.throws | .binary => x) = y → y = .throws := by
    rintro form rfl x y rfl; rfl
  unfold extDetails at hx
  split_ifs at hx
  cases this u.form ho _ _ hx

end

example : ∃ s, extConstruct .binary 10 3 false true 2 true 4 (some 1) = .ok s := ⟨_, rfl⟩

/-! ## Runs -/

/-- A logit of two choices. -/
noncomputable def exLogit (checkNan details : Bool) : ExtSetup :=
  ⟨.logit, .binary, 2, false, checkNan, details, false, none, { epsilon := 0 }, none⟩

/-- The choices 0 and 1, a constant. -/
noncomputable def exTable : Mat (Val ℝ) := ⟨2, 2, some [some 0, some 1, some 1, some 1]⟩

/-- The choices 0, 1 and 0, a constant, of which the last value is missing. -/
noncomputable def exTable3 : Mat (Val ℝ) := ⟨3, 2, some [some 0, some 1, some 0, some 1, some 1, none]⟩

theorem two_stays {S : Fns} (hS : S.Good) {y : ℕ → ℝ} {x : ℕ → ℕ → ℝ} (h0 : y 0 = 0) (h1 : y 1 = 1) (x0 : x 0 0 = 1) (x1 : x 1 0 = 1)
    {E : Env 1} (hv : 1 ≤ E.vars) (hl : E.opts.useLineSearch = true) (dd : Bool) :
    ∃ r, estimateBinary S .logit ⟨2, 1, y, x, none⟩ E dd false (some 0) = .ok r ∧ r.beta = 0 := by
  have hy : ∀ i < 2, y i = 0 ∨ y i = 1 := fun i hi => by interval_cases i <;> simp [h0, h1]
  have hI : Independent 2 1 (Data.wt ⟨2, 1, y, x, none⟩) x := fun c hcz l hl => by
    have h := hcz 0 (by simp) (by simp [Data.wt])
    obtain rfl : l = 0 := by omega
    simpa [index, x0] using h
  have e0 : ext (0 : Fin 1 → ℝ) = fun _ => 0 := by funext j; unfold ext; split_ifs <;> rfl
  have tot : ∀ j, j = 0 ∨ j = 1 → total 2 (Data.wt ⟨2, 1, y, x, none⟩) (Data.cat ⟨2, 1, y, x, none⟩) j ≠ 0 := by
    intro j hj
    unfold total
    rw [Finset.sum_filter]
    rw [Finset.sum_range_succ, Finset.sum_range_succ, Finset.sum_range_zero]
    rcases hj with rfl | rfl <;> simp [Data.cat, Data.wt, h0, h1]
  refine C114_stays hS .logit ⟨2, 1, y, x, none⟩ hy (by simp) (by simp) (tot 0 (Or.inl rfl)) (tot 1 (Or.inr rfl)) hv hl
    (fun i _ => by simp [Data.wt]) hI fun β' => ?_
  rw [e0]
  refine (C112_maximum hS .logit ⟨2, 1, y, x, none⟩ hy (fun i _ => by simp [Data.wt]) (β := fun _ => 0) (fun l hl => ?_) β').1
  have hl' : l < 1 := hl
  obtain rfl : l = 0 := by omega
  show gfunLogit ⟨2, 1, y, x, none⟩ _ 0 = 0
  unfold gfunLogit
  simp [dot, Data.wt, List.range_succ, h0, h1, x0, x1]
  norm_num


theorem cutoffs_two {sz : ExtSizes} {cols rows f : ℤ} {c d : Bool} (h : extConstruct .binary rows cols false c 2 d f none = .ok sz) (hr : 2 ≤ rows)
    (hc : cols = 2) : cutoffs .binary sz.model d 2 2 none 1 0 2 = .ok 1 := by
  subst hc
  unfold extConstruct at h
  obtain ⟨ds, h1, h⟩ := bind_ok h
  obtain ⟨m, h2, h⟩ := bind_ok h
  have : sz.model = m := by dsimp only at h; split_ifs at h <;> rw [← Outcome.ok.inj h]
  rw [this]
  exact C114_accepted (n0 := rows) (k1 := 1) (choices := 2) (Or.inl rfl) h2 (by norm_num) hr (by norm_num) (by norm_num) (by simp) (by simp)

section
variable {S : Fns} {u : ExtSetup} {sz : ExtSizes} {E : ∀ k, Env k} {other : Outcome (Ext u.form u.cuts)} {data : Mat (Val ℝ)}
  {storage : List (Val ℝ)} {ols : Bool} {start : ∀ k, Option (Fin k → ℝ)} {fore : Option (ℕ × (ℕ → ℕ → ℝ))} {junk : ℕ → ℕ → Val ℝ}

/-- The run of `Calculate` up to the estimated model. -/
theorem extended_run {temp : ExtSizes} (h1 : extConstruct u.form data.rows data.cols u.hasWeight u.checkNan u.numChoices u.details (foreRows fore)
      (u.costs.map fun c => (c.length : ℤ)) = .ok temp) (h2 : temp.work ≤ sz.work ∧ temp.storage ≤ sz.storage) (h3 : data.rows * data.cols ≤ sz.data)
    {ds : Dataset} (h4 : Dataset.make data.rows data.cols u.checkNan false = .ok ds) {m : Mat (Val ℝ)}
    (h5 : ds.calculate Option.isNone data none storage = .ok m) {t : Mat ℝ} (h6 : numbers m = some t) {D : Data} (h7 : dataOf u.hasWeight t = D) {J : ℤ}
    (h8 : cutoffs u.form sz.model u.details D.n D.n (if u.hasWeight then some (D.n : ℤ) else none) D.k0 0 u.numChoices = .ok J)
    {est : Est (kOf u.form u.cuts D)} (h9 : estimate S u.law u.form u.cuts D E u.details ols start = .ok est) :
    extended S u sz E other data storage ols start fore junk =
      extTail S u sz data.rows m.mem D est fore junk := by
  subst h7
  unfold extended
  rw [h1, Outcome.ok_bind, if_neg (by push Not; exact h2), if_neg (not_lt.2 h3), h4, Outcome.ok_bind, h5, Outcome.ok_bind, h6]
  dsimp only
  rw [h8, Outcome.ok_bind, h9, Outcome.ok_bind]

end

/-- The columns of the examples. -/
noncomputable def exCells : Data := ⟨2, 1, fun i => [(0 : ℝ), 1, 1, 1].getD (i + 0 * 2) 0, fun i j => [(0 : ℝ), 1, 1, 1].getD (i + (j + 1) * 2) 0, none⟩

/-- **C116**, the work array: its size does not depend on the number of rows whose probabilities are wanted, of which each needs a cell. For two
observations and 100 rows the object made for these sizes writes outside of it. -/
theorem C116_forecast_violated {S : Fns} (hS : S.Good) {E : ∀ k, Env k} (hv : 1 ≤ (E 1).vars) (hl : (E 1).opts.useLineSearch = true)
    (junk : ℕ → ℕ → Val ℝ) (x : ℕ → ℕ → ℝ) : ∃ sz, extConstruct .binary 2 2 false false 2 false 100 none = .ok sz ∧
      extended S (exLogit false false) sz E .throws exTable [none, none, none, none] false (fun _ => some 0) (some (100, x)) junk = .ub := by
  have hc : ∃ sz, extConstruct .binary 2 2 false false 2 false 100 none = .ok sz := ⟨_, rfl⟩
  obtain ⟨sz, hsz⟩ := hc
  refine ⟨sz, hsz, ?_⟩
  have hw : sz.work < 100 ∧ sz.data = 4 ∧ (extBlocks sz 2 2 false 100 none).sum ≤ sz.storage := by
    rw [← Outcome.ok.inj hsz]; decide +kernel
  obtain ⟨e, he, hb⟩ := two_stays hS (y := exCells.y) (x := exCells.x) rfl rfl rfl rfl hv hl false
  have run := extended_run (S := S) (u := exLogit false false) (sz := sz) (E := E) (other := .throws) (data := exTable)
    (storage := [none, none, none, none]) (ols := false) (start := fun _ => some 0) (fore := some (100, x)) (junk := junk) (temp := sz)
    (ds := ⟨false, false, 4⟩) (m := exTable) (t := ⟨2, 2, some [0, 1, 1, 1]⟩) (D := exCells) (J := 1) (est := e)
    hsz ⟨le_refl _, le_refl _⟩ (by rw [hw.2.1]; exact le_refl (4 : ℤ)) rfl rfl rfl rfl (cutoffs_two hsz (le_refl _) rfl) he
  rw [run]
  unfold extTail
  refine (if_neg (show ¬ (extBlocks sz 2 2 false 100 none).sum > sz.storage from not_lt.2 hw.2.2)).trans ?_
  dsimp only
  exact if_pos (show (100 : ℤ) > sz.work from hw.1)

/-- **C116**, an object that is used again: it accepts a table for which its storage would suffice, but keeps the blocks for the sample and the model
that it was made for, and writes the probabilities of 6 rows behind the end. -/
theorem C116_reuse_violated {S : Fns} (hS : S.Good) {E : ∀ k, Env k} (hv : 1 ≤ (E 1).vars) (hl : (E 1).opts.useLineSearch = true)
    (junk : ℕ → ℕ → Val ℝ) (x : ℕ → ℕ → ℝ) : ∃ sz, extConstruct .binary 20 2 false false 2 false 0 none = .ok sz ∧
      extended S (exLogit false false) sz E .throws exTable [none, none, none, none] false (fun _ => some 0) (some (6, x)) junk = .ub := by
  have hc : ∃ sz, extConstruct .binary 20 2 false false 2 false 0 none = .ok sz := ⟨_, rfl⟩
  obtain ⟨sz, hsz⟩ := hc
  refine ⟨sz, hsz, ?_⟩
  have hc : ∃ temp, extConstruct .binary 2 2 false false 2 false 6 none = .ok temp := ⟨_, rfl⟩
  obtain ⟨temp, ht⟩ := hc
  have hw : (temp.work ≤ sz.work ∧ temp.storage ≤ sz.storage) ∧ 4 ≤ sz.data ∧ sz.storage < (extBlocks sz 2 2 false 6 none).sum := by
    rw [← Outcome.ok.inj hsz, ← Outcome.ok.inj ht]; decide +kernel
  obtain ⟨e, he, hb⟩ := two_stays hS (y := exCells.y) (x := exCells.x) rfl rfl rfl rfl hv hl false
  have run := extended_run (S := S) (u := exLogit false false) (sz := sz) (E := E) (other := .throws) (data := exTable)
    (storage := [none, none, none, none]) (ols := false) (start := fun _ => some 0) (fore := some (6, x)) (junk := junk) (temp := temp)
    (ds := ⟨false, false, 4⟩) (m := exTable) (t := ⟨2, 2, some [0, 1, 1, 1]⟩) (D := exCells) (J := 1) (est := e)
    ht hw.1 hw.2.1 rfl rfl rfl rfl (cutoffs_two hsz (by norm_num) rfl) he
  rw [run]
  unfold extTail
  exact if_pos hw.2.2

/-- **C116**, rows with missing cells: the score is taken over as many rows as the table has. For the choices 0, 1 and 0, of which the last one is
left out, the probability of each choice is 1/2 and the score should be 1/4; a third row is added, with a regressor in place of the choice and a
cell that was not written, `z`, in place of the probability. -/
theorem C116_brier_violated {S : Fns} (hS : S.Good) {E : ∀ k, Env k} (hv : 1 ≤ (E 1).vars) (hl : (E 1).opts.useLineSearch = true) (z : ℝ) :
    ∃ sz r d, extConstruct .binary 3 2 false true 2 true 0 none = .ok sz ∧
      extended S (exLogit true true) sz E .throws exTable3 [none, none, none, none, none, none] false (fun _ => some 0) none (fun _ _ => some z) = .ok r ∧
      r.details = some d ∧ r.data.n = 2 ∧ (∀ i < 2, ∀ j ≤ 1, d.projections i j = some (1 / 2)) ∧ r.data.y 0 = 0 ∧ r.data.y 1 = 1 ∧
      d.brier = some (((0 - 1 / 2) ^ 2 + (1 - 1 / 2) ^ 2 + (1 - z) ^ 2) / 3) := by
  have hc : ∃ sz, extConstruct .binary 3 2 false true 2 true 0 none = .ok sz := ⟨_, rfl⟩
  obtain ⟨sz, hsz⟩ := hc
  have hw : 2 ≤ sz.work ∧ 6 ≤ sz.data ∧ (extBlocks sz 3 2 true 0 none).sum ≤ sz.storage := by
    rw [← Outcome.ok.inj hsz]; decide +kernel
  obtain ⟨e, he, hb⟩ := two_stays hS (y := exCells.y) (x := exCells.x) rfl rfl rfl rfl hv hl true
  have run := extended_run (S := S) (u := exLogit true true) (sz := sz) (E := E) (other := .throws) (data := exTable3)
    (storage := [none, none, none, none, none, none]) (ols := false) (start := fun _ => some 0) (fore := none) (junk := fun _ _ => some z) (temp := sz)
    (ds := ⟨true, false, 6⟩) (m := ⟨2, 2, some [some 0, some 1, some 1, some 1, none, none]⟩) (t := ⟨2, 2, some [0, 1, 1, 1]⟩) (D := exCells) (J := 1) (est := e)
    hsz ⟨le_refl _, le_refl _⟩ hw.2.1 rfl rfl rfl rfl (cutoffs_two hsz (by norm_num) rfl) he
  have e0 : ext e.beta = fun _ => 0 := by rw [hb]; funext j; unfold ext; split_ifs <;> rfl
  have hp : ∀ i < 2, ∀ j ≤ 1, probabilities S .logit .binary 1 1 (ext e.beta) 2 exCells.x (fun _ _ => some z) i j = some (1 / 2) := fun i hi j hj => by
    rw [probabilities_binary hS rfl hi hj, e0]
    congr 1
    show chance logistic 1 1 (fun _ => 0) (index 1 exCells.x (fun _ => 0) i) j = 1 / 2
    unfold chance index cut logistic
    interval_cases j <;> simp <;> norm_num
  have hp' : ∀ i j, 2 ≤ i → probabilities S .logit .binary 1 1 (ext e.beta) 2 exCells.x (fun _ _ => some z) i j = some z := fun i j hi => by
    unfold probabilities
    rw [if_neg (by omega)]
  unfold extTail at run
  replace run := run.trans (if_neg (show ¬ (extBlocks sz 3 2 true 0 none).sum > sz.storage from not_lt.2 hw.2.2))
  dsimp only at run
  replace run := run.trans (if_pos (show (exLogit true true).details = true from rfl))
  have ha : ∃ a, aucOf (exLogit true true).roc none 2 exCells.y
      (fun i => (probabilities S .logit .binary 1 1 (ext e.beta) 2 exCells.x (fun _ _ => some z) i 0).getD 0) (fun _ => 1) = .ok a := by
    unfold aucOf
    dsimp only
    obtain ⟨pts, hk⟩ := Roc.C27_auc_is_rank_probability { (exLogit true true).roc with cost := none } ⟨Or.inl rfl, rfl, rfl⟩ rfl
      (rocObs 2 exCells.y (fun i => (probabilities S .logit .binary 1 1 (ext e.beta) 2 exCells.x (fun _ _ => some z) i 0).getD 0) (fun _ => 1) fun _ => 1)
      (by simp [rocObs, Roc.positives, List.range_succ, exCells]) (by simp [rocObs, Roc.negatives, List.range_succ, exCells])
    rw [hk]
    exact ⟨_, rfl⟩
  obtain ⟨a, ha⟩ := ha
  have hdet : extDetails S (exLogit true true) sz.work [some 0, some 1, some 1, some 1, none, none] 3 exCells (ext e.beta) (fun _ _ => some z) =
      .ok ⟨probabilities S .logit .binary 1 1 (ext e.beta) 2 exCells.x (fun _ _ => some z),
        brier 3 (fun _ => some 1) (fun i => [some (0 : ℝ), some 1, some 1, some 1, none, none].getD i none)
          (fun i => probabilities S .logit .binary 1 1 (ext e.beta) 2 exCells.x (fun _ _ => some z) i 1), a, none⟩ := by
    unfold extDetails
    refine (if_neg (show ¬ probWork .binary 2 1 > sz.work from not_lt.2 hw.1)).trans ?_
    show (aucOf (exLogit true true).roc none 2 exCells.y
      (fun i => (probabilities S .logit .binary 1 1 (ext e.beta) 2 exCells.x (fun _ _ => some z) i 0).getD 0) (fun _ => 1) >>= _) = _
    rw [ha]
    rfl
  have bindok : ∀ {α β : Type} {x : Outcome α} {a : α} (f : α → Outcome β), x = .ok a → (x >>= f) = f a := fun f h => by rw [h]; rfl
  replace run := run.trans (bindok _ hdet)
  refine ⟨sz, _, _, hsz, run, rfl, rfl, hp, rfl, rfl, ?_⟩
  have := brier_eq (n := 3) (w := fun _ => some 1) (y := fun i => [some (0 : ℝ), some 1, some 1, some 1, none, none].getD i none)
    (p := fun i => probabilities S .logit .binary 1 1 (ext e.beta) 2 exCells.x (fun _ _ => some z) i 1)
    (w' := fun _ => 1) (y' := fun i => if i = 0 then 0 else 1) (p' := fun i => if i < 2 then 1 / 2 else z) (fun i hi => ⟨rfl, ?_, ?_⟩) (by simp)
  · show brier 3 _ _ _ = _
    rw [this]
    unfold Brier
    simp [Finset.sum_range_succ]
  · interval_cases i <;> rfl
  · by_cases h2 : i < 2
    · show probabilities _ _ _ _ _ _ _ _ _ i 1 = _
      rw [hp i h2 1 (le_refl 1), if_pos h2]
    · show probabilities _ _ _ _ _ _ _ _ _ i 1 = _
      rw [hp' i 1 (by omega), if_neg h2]

/-- A run without missing cells: the hypotheses of the theorems on the sample, the probabilities and the scores can be met. -/
example {S : Fns} (hS : S.Good) {E : ∀ k, Env k} (hv : 1 ≤ (E 1).vars) (hl : (E 1).opts.useLineSearch = true) (junk : ℕ → ℕ → Val ℝ) :
    ∃ sz r, extended S (exLogit true true) sz E .throws exTable [none, none, none, none] false (fun _ => some 0) (some (1, fun _ _ => 1)) junk = .ok r ∧
      (r.data.n : ℤ) = exTable.rows := by
  have hc : ∃ sz, extConstruct .binary 2 2 false true 2 true 1 none = .ok sz := ⟨_, rfl⟩
  obtain ⟨sz, hsz⟩ := hc
  have hw : 2 ≤ sz.work ∧ 4 ≤ sz.data ∧ (extBlocks sz 2 2 true 1 none).sum ≤ sz.storage := by
    rw [← Outcome.ok.inj hsz]; decide +kernel
  obtain ⟨e, he, hb⟩ := two_stays hS (y := exCells.y) (x := exCells.x) rfl rfl rfl rfl hv hl true
  have run := extended_run (S := S) (u := exLogit true true) (sz := sz) (E := E) (other := .throws) (data := exTable)
    (storage := [none, none, none, none]) (ols := false) (start := fun _ => some 0) (fore := some (1, fun _ _ => 1)) (junk := junk) (temp := sz)
    (ds := ⟨true, false, 4⟩) (m := exTable) (t := ⟨2, 2, some [0, 1, 1, 1]⟩) (D := exCells) (J := 1) (est := e)
    hsz ⟨le_refl _, le_refl _⟩ hw.2.1 rfl rfl rfl rfl (cutoffs_two hsz (by norm_num) rfl) he
  unfold extTail at run
  replace run := run.trans (if_neg (show ¬ (extBlocks sz 2 2 true 1 none).sum > sz.storage from not_lt.2 hw.2.2))
  replace run := run.trans (if_neg (show ¬ probWork .binary 1 1 > sz.work from not_lt.2 (le_trans (by decide) hw.1)))
  replace run := run.trans (if_pos (show (exLogit true true).details = true from rfl))
  have hdet : ∃ d, extDetails S (exLogit true true) sz.work exTable.mem 2 exCells (ext e.beta) junk = .ok d := by
    obtain ⟨pts, hk⟩ := Roc.C27_auc_is_rank_probability { (exLogit true true).roc with cost := none } ⟨Or.inl rfl, rfl, rfl⟩ rfl
      (rocObs 2 exCells.y (fun i => (probabilities S .logit .binary 1 1 (ext e.beta) 2 exCells.x junk i 0).getD 0) (fun _ => 1) fun _ => 1)
      (by simp [rocObs, Roc.positives, List.range_succ, exCells]) (by simp [rocObs, Roc.negatives, List.range_succ, exCells])
    have ha : ∃ a, aucOf (exLogit true true).roc none 2 exCells.y
        (fun i => (probabilities S .logit .binary 1 1 (ext e.beta) 2 exCells.x junk i 0).getD 0) (fun _ => 1) = .ok a := by
      unfold aucOf
      dsimp only
      rw [hk]
      exact ⟨_, rfl⟩
    obtain ⟨a, ha⟩ := ha
    have hdet : extDetails S (exLogit true true) sz.work exTable.mem 2 exCells (ext e.beta) junk =
        .ok ⟨probabilities S .logit .binary 1 1 (ext e.beta) 2 exCells.x junk,
          brier 2 (fun _ => some 1) (fun i => exTable.mem.getD i none)
            (fun i => probabilities S .logit .binary 1 1 (ext e.beta) 2 exCells.x junk i 1), a, none⟩ := by
      unfold extDetails
      refine (if_neg (show ¬ probWork .binary 2 1 > sz.work from not_lt.2 hw.1)).trans ?_
      show (aucOf (exLogit true true).roc none 2 exCells.y
        (fun i => (probabilities S .logit .binary 1 1 (ext e.beta) 2 exCells.x junk i 0).getD 0) (fun _ => 1) >>= _) = _
      rw [ha]
      rfl
    exact ⟨_, hdet⟩
  obtain ⟨d, hd⟩ := hdet
  have bindok : ∀ {α β : Type} {x : Outcome α} {a : α} (f : α → Outcome β), x = .ok a → (x >>= f) = f a := fun f h => by rw [h]; rfl
  exact ⟨sz, _, run.trans (bindok _ hd), rfl⟩

end Dc
end LDT
