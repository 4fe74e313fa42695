import Verif.Props.ChoiceScores
import Verif.Props.DataSplit
import Verif.Lemmas.ChoiceTally
/-! # C117: out-of-sample scores of a model of discrete choice -/
namespace LDT
namespace Dc
open Op Di Mx Arr

section
variable {S : Fns} (hS : S.Good) {u : SimSetup} {E : ∀ k, Env k} {other : Outcome (Ext u.form u.model.cuts)} {data : Mat ℝ}
  {storage : List ℝ} {junk : ℕ → ℕ → Val ℝ} {simMax : ℕ} {orders : ℕ → ℕ → List ℤ} {r : SimResult}

/-- The simulations of a run: each is a split of the table followed by an estimation. `g` are those in which the model could be estimated: the test
sample and the probabilities of its choices. -/
def Simulated (S : Fns) (u : SimSetup) (E : ∀ k, Env k) (other : Outcome (Ext u.form u.model.cuts)) (junk : ℕ → ℕ → Val ℝ) (simMax : ℕ) (data : Mat ℝ)
    (storage : List ℝ) (orders : ℕ → ℕ → List ℤ) (g : List (Data × (ℕ → ℕ → Val ℝ))) : Prop :=
  ∃ sz st, simConstruct u data.rows data.cols = .ok sz ∧ Split.calculateD u.numChoices.toNat data storage u.ratio u.fix = .ok st ∧
    Ran (fun i => Split.shuffleD data st (orders i)) (simFit S u sz.model E other junk) (List.range simMax) g

theorem simulate_parts (h : simulate S u E other junk simMax data storage orders = .ok r) :
    ∃ g s, Simulated S u E other junk simMax data storage orders g ∧ u.form = .binary ∧ s.valid = g.length ∧ s.invalid + (g.length : ℤ) = simMax ∧
      scores u g (tally0 u) = .ok s.tally ∧ simEnd u s = .ok r := by
  unfold simulate at h
  obtain ⟨sz, h1, h⟩ := bind_ok h
  by_cases hb : u.form ≠ .binary
  · rw [if_pos hb] at h; cases h
  rw [if_neg hb] at h
  push Not at hb
  obtain ⟨st, h2, h⟩ := bind_ok h
  obtain ⟨s, h3, h⟩ := bind_ok h
  obtain ⟨g, k1, k2, k3, k4⟩ := simLoop_ran _ _ _ h3
  exact ⟨g, s, ⟨sz, st, h1, h2, k1⟩, hb, by simpa using k2, by simpa using k3, k4, h⟩

theorem simEnd_ok {s : SimState} (h : simEnd u s = .ok r) : s.invalid ≤ u.maxInvalid ∧ s.valid ≠ 0 ∧
    r = ⟨s.valid, s.tally.costs.map fun c => Roc.vdiv c.1 c.2, do let a ← s.tally.auc; Roc.vdiv a (s.valid : ℝ), s.tally.table, s.tally.brier⟩ := by
  unfold simEnd at h
  split_ifs at h with h1 h2
  exact ⟨not_lt.1 h1, h2, (Outcome.ok.inj h).symm⟩

theorem Simulated.unique {g g'} (h : Simulated S u E other junk simMax data storage orders g) (h' : Simulated S u E other junk simMax data storage orders g') :
    g = g' := by
  obtain ⟨sz, st, h1, h2, h3⟩ := h
  obtain ⟨sz', st', k1, k2, k3⟩ := h'
  rw [h1] at k1; obtain rfl := Outcome.ok.inj k1
  rw [h2] at k2; obtain rfl := Outcome.ok.inj k2
  exact h3.unique k3

/-- **C117.** `ValidSimulationCount` is the number of the simulations in which the model could be estimated; it is not zero, and the number of the others
is at most `maxInvalidSim`. -/
theorem C117_valid (h : simulate S u E other junk simMax data storage orders = .ok r) :
    ∃ g, Simulated S u E other junk simMax data storage orders g ∧ r.valid = g.length ∧ 0 < r.valid ∧ (simMax : ℤ) - r.valid ≤ u.maxInvalid := by
  obtain ⟨g, s, h1, h2, h3, h4, h5, h6⟩ := simulate_parts h
  obtain ⟨k1, k2, rfl⟩ := simEnd_ok h6
  refine ⟨g, h1, h3, Nat.pos_of_ne_zero k2, ?_⟩
  show (simMax : ℤ) - s.valid ≤ _
  omega

/-- **C117.** If the model can be estimated in no simulation, or fails in more than `maxInvalidSim` of them, there is no result. -/
theorem C117_fails {g} (hg : Simulated S u E other junk simMax data storage orders g) (hb : u.form = .binary)
    (hs : ∀ q ∈ g, ∀ t, ∃ t', score u q.1 q.2 t = .ok t') (h : g = [] ∨ u.maxInvalid < (simMax : ℤ) - g.length) :
    simulate S u E other junk simMax data storage orders = .throws := by
  obtain ⟨sz, st, h1, h2, h3⟩ := hg
  have key : simulate S u E other junk simMax data storage orders =
      (simLoop u (fun i => Split.shuffleD data st (orders i)) (simFit S u sz.model E other junk) (List.range simMax) ⟨tally0 u, 0, 0⟩ >>= simEnd u) := by
    unfold simulate
    rw [h1, Outcome.ok_bind, if_neg (not_not.2 hb), h2, Outcome.ok_bind]
  rw [key]
  rcases simLoop_all h3 ⟨tally0 u, 0, 0⟩ hs with e | ⟨s', e⟩
  · rw [e]; rfl
  · rw [e]
    show simEnd u s' = .throws
    obtain ⟨g', k1, k2, k3, k4⟩ := simLoop_ran _ _ _ e
    obtain rfl := h3.unique k1
    unfold simEnd
    by_cases h0 : s'.invalid > u.maxInvalid
    · rw [if_pos h0]
    rw [if_neg h0]
    rcases h with rfl | h
    · rw [if_pos (by simpa using k2)]
    · exfalso; simp at k3; omega

theorem costs_length {g : List (Data × (ℕ → ℕ → Val ℝ))} {cs : List (List (ℝ × ℝ))}
    (h : List.Forall₂ (fun q c => ∃ avg, simCosts u q = .ok (c, avg)) g cs) : ∀ c ∈ cs, c.length = u.costs.length := by
  induction h with
  | nil => simp
  | cons hd tl ih =>
    intro c hcs
    rcases List.mem_cons.1 hcs with rfl | hcs
    · obtain ⟨avg, ha⟩ := hd; exact simCosts_length ha
    · exact ih c hcs

/-- **C117.** The costs: the ratio of a matrix is its total cost in all valid simulations divided by the total count. -/
theorem C117_costs (hc : u.costs ≠ []) (h : simulate S u E other junk simMax data storage orders = .ok r) :
    ∃ g cs, Simulated S u E other junk simMax data storage orders g ∧ List.Forall₂ (fun q c => ∃ avg, simCosts u q = .ok (c, avg)) g cs ∧
      r.ratios.length = u.costs.length ∧
      ∀ j < u.costs.length, r.ratios[j]? = some (Roc.vdiv (cs.map fun c => (c.getD j (0, 0)).1).sum (cs.map fun c => (c.getD j (0, 0)).2).sum) := by
  obtain ⟨g, s, h1, h2, h3, h4, h5, h6⟩ := simulate_parts h
  obtain ⟨k1, k2, rfl⟩ := simEnd_ok h6
  obtain ⟨cs, c1, c2⟩ := scores_costs hc g _ _ h5
  have hlen := costs_length c1
  obtain ⟨z1, z2⟩ := zip_sums u.costs.length cs hlen (u.costs.map fun _ => (0, 0)) (by simp)
  have e : s.tally.costs = _ := c2
  refine ⟨g, cs, h1, c1, by show (s.tally.costs.map _).length = _; rw [List.length_map, e]; exact z1, fun j hj => ?_⟩
  show (s.tally.costs.map _)[j]? = _
  rw [List.getElem?_map, e]
  have hz := z2 j hj
  rw [List.getD_eq_getElem?_getD, List.getElem?_eq_getElem (by rw [z1]; exact hj), Option.getD_some] at hz
  show Option.map _ (List.foldl _ (u.costs.map fun _ => (0, 0)) cs)[j]? = _
  rw [List.getElem?_eq_getElem (by rw [z1]; exact hj), hz]
  have e0 : (u.costs.map fun _ => ((0 : ℝ), (0 : ℝ))).getD j (0, 0) = (0, 0) := by
    rw [List.getD_eq_getElem?_getD, List.getElem?_map]; cases u.costs[j]? <;> rfl
  rw [e0, zero_add, zero_add]
  rfl

/-- **C117.** `Auc` is the mean of the areas of the valid simulations; it is not a number if one of them is not. -/
theorem C117_auc (ha : u.doAuc = true) (h : simulate S u E other junk simMax data storage orders = .ok r) :
    ∃ g as, Simulated S u E other junk simMax data storage orders g ∧ List.Forall₂ (fun q a => simAuc u q = .ok a) g as ∧
      (∀ xs : List ℝ, as = xs.map some → r.auc = some (xs.sum / xs.length)) ∧ (none ∈ as → r.auc = none) := by
  obtain ⟨g, s, h1, h2, h3, h4, h5, h6⟩ := simulate_parts h
  obtain ⟨k1, k2, rfl⟩ := simEnd_ok h6
  obtain ⟨as, c1, c2⟩ := scores_auc ha g _ _ h5
  refine ⟨g, as, h1, c1, fun xs hx => ?_, fun hn => ?_⟩
  · have e : s.tally.auc = some (0 + xs.sum) := by rw [c2, hx]; exact val_sum xs 0
    have hl : s.valid = xs.length := by rw [h3, c1.length_eq, hx, List.length_map]
    show (do let a ← s.tally.auc; Roc.vdiv a (s.valid : ℝ)) = _
    rw [e, zero_add]
    show Roc.vdiv _ _ = _
    unfold Roc.vdiv
    rw [if_neg (by exact_mod_cast k2), hl]
  · have e : s.tally.auc = none := by rw [c2]; exact val_nan as hn _
    show (do let a ← s.tally.auc; Roc.vdiv a (s.valid : ℝ)) = _
    rw [e]
    rfl

/-- **C117.** The table: row `a`, column `b` has the (weighted) number of the observations of choice `b` in the test samples of all valid simulations whose
probability of this choice is in the range of row `a`. -/
theorem C117_table (ht : u.doTable = true) (h : simulate S u E other junk simMax data storage orders = .ok r) :
    ∃ g, Simulated S u E other junk simMax data storage orders g ∧ ∀ a < 10, ∀ b, r.table a b = (g.map fun q => cellOf q a b).sum := by
  obtain ⟨g, s, h1, h2, h3, h4, h5, h6⟩ := simulate_parts h
  obtain ⟨k1, k2, rfl⟩ := simEnd_ok h6
  refine ⟨g, h1, fun a ha b => ?_⟩
  have := scores_table ht g _ _ h5 a ha b
  rw [show (tally0 u).table a b = 0 from rfl, zero_add] at this
  exact this

/-- **C117**, `BrierScore`: it is not the mean over the simulations but the score of the last valid one. -/
theorem C117_brier_violated (hb : u.doBrier = true) (h : simulate S u E other junk simMax data storage orders = .ok r) :
    ∃ g q, Simulated S u E other junk simMax data storage orders g ∧ g.getLast? = some q ∧ r.brier = simBrier q := by
  obtain ⟨g, s, h1, h2, h3, h4, h5, h6⟩ := simulate_parts h
  obtain ⟨k1, k2, rfl⟩ := simEnd_ok h6
  have hne : g ≠ [] := by rintro rfl; exact k2 h3
  exact ⟨g, g.getLast hne, h1, List.getLast?_eq_some_getLast hne, scores_brier hb g _ _ h5 _ (List.getLast?_eq_some_getLast hne)⟩

/-- **C117.** Only models of two choices can be simulated. -/
theorem C117_ordered (ho : u.form = .ordered) : simulate S u E other junk simMax data storage orders ≠ .ok r := by
  intro h
  obtain ⟨g, s, h1, h2, _⟩ := simulate_parts h
  rw [ho] at h2; cases h2

/-! ## The samples -/

/-- `D` consists of the rows `I` of the table. -/
def RowsOf (hasWeight : Bool) (data : Mat ℝ) (I : List ℤ) (D : Data) : Prop :=
  let o : ℕ := if hasWeight then 2 else 1
  D.n = I.length ∧ (D.k0 : ℤ) = max 0 (data.cols - o) ∧ (D.w = none ↔ hasWeight = false) ∧
    ∀ (i : ℕ) (row : ℤ), I[i]? = some row → data.get row 0 = .ok (D.y i) ∧
      (hasWeight = true → 2 ≤ data.cols → data.get row 1 = .ok (D.wt i)) ∧ ∀ j < D.k0, data.get row (j + o : ℕ) = .ok (D.x i j)

theorem lift_get {n c : ℤ} {store : List ℝ} {k : ℕ} {i j : ℤ} {v : ℝ}
    (h : (⟨n, c, some ((store.take k).map some)⟩ : Mat (Val ℝ)).get i j = .ok (some v)) : (⟨n, c, some store⟩ : Mat ℝ).get i j = .ok v := by
  unfold Mat.get at h ⊢
  split_ifs at h with h1 h2
  rw [if_neg (by simp), if_neg h2]
  unfold Mat.get0 Mx.read at h ⊢
  split_ifs at h with h3
  rw [if_pos h3]
  rw [show (⟨n, c, some ((store.take k).map some)⟩ : Mat (Val ℝ)).mem = (store.take k).map some from rfl, List.getElem?_map, List.getElem?_take] at h
  rw [show (⟨n, c, some store⟩ : Mat ℝ).mem = store from rfl]
  dsimp only at h ⊢
  split_ifs at h with h4
  · cases hq : store[(i + n * j).toNat]? with
    | none => rw [hq] at h; cases h
    | some a => rw [hq] at h; rw [Option.some.inj (Outcome.ok.inj h)]
  · cases h

theorem rows_train {n c : ℤ} {store : List ℝ} {k : ℕ} {I : List ℤ} {D : Data} {w : Bool} (hn : n = I.length)
    (hr : Split.RowsAre ⟨n, c, some store⟩ data I) (hc : 0 < data.cols)
    (h : Holds w ⟨n, c, some ((store.take k).map some)⟩ (upTo 0 n) D) : RowsOf w data I D := by
  obtain ⟨h1, h2, h3, h4⟩ := h
  obtain ⟨r1, r2, r3⟩ := hr
  have ec : c = data.cols := r2
  have hl : (upTo 0 n).length = I.length := by unfold upTo; simp; omega
  refine ⟨h1.trans hl, by rw [h2, ← ec], h3, fun i row hi => ?_⟩
  have hlt : i < I.length := by
    by_contra hge
    rw [List.getElem?_eq_none (by omega)] at hi; cases hi
  obtain ⟨q1, q2, q3⟩ := h4 i i (by rw [getElem?_upTo, if_pos (by omega), zero_add])
  refine ⟨?_, fun hw hcc => ?_, fun j hj => ?_⟩
  · rw [← r3 i row hi 0 (le_refl _) hc]; exact lift_get q1
  · rw [← r3 i row hi 1 (by norm_num) (by omega)]; exact lift_get (q2 hw (by show 2 ≤ c; omega))
  · have hjc : ((j + if w then 2 else 1 : ℕ) : ℤ) < data.cols := by
      have : (D.k0 : ℤ) = max 0 (data.cols - ((if w then 2 else 1 : ℕ) : ℤ)) := by rw [h2, ← ec]
      omega
    rw [← r3 i row hi _ (by omega) hjc]; exact lift_get (q3 j hj)

theorem rows_test (wd : data.Wf) {m : Mat ℝ} {I : List ℤ} {w : Bool} (hr : Split.RowsAre m data I) (hc : 0 < data.cols)
    (hin : ∀ k ∈ I, 0 ≤ k ∧ k < data.rows) : RowsOf w data I (dataOf w m) := by
  obtain ⟨r1, r2, r3⟩ := hr
  have cell : ∀ (i j : ℕ) (row : ℤ), I[i]? = some row → (j : ℤ) < data.cols → data.get row j = .ok (m.mem.getD (i + j * m.rows.toNat) 0) := fun i j row hi hj => by
    have hrow := hin row (List.mem_of_getElem? hi)
    have inr : data.InR row j := ⟨hrow.1, hrow.2, by omega, hj⟩
    obtain ⟨v, hv⟩ := get0_ok wd inr
    rw [← get_eq_get0 wd inr] at hv
    have hm := get_mem (R := I.length) (i := i) (j := j) r1 ((r3 i row hi j (by omega) hj).trans hv)
    rw [hv, r1, Int.toNat_natCast, List.getD_eq_getElem?_getD, hm]
    rfl
  have hk : (((m.cols - if w then 2 else 1).toNat : ℕ) : ℤ) = max 0 (data.cols - ((if w then 2 else 1 : ℕ) : ℤ)) := by
    rw [r2]; cases w <;> simp <;> omega
  refine ⟨by show m.rows.toNat = _; rw [r1, Int.toNat_natCast], hk, ?_, fun i row hi => ⟨?_, fun hw h2 => ?_, fun j hj => ?_⟩⟩
  · cases w <;> simp [dataOf]
  · exact_mod_cast cell i 0 row hi (by exact_mod_cast hc)
  · rw [hw]; exact_mod_cast cell i 1 row hi (by omega)
  · have hj' : j < (m.cols - if w then 2 else 1).toNat := hj
    exact cell i _ row hi (by omega)

include hS in
/-- **C117.** In each valid simulation the rows of the table are split into a training sample `D` and a test sample `T` (each row is in exactly one of
them); the model is estimated from the training sample alone, and the scores use its probabilities for the choices of the test sample. -/
theorem C117_out_of_sample (hu : u.model.Proper) (wd : data.Wf) (hcol : 0 < data.cols) (hst : data.rows * data.cols ≤ storage.length)
    (hn : 0 < u.numChoices) (hE : ∀ r, other ≠ .ok r)
    (ho : ∀ st, Split.calculateD u.numChoices.toNat data storage u.ratio u.fix = .ok st → ∀ i (c : ℕ) m, st.counts[c]? = some m → (orders i c).Perm (upTo 0 m))
    {g} (hg : Simulated S u E other junk simMax data storage orders g) : ∀ q ∈ g, ∃ (I0 I1 : List ℤ) (D : Data) (est : Est (kOf u.form u.model.cuts D)),
      (I0 ++ I1).Perm (upTo 0 data.rows) ∧ (I0.length : ℤ) = Split.trainSize data.rows u.ratio u.fix ∧ RowsOf u.hasWeight data I0 D ∧ RowsOf u.hasWeight data I1 q.1 ∧
      estimate S u.law u.form u.model.cuts D E false true (fun _ => none) = .ok est ∧
      ∀ i < q.1.n, ∀ j ≤ u.model.cuts,
        q.2 i j = some (chance u.law.cdf u.model.cuts D.k0 (ext est.beta) (index D.k0 q.1.x (ext est.beta) i) j) := by
  obtain ⟨sz, st, h1, h2, h3⟩ := hg
  intro q hq
  obtain ⟨i, hi, s, hs, hf⟩ := h3.mem q hq
  obtain ⟨I0, I1, sp, -⟩ := Split.C31_stratified_split_partial u.numChoices.toNat (by omega) data wd hcol storage hst u.ratio u.fix (orders i) st s
    (ho st h2 i) h2 hs
  obtain ⟨p1, p2, p3, p4⟩ := sp
  unfold simFit at hf
  obtain ⟨e, he, hf⟩ := bind_ok hf
  obtain rfl := Outcome.ok.inj hf
  have hin : ∀ k ∈ I1, 0 ≤ k ∧ k < data.rows := fun k hk => mem_upTo.1 (p1.mem_iff.1 (List.mem_append_right _ hk))
  have en : s.n0 = I0.length := p3.1
  have ec : s.cols = data.cols := p3.2.1
  have hlen : s.n0 * s.cols ≤ s.store.length := by
    by_cases h0 : I0 = []
    · rw [en, h0]; simp
    · have h0l : 0 < I0.length := List.length_pos_of_ne_nil h0
      have hb : I0[I0.length - 1]? = some I0[I0.length - 1] := List.getElem?_eq_getElem (by omega)
      have hrow := mem_upTo.1 (p1.mem_iff.1 (List.mem_append_left _ (List.mem_of_getElem? hb)))
      have inr : data.InR I0[I0.length - 1] ((data.cols.toNat - 1 : ℕ) : ℤ) := ⟨hrow.1, hrow.2, by omega, by omega⟩
      obtain ⟨v, hv⟩ := get0_ok wd inr
      rw [← get_eq_get0 wd inr] at hv
      have hm := get_mem (R := I0.length) (i := I0.length - 1) (j := data.cols.toNat - 1) p3.1 ((p3.2.2 _ _ hb _ (by omega) (by omega)).trans hv)
      have : I0.length - 1 + (data.cols.toNat - 1) * I0.length < s.store.length := by
        by_contra hge
        have hmn : s.store[I0.length - 1 + (data.cols.toNat - 1) * I0.length]? = some v := hm
        rw [List.getElem?_eq_none (by omega)] at hmn; cases hmn
      rw [en, ec]
      have e1 : data.cols = (data.cols.toNat : ℤ) := by omega
      rw [e1]
      have e2 : I0.length - 1 + (data.cols.toNat - 1) * I0.length + 1 = I0.length * data.cols.toNat := by
        obtain ⟨c, hc⟩ : ∃ c, data.cols.toNat = c + 1 := ⟨data.cols.toNat - 1, by omega⟩
        rw [hc, Nat.add_sub_cancel]
        have : I0.length * (c + 1) = c * I0.length + I0.length := by ring
        omega
      have e3 : I0.length * data.cols.toNat ≤ s.store.length := by omega
      exact_mod_cast e3
  have hnn : 0 ≤ s.n0 * s.cols := by rw [en, ec]; exact mul_nonneg (by omega) (by omega)
  have wt : (⟨s.n0, s.cols, some ((s.store.take (s.n0 * s.cols).toNat).map some)⟩ : Mat (Val ℝ)).Wf := by
    refine ⟨by show 0 ≤ s.n0; omega, by show 0 ≤ s.cols; omega, rfl, ?_⟩
    show s.n0 * s.cols ≤ ((((s.store.take (s.n0 * s.cols).toNat).map some).length : ℕ) : ℤ)
    simp; omega
  obtain ⟨⟨kept, k1, k2⟩, k3⟩ := C116_sample wt (by simp [hnn]) he hE
  obtain ⟨p, hp1, hp2⟩ := C116_forecast hS hu he hE
  have hk : kept = upTo 0 s.n0 := k1
  subst hk
  refine ⟨I0, I1, e.data, e.est, p1, p2, rows_train en p3 hcol k2, rows_test wd p4 hcol hin, k3, fun i hi j hj => ?_⟩
  show e.pred.getD junk i j = _
  rw [hp1]
  exact hp2 i hi j hj

/-! ## Memory -/

/-- **C117.** The blocks of the work array fill the size that is asked for. -/
theorem C117_memory {rows cols : ℤ} {sz : SimSizes} (h : simConstruct u rows cols = .ok sz) : (simBlocks rows cols u.costs.length sz.model).sum = sz.work := by
  unfold simConstruct at h
  dsimp only at h
  split_ifs at h
  · obtain ⟨m, hm, h⟩ := bind_ok h
    rw [← Outcome.ok.inj h]
    unfold simBlocks
    simp
    ring
  · obtain ⟨m, hm, h⟩ := bind_ok h
    rw [← Outcome.ok.inj h]
    unfold simBlocks
    simp
    ring

/-- **C117**, the work array: of 100 observations with one regressor 10 are used for training. The model's work array has 44 cells, but the
probabilities of the 90 other observations need one each: a simulation whose model could be estimated writes outside of it. -/
theorem C117_memory_violated (hb : u.form = .binary) (hc : u.numChoices = 2) (hw : u.hasWeight = false) (hr : u.ratio = 1 / 10) (hf : u.fix = 0)
    (hd : data.rows = 100 ∧ data.cols = 2) (hE : ∀ r, other ≠ .ok r) (wd : data.Wf) (hst : data.rows * data.cols ≤ storage.length)
    (ho : ∀ st, Split.calculateD u.numChoices.toNat data storage u.ratio u.fix = .ok st → ∀ i (c : ℕ) m, st.counts[c]? = some m → (orders i c).Perm (upTo 0 m)) :
    (simulate S u E other junk simMax data storage orders ≠ .ok r) ∧
    ∀ sz, extConstruct .binary 10 2 false false 2 false 90 none = .ok sz → ∀ (tab : Mat (Val ℝ)) (q : ℕ → ℕ → ℝ) (m : Mat (Val ℝ)) (t : Mat ℝ) (D : Data)
      (est : Est (kOf .binary 1 D)) (mem : List (Val ℝ)), tab.rows = 10 → tab.cols = 2 → Dataset.calculate Option.isNone ⟨false, false, 20⟩ tab none mem = .ok m →
      numbers m = some t → dataOf false t = D → 1 ≤ D.k0 → D.k0 ≤ 1 → D.n ≤ 10 →
      estimate S u.law .binary 1 D E false true (fun _ => none) = .ok est →
      extended S ⟨u.law, .binary, 2, false, false, false, false, none, u.roc, u.rocCosts⟩ sz E .throws tab mem true (fun _ => none) (some (90, q)) junk = .ub := by
  have hwork : ∀ sz, extConstruct .binary 10 2 false false 2 false 90 none = .ok sz → sz.work = 44 ∧ sz.data = 20 ∧
      (extBlocks sz 10 2 false 90 none).sum ≤ sz.storage := fun sz hsz => by rw [← Outcome.ok.inj hsz]; decide +kernel
  constructor
  · intro h
    obtain ⟨g, s, ⟨sz, st, h1, h2, h3⟩, -, g1, g2, g3, g4⟩ := simulate_parts h
    obtain ⟨k1, k2, -⟩ := simEnd_ok g4
    have hne : g ≠ [] := by rintro rfl; exact k2 g1
    obtain ⟨i, hi, a, ha, hfit⟩ := h3.mem (g.getLast hne) (List.getLast_mem hne)
    have htr : Split.trainSize data.rows u.ratio u.fix = 10 := by
      unfold Split.trainSize Split.round
      rw [hf, hr, hd.1]; norm_num
    have hm : extConstruct .binary 10 2 false false 2 false 90 none = .ok sz.model := by
      unfold simConstruct at h1
      dsimp only at h1
      rw [htr, hd.1, hd.2, hb, hc, hw] at h1
      split_ifs at h1
      all_goals first
        | (obtain ⟨m, hm, h1⟩ := bind_ok h1
           rw [← Outcome.ok.inj h1]
           exact hm)
    obtain ⟨I0, I1, ⟨p1, p2, p3, p4⟩, -⟩ := Split.C31_stratified_split_partial u.numChoices.toNat (by rw [hc]; decide) data wd (by omega) storage hst u.ratio u.fix
      (orders i) st a (ho st h2 i) h2 ha
    have hn1 : a.n1 = 90 := by
      have hl := p1.length_eq
      have h4 : a.n1 = I1.length := p4.1
      rw [List.length_append] at hl
      have : (upTo 0 data.rows).length = 100 := by rw [hd.1]; rfl
      omega
    unfold simFit at hfit
    obtain ⟨e, he, -⟩ := bind_ok hfit
    obtain ⟨m, t, dn⟩ := extended_done he hE
    have hfits := dn.fits _ rfl
    have e90 : (dataOf u.hasWeight a.s1).n = 90 := by show a.n1.toNat = 90; rw [hn1]; rfl
    rw [(hwork _ hm).1] at hfits
    have hpw : probWork u.model.form ((dataOf u.hasWeight a.s1).n : ℤ) u.model.cuts = 90 := by
      rw [e90]
      unfold probWork
      rw [if_pos (show u.model.form = .binary from hb)]
      rfl
    rw [hpw] at hfits
    omega
  · intro sz hsz tab q m t D est mem t1 t2 hm hn hD k1 k2 kn hest
    obtain ⟨w1, w2, w3⟩ := hwork sz hsz
    have run := extended_run (S := S) (u := ⟨u.law, .binary, 2, false, false, false, false, none, u.roc, u.rocCosts⟩) (sz := sz) (E := E) (other := .throws)
      (data := tab) (storage := mem) (ols := true) (start := fun _ => none) (fore := some (90, q)) (junk := junk) (temp := sz)
      (ds := ⟨false, false, 20⟩) (m := m) (t := t) (D := D) (J := 1) (est := est)
      (by rw [t1, t2]; exact hsz) ⟨le_refl _, le_refl _⟩ (by rw [t1, t2, w2]; norm_num) (by rw [t1, t2]; rfl) hm hn hD ?_ hest
    · rw [run]
      unfold extTail
      refine (if_neg (show ¬ (extBlocks sz tab.rows 2 false 90 none).sum > sz.storage by rw [t1]; exact not_lt.2 w3)).trans ?_
      exact if_pos (show (90 : ℤ) > sz.work by rw [w1]; norm_num)
    · unfold extConstruct at hsz
      obtain ⟨ds, h1, h⟩ := bind_ok hsz
      obtain ⟨m, h2, h⟩ := bind_ok h
      have : sz.model = m := by dsimp only at h; split_ifs at h <;> rw [← Outcome.ok.inj h]
      rw [this]
      exact C114_accepted (n0 := 10) (k1 := 1) (choices := 2) (Or.inl rfl) h2 (by omega) (by exact_mod_cast kn) (by exact_mod_cast k1) (by exact_mod_cast k2) (by simp) (by simp)

end

/-! ## A run -/

/-- Four rows of choice 0, two of choice 1; one regressor. -/
noncomputable def exRows : Mat ℝ := ⟨6, 2, some [0, 0, 0, 0, 1, 1, 1, -1, 1, -1, 0, 0]⟩

/-- What the preparation of the split leaves. -/
noncomputable def exStrata : Split.Strata ℝ ℝ :=
  ⟨⟨List.replicate 12 0, 3, 3, 2⟩, [4, 2], [[0, 1, 2, 3], [4, 5]], [1, 0], 1 / 2⟩

theorem ex_size : Split.trainSize (6 : ℤ) (1 / 2 : ℝ) 0 = 3 := by
  unfold Split.trainSize Split.round; norm_num

theorem ex_calc : Split.calculateD 2 exRows (List.replicate 12 0) (1 / 2) 0 = .ok exStrata := by
  have h0 : Split.trunc (0 : ℝ) = 0 := by simp [Split.trunc]
  have h1 : Split.trunc (1 : ℝ) = 1 := by simp [Split.trunc]
  have hr := ex_size
  rw [one_div] at hr
  have u6 : upTo 0 exRows.rows = [0, 1, 2, 3, 4, 5] := rfl
  have hs : sortIndexes [some (4 : ℤ), some 2] true = .ok [1, 0] := by decide +kernel
  unfold Split.calculateD
  rw [u6]
  simp only [List.foldlM_cons, List.foldlM_nil]
  simp [Mx.read, exRows, Mat.mem, h0, h1, Split.countAt, Split.pushAt, hr, hs, Outcome.ok_bind, pure, exStrata]

/-- Rows 4, 0, 1 in the training sample, rows 5, 2, 3 in the test sample. -/
noncomputable def exSamples : Split.Samples ℝ := ⟨[1, 0, 0, 0, 1, -1, 1, 0, 0, 0, 1, -1], 3, 3, 2⟩

/-- No shuffling. -/
def exOrders : ℕ → ℕ → List ℤ := fun _ c => if c = 0 then [0, 1, 2, 3] else [0, 1]

theorem ex_shuffle : Split.shuffleD exRows exStrata (exOrders 0) = .ok exSamples := by
  have h1 : Split.stratumSize (2⁻¹ : ℝ) 2 = 1 := by
    unfold Split.stratumSize Split.round; norm_num
  unfold Split.shuffleD
  simp [exStrata, exOrders, Split.classLoop, Outcome.ofOption, h1, pure]
  rfl

/-- With the choices 1, 0, 0 and the regressor 0, 1, -1 the least squares start is 0, which is the maximum. -/
theorem three_stays {S : Fns} (hS : S.Good) {y : ℕ → ℝ} {x : ℕ → ℕ → ℝ} (y0 : y 0 = 1) (y1 : y 1 = 0) (y2 : y 2 = 0) (x0 : x 0 0 = 0) (x1 : x 1 0 = 1)
    (x2 : x 2 0 = -1) {E : Env 1} (hv : 1 ≤ E.vars) (hl : E.opts.useLineSearch = true) (dd : Bool) :
    ∃ r, estimateBinary S .logit ⟨3, 1, y, x, none⟩ E dd true none = .ok r := by
  have hy : ∀ i < 3, y i = 0 ∨ y i = 1 := fun i hi => by interval_cases i <;> simp [y0, y1, y2]
  have hI : Independent 3 1 (Data.wt ⟨3, 1, y, x, none⟩) x := fun c hcz l hl => by
    have h := hcz 1 (by simp) (by simp [Data.wt])
    obtain rfl : l = 0 := by omega
    simpa [index, x1] using h
  have hw : ∀ i < 3, 0 ≤ Data.wt ⟨3, 1, y, x, none⟩ i := fun i _ => by simp [Data.wt]
  have tot : ∀ j, j = 0 ∨ j = 1 → total 3 (Data.wt ⟨3, 1, y, x, none⟩) (Data.cat ⟨3, 1, y, x, none⟩) j ≠ 0 := by
    intro j hj
    unfold total
    rw [Finset.sum_filter]
    rw [Finset.sum_range_succ, Finset.sum_range_succ, Finset.sum_range_succ, Finset.sum_range_zero]
    rcases hj with rfl | rfl <;> simp [Data.cat, Data.wt, y0, y1, y2]
  have best : ∀ v : ℕ → ℝ, 0 < v 1 → v 1 = v 2 → ∀ b, WeightedBest 3 1 v y x b → b 0 = 0 := fun v v1 v2 b hb => by
    have h := (hb fun _ => 0).1
    simp [Finset.sum_range_succ, index, y0, y1, y2, x0, x1, x2, ← v2] at h
    have : v 1 * b 0 ^ 2 ≤ 0 := by linarith
    have h2 : 0 ≤ b 0 ^ 2 := sq_nonneg _
    have : b 0 ^ 2 = 0 := by nlinarith
    exact pow_eq_zero_iff (by norm_num) |>.1 this
  obtain ⟨b0, b, e, B0, B⟩ := C115_binary hS .logit ⟨3, 1, y, x, none⟩ hw (by norm_num) (by norm_num) hI
  have z0 : b0 0 = 0 := best _ (by simp [Data.wt]) (by simp [Data.wt]) b0 B0
  have z : b 0 = 0 := by
    refine best _ ?_ ?_ b B
    · simp [Data.wt, index, z0, Law.cdf, logistic]; norm_num
    · simp [Data.wt, index, z0]
  have hb : (fun j : Fin 1 => b j) = 0 := by funext j; fin_cases j; exact z
  have e0 : ext (0 : Fin 1 → ℝ) = fun _ => 0 := by funext j; unfold ext; split_ifs <;> rfl
  obtain ⟨r, hr, -⟩ := C114_stays hS .logit ⟨3, 1, y, x, none⟩ (E := E) (dd := dd) hy (by simp) (by simp) (tot 0 (Or.inl rfl)) (tot 1 (Or.inr rfl)) hv hl
    hw hI (b := 0) fun β' => by
      rw [e0]
      refine (C112_maximum hS .logit ⟨3, 1, y, x, none⟩ hy hw (β := fun _ => 0) (fun l hl => ?_) β').1
      have hl' : l < 1 := hl
      obtain rfl : l = 0 := by omega
      show gfunLogit ⟨3, 1, y, x, none⟩ _ 0 = 0
      unfold gfunLogit
      simp [dot, Data.wt, List.range_succ, y0, y1, y2, x0, x1, x2]
  refine ⟨r, ?_⟩
  rw [← hr]
  unfold estimateBinary
  congr 1
  simp only [bind, Outcome.bind]
  cases hc : countBinary ⟨3, 1, y, x, none⟩ with
  | ok c =>
    dsimp only
    congr 1
    show fromStart _ _ _ _ _ _ _ _ _ _ _ _ = _
    rw [e]
    unfold fromStart
    dsimp only
    rw [show (pure (some b) : Outcome (Option (ℕ → ℝ))) = .ok (some b) from rfl, Outcome.ok_bind]
    dsimp only
    rw [show vec 1 b = 0 from hb]
  | throws => rfl
  | ub => rfl
  | diverges => rfl

/-- The loop for the table accepts choices in the range with probabilities in [0, 1]. -/
theorem tableLoop_ok {c : ℤ} {y w : ℕ → ℝ} {p : ℕ → ℕ → Val ℝ} : ∀ (l : List ℕ) (t : ℕ → ℕ → ℝ),
    (∀ i ∈ l, 0 ≤ trunc (y i) ∧ trunc (y i) < c ∧ ∃ a, p i (trunc (y i)).toNat = some a ∧ 0 ≤ a ∧ a ≤ 1) → ∃ t', tableLoop c y w p l t = .ok t'
  | [], t, _ => ⟨t, rfl⟩
  | i :: r, t, h => by
    obtain ⟨h1, h2, a, ha, a0, a1⟩ := h i List.mem_cons_self
    have f0 : 0 ≤ ⌊a * 10⌋ := Int.floor_nonneg.2 (by linarith)
    have f1 : ⌊a * 10⌋ ≤ 10 := by
      have : (⌊a * 10⌋ : ℝ) ≤ 10 := (Int.floor_le _).trans (by linarith)
      exact_mod_cast this
    unfold tableLoop
    dsimp only
    rw [if_neg (by omega), ha]
    dsimp only
    unfold plusAt
    rw [if_pos (by split_ifs <;> omega), Outcome.ok_bind]
    exact tableLoop_ok r _ fun i hi => h i (List.mem_cons_of_mem _ hi)

/-- The set-up of the example: a logit, half of the rows for training, the frequency table and the score. -/
noncomputable def exSim : SimSetup := ⟨.logit, .binary, 2, false, 1 / 2, 0, [], true, false, true, false, { epsilon := 0 }, none, 0⟩

/-- A simulation that succeeds: the hypotheses of the theorems on the results can be met. -/
example {S : Fns} (hS : S.Good) {E : ∀ k, Env k} (hv : 1 ≤ (E 1).vars) (hl : (E 1).opts.useLineSearch = true) (junk : ℕ → ℕ → Val ℝ) :
    ∃ r, simulate S exSim E .throws junk 1 exRows (List.replicate 12 0) exOrders = .ok r ∧ r.valid = 1 := by
  have hc : ∃ sz, extConstruct .binary 3 2 false false 2 false 3 none = .ok sz := ⟨_, rfl⟩
  obtain ⟨sz, hsz⟩ := hc
  have hw : 3 ≤ sz.work ∧ 6 ≤ sz.data ∧ (extBlocks sz 3 2 false 3 none).sum ≤ sz.storage := by
    rw [← Outcome.ok.inj hsz]; decide +kernel
  have hcons : simConstruct exSim exRows.rows exRows.cols = .ok ⟨3, 0 + 10 * 2, 0 + costStorage 0 + 6 * 2 + sz.storage + sz.work, 6, sz⟩ := by
    unfold simConstruct
    have h12 : ¬ ((1 / 2 : ℝ) ≥ 1 ∨ (1 / 2 : ℝ) ≤ 0) := by norm_num
    have hn : Split.trainSize exRows.rows exSim.ratio exSim.fix = 3 := ex_size
    rw [hn]
    dsimp only
    rw [if_neg (by simp [exSim]), if_neg (by simp [exSim]), if_neg (by simp [exSim]), if_neg (by simp [exSim]), if_neg (by simp [exSim]),
      if_neg (fun h => h12 h.2), if_neg (by simp [exRows])]
    show (extConstruct .binary 3 2 false false 2 false 3 none >>= _) = _
    rw [hsz]
    rfl
  have bindok : ∀ {α β : Type} {x : Outcome α} {a : α} (f : α → Outcome β), x = .ok a → (x >>= f) = f a := fun f h => by rw [h]; rfl
  let D : Data := ⟨3, 1, fun i => [(1 : ℝ), 0, 0, 0, 1, -1].getD (i + 0 * 3) 0, fun i j => [(1 : ℝ), 0, 0, 0, 1, -1].getD (i + (j + 1) * 3) 0, none⟩
  obtain ⟨e, he⟩ := three_stays hS (y := D.y) (x := D.x) rfl rfl rfl rfl rfl rfl hv hl false
  have run := extended_run (S := S) (u := exSim.model) (sz := sz) (E := E) (other := .throws)
    (data := ⟨3, 2, some [some 1, some 0, some 0, some 0, some 1, some (-1)]⟩)
    (storage := List.replicate 6 none) (ols := true) (start := fun _ => none) (fore := some (3, (dataOf false exSamples.s1).x)) (junk := junk) (temp := sz)
    (ds := ⟨false, false, 6⟩) (m := ⟨3, 2, some [some 1, some 0, some 0, some 0, some 1, some (-1)]⟩) (t := ⟨3, 2, some [1, 0, 0, 0, 1, -1]⟩) (D := D) (J := 1)
    (est := e) hsz ⟨le_refl _, le_refl _⟩ hw.2.1 rfl rfl rfl rfl ?_ he
  · unfold extTail at run
    replace run := run.trans (if_neg (show ¬ (extBlocks sz 3 2 false 3 none).sum > sz.storage from not_lt.2 hw.2.2))
    replace run := run.trans (if_neg (show ¬ probWork .binary 3 1 > sz.work from not_lt.2 hw.1))
    replace run := run.trans (if_neg (show ¬ exSim.model.details = true from Bool.false_ne_true))
    have fit : simFit S exSim sz E .throws junk exSamples = .ok (dataOf false exSamples.s1,
        probabilities S .logit .binary 1 1 (ext e.beta) 3 (dataOf false exSamples.s1).x junk) := by
      unfold simFit
      exact bindok _ run
    have tab : ∃ t, score exSim (dataOf false exSamples.s1) (probabilities S .logit .binary 1 1 (ext e.beta) 3 (dataOf false exSamples.s1).x junk)
        (tally0 exSim) = .ok t := by
      obtain ⟨t, ht⟩ := tableLoop_ok (c := 2) (y := (dataOf false exSamples.s1).y) (w := (dataOf false exSamples.s1).wt)
        (p := probabilities S .logit .binary 1 1 (ext e.beta) 3 (dataOf false exSamples.s1).x junk) (List.range 3) (fun _ _ => 0) fun i hi => by
          have hi3 : i < 3 := List.mem_range.1 hi
          have ht : trunc ((dataOf false exSamples.s1).y i) = 0 ∨ trunc ((dataOf false exSamples.s1).y i) = 1 := by
            interval_cases i <;> simp [dataOf, exSamples, Split.Samples.s1, Mat.mem, trunc]
          refine ⟨by omega, by omega, _, probabilities_binary hS rfl hi3 (by omega), ?_, ?_⟩
          · exact (chance_pos (Law.link .logit) (fun j hj => absurd hj (by omega)) (le_refl 1) _ (by omega)).le
          · exact (chance_lt_one (le_refl 1) _ _).le
      exact ⟨_, bindok _ ht⟩
    obtain ⟨t, ht⟩ := tab
    refine ⟨⟨1, t.costs.map fun c => Roc.vdiv c.1 c.2, do let a ← t.auc; Roc.vdiv a ((1 : ℕ) : ℝ), t.table, t.brier⟩, ?_, rfl⟩
    have loop : simLoop exSim (fun i => Split.shuffleD exRows exStrata (exOrders i)) (simFit S exSim sz E .throws junk) (List.range 1) ⟨tally0 exSim, 0, 0⟩ =
        .ok ⟨t, 1, 0⟩ := by
      show simLoop exSim _ _ [0] _ = _
      unfold simLoop
      refine (bindok _ ex_shuffle).trans ?_
      rw [fit]
      refine (bindok _ ht).trans ?_
      rfl
    unfold simulate
    refine (bindok _ hcons).trans ?_
    refine (if_neg (show ¬ exSim.form ≠ .binary by simp [exSim])).trans ?_
    refine (bindok _ ex_calc).trans ?_
    refine (bindok _ loop).trans ?_
    unfold simEnd
    rfl
  · unfold extConstruct at hsz
    obtain ⟨ds, h1, h⟩ := bind_ok hsz
    obtain ⟨m, h2, h⟩ := bind_ok h
    have : sz.model = m := by dsimp only at h; split_ifs at h <;> rw [← Outcome.ok.inj h]
    rw [this]
    exact C114_accepted (n0 := 3) (k1 := 1) (choices := 2) (Or.inl rfl) h2 (by norm_num) (le_refl _) (by norm_num) (by norm_num)
      (by simp [exSim, SimSetup.model]) (by simp [exSim, SimSetup.model])

end Dc
end LDT
