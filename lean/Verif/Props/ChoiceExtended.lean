import Verif.Lemmas.ChoiceSim
import Verif.Props.Roc
import Verif.Props.ChoiceProb
/-! # C116: from a table to an estimated and scored model of discrete choice -/
namespace LDT
namespace Dc
open Op Di Mx Arr

theorem get_mem {α : Type} {m : Mat α} {R i j : ℕ} (hR : m.rows = R) {v : α} (hv : m.get i j = .ok v) : m.mem[i + j * R]? = some v := by
  unfold Mat.get at hv
  split_ifs at hv
  unfold Mat.get0 Mx.read at hv
  have e : ((i : ℤ) + m.rows * j).toNat = i + j * R := by
    rw [hR]
    have : ((i : ℤ) + (R : ℤ) * (j : ℤ)) = ((i + j * R : ℕ) : ℤ) := by push_cast; ring
    rw [this, Int.toNat_natCast]
  rw [e] at hv
  split_ifs at hv with h0
  cases hq : m.mem[i + j * R]? with
  | none => rw [hq] at hv; cases hv
  | some a => rw [hq] at hv; rw [Outcome.ok.inj hv]

theorem numbers_cell {m : Mat (Val ℝ)} {t : Mat ℝ} (h : numbers m = some t) {R C i j : ℕ} (hR : m.rows = R) (hC : m.cols = C) (hi : i < R)
    (hj : j < C) {v : Val ℝ} (hv : m.get i j = .ok v) : v = some (t.mem.getD (i + j * R) 0) ∧ t.rows = R ∧ t.cols = C := by
  have hlt : i + j * R < R * C := by
    calc i + j * R < R + j * R := by omega
      _ = (j + 1) * R := by ring
      _ ≤ C * R := Nat.mul_le_mul_right _ hj
      _ = R * C := by ring
  have ek : (m.rows * m.cols).toNat = R * C := by rw [hR, hC]; exact_mod_cast Int.toNat_natCast (R * C)
  unfold numbers at h
  split_ifs at h with hall
  rw [ek] at hall h
  obtain rfl := Option.some.inj h
  refine ⟨?_, hR, hC⟩
  have hread : m.mem[i + j * R]? = some v := get_mem hR hv
  have htake : (m.mem.take (R * C))[i + j * R]? = some v := by rw [List.getElem?_take, if_pos hlt]; exact hread
  have hsome : v.isSome = true := by
    rw [List.all_eq_true] at hall
    exact hall v (List.mem_of_getElem? htake)
  obtain ⟨x, rfl⟩ := Option.isSome_iff_exists.1 hsome
  show some x = some ((((m.mem.take (R * C)).map fun v => v.getD 0)).getD (i + j * R) 0)
  rw [List.getD_eq_getElem?_getD, List.getElem?_map, htake]
  rfl

section
variable {S : Fns} (hS : S.Good) {u : ExtSetup} {self : ExtSizes} {E : ∀ k, Env k} {other : Outcome (Ext u.form u.cuts)} {data : Mat (Val ℝ)}
  (wd : data.Wf) {storage : List (Val ℝ)} (hst : (storage.length : ℤ) = data.rows * data.cols) {ols : Bool} {start : ∀ k, Option (Fin k → ℝ)}
  {fore : Option (ℕ × (ℕ → ℕ → ℝ))} {junk : ℕ → ℕ → Val ℝ} {r : Ext u.form u.cuts}

/-- The rows that are used. -/
def Used (checkNan : Bool) (data : Mat (Val ℝ)) (kept : List ℤ) : Prop :=
  if checkNan then CompleteRows Option.isNone data (upTo 0 data.cols) kept else kept = upTo 0 data.rows

/-- `D` has the rows `kept` of the table: the dependent variable, the weights (if there are any), the regressors. -/
def Holds (hasWeight : Bool) (data : Mat (Val ℝ)) (kept : List ℤ) (D : Data) : Prop :=
  let o : ℕ := if hasWeight then 2 else 1
  D.n = kept.length ∧ (D.k0 : ℤ) = max 0 (data.cols - o) ∧ (D.w = none ↔ hasWeight = false) ∧
    ∀ (i : ℕ) (row : ℤ), kept[i]? = some row → data.get row 0 = .ok (some (D.y i)) ∧
      (hasWeight = true → 2 ≤ data.cols → data.get row 1 = .ok (some (D.wt i))) ∧ ∀ j < D.k0, data.get row (j + o : ℕ) = .ok (some (D.x i j))

include wd hst in
theorem table_spec {m : Mat (Val ℝ)} {ds : Dataset} (h1 : Dataset.make data.rows data.cols u.checkNan false = .ok ds)
    (h2 : ds.calculate Option.isNone data none storage = .ok m) :
    ∃ kept, Used u.checkNan data kept ∧ m.rows = kept.length ∧ m.cols = data.cols ∧ 0 < data.cols ∧
      (∀ row ∈ kept, 0 ≤ row ∧ row < data.rows) ∧
      ∀ (a b : ℕ) (row : ℤ), kept[a]? = some row → (b : ℤ) < data.cols → m.get a b = data.get row b := by
  have hpos : 0 < data.cols ∧ 0 < data.rows ∧ ds.storageSize = data.rows * data.cols := by
    unfold Dataset.make at h1
    split_ifs at h1 with hneg
    obtain rfl := Outcome.ok.inj h1
    push Not at hneg
    exact ⟨hneg.1, hneg.2, rfl⟩
  have hsel : ∀ b : ℕ, (b : ℤ) < data.cols → (upTo 0 data.cols)[b]? = some (b : ℤ) := fun b hb => by
    rw [getElem?_upTo, if_pos (by omega), zero_add]
  have hlen : ((upTo 0 data.cols).length : ℤ) = data.cols := by unfold upTo; simp; omega
  cases hc : u.checkNan with
  | true =>
    rw [hc] at h1
    obtain ⟨kept, res, k1, k2, k3, k4, k5⟩ := C36_dataset_missing Option.isNone data.rows data.cols false ds h1 data wd (le_refl _)
      (upTo 0 data.cols) (fun k hk => mem_upTo.1 hk) (by simp) storage (by rw [hst, hpos.2.2])
    have : res = m := by
      simp only [Bool.false_eq_true, if_false] at k2
      rw [k2] at h2; exact Outcome.ok.inj h2
    subst this
    exact ⟨kept, k1, k3, by rw [k4, hlen], hpos.1, fun row hr => ⟨((k1.mem row).1 hr).1, ((k1.mem row).1 hr).2.1⟩, fun a b row ha hb => k5 a b row b ha (hsel b hb)⟩
  | false =>
    rw [hc] at h1
    obtain ⟨res, k2, k3, k4, k5⟩ := C36_dataset_all Option.isNone data.rows data.cols false ds h1 data wd (le_refl _)
      (upTo 0 data.cols) (fun k hk => mem_upTo.1 hk) (by simp) storage (by rw [hst, hpos.2.2])
    have : res = m := by
      simp only [Bool.false_eq_true, if_false] at k2
      rw [k2] at h2; exact Outcome.ok.inj h2
    subst this
    refine ⟨upTo 0 data.rows, rfl, ?_, by rw [k4, hlen], hpos.1, fun row hr => mem_upTo.1 hr, fun a b row ha hb => ?_⟩
    · rw [k3]; unfold upTo; simp; omega
    · have : (a : ℤ) = row ∧ 0 ≤ row ∧ row < data.rows := by
        have hm := mem_upTo.1 (List.mem_of_getElem? ha)
        rw [getElem?_upTo] at ha
        split_ifs at ha
        have := Option.some.inj ha
        exact ⟨by omega, hm.1, hm.2⟩
      obtain ⟨rfl, _, hlt⟩ := this
      exact k5 a b b (by omega) hlt (hsel b hb)

include wd hst in
theorem sample_spec {m : Mat (Val ℝ)} {t : Mat ℝ} (d : Done S u self E data storage ols start fore junk r m t) :
    ∃ kept, Used u.checkNan data kept ∧ Holds u.hasWeight data kept r.data ∧ (∀ i < r.data.n, m.mem.getD i none = some (r.data.y i)) ∧
      (u.hasWeight = true → 2 ≤ data.cols → ∀ i < r.data.n, m.mem.getD (r.data.n + i) none = some (r.data.wt i)) := by
  obtain ⟨ds, h1, h2⟩ := d.table
  obtain ⟨kept, k1, k2, k3, k4, kr, k5⟩ := table_spec wd hst h1 h2
  have hC : m.cols = (data.cols.toNat : ℕ) := by rw [k3]; omega
  have hrows : t.rows = kept.length ∧ t.cols = data.cols := by
    have := d.num
    unfold numbers at this
    split_ifs at this
    rw [← Option.some.inj this]
    exact ⟨k2, k3⟩
  have cell : ∀ (i : ℕ) (row : ℤ) (j : ℕ), kept[i]? = some row → (j : ℤ) < data.cols →
      data.get row j = .ok (some (t.mem.getD (i + j * t.rows.toNat) 0)) ∧
        m.mem[i + j * kept.length]? = some (some (t.mem.getD (i + j * t.rows.toNat) 0)) := fun i row j hi hj => by
    have hlt : i < kept.length := by
      by_contra hge
      rw [List.getElem?_eq_none (by omega)] at hi; cases hi
    have hrow := kr row (List.mem_of_getElem? hi)
    have e := k5 i j row hi hj
    have inr : data.InR row j := ⟨hrow.1, hrow.2, by omega, hj⟩
    obtain ⟨v, hv⟩ := get0_ok wd inr
    rw [← get_eq_get0 wd inr] at hv
    have := (numbers_cell d.num k2 hC hlt (by omega) (e.trans hv)).1
    have hm := get_mem k2 (e.trans hv)
    rw [hv, hm, this, hrows.1, Int.toNat_natCast]
    exact ⟨rfl, rfl⟩
  rw [d.sample]
  have hn : (dataOf u.hasWeight t).n = kept.length := by show t.rows.toNat = _; rw [hrows.1, Int.toNat_natCast]
  refine ⟨kept, k1, ⟨hn, ?_, ?_, fun i row hi => ⟨?_, fun hw h2 => ?_, fun j hj => ?_⟩⟩, fun i hi => ?_, fun hw h2 i hi => ?_⟩
  · show (((t.cols - if u.hasWeight then 2 else 1).toNat : ℕ) : ℤ) = _
    rw [hrows.2]
    cases u.hasWeight <;> simp <;> omega
  · cases u.hasWeight <;> simp [dataOf]
  · have := (cell i row 0 hi (by exact_mod_cast k4)).1
    exact_mod_cast this
  · have := (cell i row 1 hi (by omega)).1
    rw [hw]
    exact_mod_cast this
  · have hj' : j < (t.cols - if u.hasWeight then 2 else 1).toNat := hj
    rw [hrows.2] at hj'
    have := (cell i row (j + if u.hasWeight then 2 else 1) hi (by cases hw : u.hasWeight <;> simp [hw] at hj' ⊢ <;> omega)).1
    exact this
  · rw [hn] at hi
    have := (cell i kept[i] 0 (List.getElem?_eq_getElem hi) (by exact_mod_cast k4)).2
    rw [zero_mul, add_zero] at this
    rw [List.getD_eq_getElem?_getD, this]
    rfl
  · rw [hn] at hi
    have := (cell i kept[i] 1 (List.getElem?_eq_getElem hi) (by omega)).2
    rw [one_mul, add_comm] at this
    rw [hn, List.getD_eq_getElem?_getD, this, hw]
    rfl

include wd hst in
/-- **C116.** The sample: with `checkNan` the complete rows of the table in their order, else all rows; the first column is the dependent variable,
the second one holds the weights if there are any, the others are the regressors. The model is the one that is estimated from this sample. -/
theorem C116_sample (h : extended S u self E other data storage ols start fore junk = .ok r) (hE : ∀ r, other ≠ .ok r) :
    (∃ kept, Used u.checkNan data kept ∧ Holds u.hasWeight data kept r.data) ∧
      estimate S u.law u.form u.cuts r.data E u.details ols start = .ok r.est := by
  obtain ⟨m, t, d⟩ := extended_done h hE
  obtain ⟨kept, k1, k2, _⟩ := sample_spec wd hst d
  exact ⟨⟨kept, k1, k2⟩, d.est⟩

/-- The numbers of choices the two forms are made for. -/
def ExtSetup.Proper (u : ExtSetup) : Prop := (u.form = .binary → u.numChoices = 2) ∧ (u.form = .ordered → 3 ≤ u.numChoices)

include hS in
theorem probabilities_spec (hu : u.Proper) {k0 n : ℕ} {β : ℕ → ℝ} {x : ℕ → ℕ → ℝ} {i j : ℕ} (hi : i < n) (hj : j ≤ u.cuts) :
    probabilities S u.law u.form u.cuts k0 β n x junk i j = some (chance u.law.cdf u.cuts k0 β (index k0 x β i) j) := by
  unfold probabilities
  rw [if_pos ⟨hi, hj⟩]
  congr 1
  obtain ⟨hb, ho⟩ := hu
  cases hf : u.form with
  | binary =>
    have e : u.cuts = 1 := by unfold ExtSetup.cuts; rw [hb hf]; rfl
    rw [e] at hj ⊢
    exact C111_binary hS u.law k0 β _ j hj
  | ordered =>
    have e : 1 ≤ u.cuts := by unfold ExtSetup.cuts; have := ho hf; omega
    show orderedRow S u.law u.cuts k0 β _ _ j = _
    rw [C111_ordered hS u.law e, if_pos hj]
    rfl

include hS in
/-- **C116.** `PredProbs` are the probabilities of the choices for the given rows of regressors in the estimated model. -/
theorem C116_forecast (hu : u.Proper) {q : ℕ × (ℕ → ℕ → ℝ)} (h : extended S u self E other data storage ols start (some q) junk = .ok r)
    (hE : ∀ r, other ≠ .ok r) : ∃ p, r.pred = some p ∧ ∀ i < q.1, ∀ j ≤ u.cuts,
      p i j = some (chance u.law.cdf u.cuts r.data.k0 (ext r.est.beta) (index r.data.k0 q.2 (ext r.est.beta) i) j) := by
  obtain ⟨m, t, d⟩ := extended_done h hE
  exact ⟨_, d.pred, fun i hi j hj => probabilities_spec hS hu hi hj⟩

/-- The weights of the scores. -/
def ExtSetup.evalWeight (u : ExtSetup) (D : Data) (i : ℕ) : ℝ := if u.hasWeight && u.weightedEval then D.wt i else 1

theorem estimate_k0 {law : Law} {J : ℕ} {D : Data} {dd : Bool} {e : Est (kOf .binary J D)} (h : estimate S law .binary J D E dd ols start = .ok e) :
    1 ≤ D.n ∧ 1 ≤ D.k0 := by
  change estimateBinary S law D (E D.k0) dd ols (start D.k0) = .ok e at h
  unfold estimateBinary at h
  split_ifs at h with h1
  push Not at h1
  exact h1

/-- What the details of a model of two choices consist of. -/
structure DetailParts (S : Fns) (u : ExtSetup) (mem : List (Val ℝ)) (rows : ℕ) (D : Data) (P : ℕ → ℕ → Val ℝ) (d : ExtDetails) : Prop where
  proj : d.projections = P
  brier : d.brier = brier rows (fun i => if u.hasWeight && u.weightedEval then mem.getD (D.n + i) none else some 1)
    (fun i => mem.getD i none) (fun i => P i 1)
  auc : aucOf u.roc u.rocCosts D.n D.y (fun i => (P i 0).getD 0) (u.evalWeight D) = .ok d.auc
  cost : match u.costs with
    | none => d.costAverage = none
    | some c => ∃ q, FCost.calculate c (costObs D.n D.y (u.evalWeight D)) (dense rows 2 fun i j => (P i j).getD 0) = .ok q ∧ d.costAverage = some q.2

theorem details_parts {work : ℤ} {mem : List (Val ℝ)} {rows : ℕ} {D : Data} {β : ℕ → ℝ} {d : ExtDetails} (hb : u.form = .binary)
    (h : extDetails S u work mem rows D β junk = .ok d) :
    DetailParts S u mem rows D (probabilities S u.law .binary u.cuts D.k0 β D.n D.x junk) d ∧ (D.n : ℤ) ≤ work := by
  unfold extDetails at h
  rw [hb] at h
  split_ifs at h with hwk
  dsimp only at h
  obtain ⟨a, ha, h⟩ := bind_ok h
  have hl : (D.n : ℤ) ≤ work := by unfold probWork at hwk; rw [if_pos rfl] at hwk; exact not_lt.1 hwk
  cases hcs : u.costs with
  | none =>
    rw [hcs] at h
    rw [← Outcome.ok.inj h]
    exact ⟨⟨rfl, rfl, ha, by rw [hcs]⟩, hl⟩
  | some c =>
    rw [hcs] at h
    obtain ⟨q, hq, h⟩ := bind_ok h
    rw [← Outcome.ok.inj h]
    exact ⟨⟨rfl, rfl, ha, by rw [hcs]; exact ⟨q, hq, rfl⟩⟩, hl⟩

include hS in
theorem probabilities_binary {law : Law} {k0 n : ℕ} {β : ℕ → ℝ} {x : ℕ → ℕ → ℝ} {J i j : ℕ} (hJ : J = 1) (hi : i < n) (hj : j ≤ 1) :
    probabilities S law .binary J k0 β n x junk i j = some (chance law.cdf 1 k0 β (index k0 x β i) j) := by
  subst hJ
  unfold probabilities
  rw [if_pos ⟨hi, hj⟩]
  exact congrArg some (C111_binary hS law k0 β _ j hj)

include hS wd hst in
/-- **C116.** `Projections` are the probabilities of the choices of the sample in the estimated model. If no row was left out, `BrierScore` is the
(weighted) mean squared error of the probability of choice 1. -/
theorem C116_scores (hb : u.form = .binary) (hc : u.numChoices = 2) (hd : u.details = true)
    (h : extended S u self E other data storage ols start fore junk = .ok r) (hE : ∀ r, other ≠ .ok r) :
    ∃ d, r.details = some d ∧
      (∀ i < r.data.n, ∀ j ≤ 1, d.projections i j = some (chance u.law.cdf 1 r.data.k0 (ext r.est.beta) (index r.data.k0 r.data.x (ext r.est.beta) i) j)) ∧
      ((r.data.n : ℤ) = data.rows → ∑ i ∈ Finset.range r.data.n, u.evalWeight r.data i ≠ 0 →
        d.brier = some (Brier r.data.n (u.evalWeight r.data) r.data.y fun i =>
          chance u.law.cdf 1 r.data.k0 (ext r.est.beta) (index r.data.k0 r.data.x (ext r.est.beta) i) 1)) := by
  obtain ⟨m, t, dn⟩ := extended_done h hE
  obtain ⟨kept, k1, k2, ky, kw⟩ := sample_spec wd hst dn
  obtain ⟨d, hx, hr⟩ := dn.scored hd
  have e1 : u.cuts = 1 := by unfold ExtSetup.cuts; rw [hc]; rfl
  have hk : 1 ≤ r.data.k0 := by
    have he := dn.est
    have : ∀ (form : Form) (e : Est (kOf form u.cuts r.data)), form = .binary → estimate S u.law form u.cuts r.data E u.details ols start = .ok e → 1 ≤ r.data.k0 := by
      rintro form e rfl h; exact (estimate_k0 h).2
    exact this u.form r.est hb he
  obtain ⟨ps, -⟩ := details_parts hb hx
  refine ⟨d, hr, ?_⟩
  refine ⟨fun i hi j hj => by rw [ps.proj]; exact probabilities_binary hS e1 hi hj, fun hrows hsum => ?_⟩
  rw [ps.brier]
  have en : data.rows.toNat = r.data.n := by omega
  rw [en]
  refine brier_eq (fun i hi => ⟨?_, ky i hi, probabilities_binary hS e1 hi (le_refl 1)⟩) hsum
  unfold ExtSetup.evalWeight
  by_cases hw : (u.hasWeight && u.weightedEval) = true
  · rw [if_pos hw, if_pos hw]
    have hh : u.hasWeight = true := (Bool.and_eq_true_iff.1 hw).1
    have h2 : 2 ≤ data.cols := by
      have := k2.2.1
      rw [hh] at this
      simp at this
      omega
    exact kw hh h2 i hi
  · rw [if_neg hw, if_neg hw]

/-- **C116.** The score of a model of two choices is between 0 and 1, and 0 only if the probabilities are the choices. -/
theorem C116_brier_range {n : ℕ} {w y p : ℕ → ℝ} (hw : ∀ i < n, 0 < w i) (hn : 0 < n) (hy : ∀ i < n, y i = 0 ∨ y i = 1)
    (hp : ∀ i < n, 0 ≤ p i ∧ p i ≤ 1) : 0 ≤ Brier n w y p ∧ Brier n w y p ≤ 1 ∧ (Brier n w y p = 0 ↔ ∀ i < n, p i = y i) := by
  have hs : 0 < ∑ i ∈ Finset.range n, w i := Finset.sum_pos (fun i hi => hw i (Finset.mem_range.1 hi)) ⟨0, Finset.mem_range.2 hn⟩
  have h0 : ∀ i ∈ Finset.range n, 0 ≤ w i * (y i - p i) ^ 2 := fun i hi => mul_nonneg (hw i (Finset.mem_range.1 hi)).le (sq_nonneg _)
  unfold Brier
  refine ⟨div_nonneg (Finset.sum_nonneg h0) hs.le, ?_, ?_⟩
  · rw [div_le_one hs]
    refine Finset.sum_le_sum fun i hi => ?_
    have hi' := Finset.mem_range.1 hi
    have := hp i hi'
    have : (y i - p i) ^ 2 ≤ 1 := by rcases hy i hi' with h | h <;> rw [h] <;> nlinarith
    nlinarith [hw i hi']
  · rw [div_eq_zero_iff, or_iff_left hs.ne', Finset.sum_eq_zero_iff_of_nonneg h0]
    refine ⟨fun h i hi => ?_, fun h i hi => ?_⟩
    · have := h i (Finset.mem_range.2 hi)
      rcases mul_eq_zero.1 this with h | h
      · exact absurd h (hw i hi).ne'
      · have := pow_eq_zero_iff (two_ne_zero) |>.1 h; linarith
    · rw [h i (Finset.mem_range.1 hi)]; simp

end
end Dc
end LDT
