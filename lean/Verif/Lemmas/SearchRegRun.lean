import Verif.Lemmas.SearchReg
/-!
# One call of the searcher of regression models, and a sequence of calls
-/
namespace LDT
namespace Srch
open Arr Di Score

variable {S : Fns} {c : RegCfg} {big tiny : ℝ}

/-- What the model of a call adds to the summary of metric `i`, target `t`. -/
noncomputable def add0 (c : RegCfg) (i t : Nat) (r : List Int × RegOut) : List (Bool × Est) :=
  (cells c.lengthEvals (wanted c r.1).length).flatMap (cell0 c r.1 r.2 (wanted c r.1) i t)

/-- What the model of a call adds to the summary of metric `i`, target `t`, coefficient `k`. -/
noncomputable def add1 (c : RegCfg) (i t k : Nat) (r : List Int × RegOut) : List (Bool × Est) :=
  (cells c.lengthEvals (wanted c r.1).length).flatMap (cell1 c r.1 r.2 (wanted c r.1) i t k)

theorem flat_single {α β : Type} (f : α → List β) (n : Nat) (p : Nat → Prop) [DecidablePred p] (g : Nat → α) (a : Nat) (ha : a < n) (hp : ∀ i, p i ↔ i = a) :
    ((List.range n).flatMap fun i => if p i then f (g i) else []) = f (g a) := by
  induction n with
  | zero => omega
  | succ n ih =>
    rw [List.range_succ, List.flatMap_append, List.flatMap_cons, List.flatMap_nil, List.append_nil]
    by_cases h : a = n
    · subst h
      rw [if_pos ((hp _).2 rfl)]
      have : ((List.range a).flatMap fun i => if p i then f (g i) else []) = [] := by
        rw [List.flatMap_eq_nil_iff]
        intro i hi
        rw [List.mem_range] at hi
        rw [if_neg (by rw [hp]; omega)]
      rw [this, List.nil_append]
    · rw [ih (by omega), if_neg (by rw [hp]; omega), List.append_nil]

theorem flat_cells {β : Type} (m T a : Nat) (ha : a < m) (f : Nat × Nat → List β) (hf : ∀ p, p.1 ≠ a → f p = []) :
    (cells m T).flatMap f = (List.range T).flatMap fun j => f (a, j) := by
  unfold cells
  rw [List.flatMap_assoc]
  have : (fun i => ((List.range T).map fun j => (i, j)).flatMap f) = fun i => if i = a then ((List.range T).map fun j => (i, j)).flatMap f else [] := by
    funext i
    by_cases h : i = a
    · rw [if_pos h]
    · rw [if_neg h, List.flatMap_eq_nil_iff]
      intro p hp
      obtain ⟨j, -, rfl⟩ := List.mem_map.1 hp
      exact hf _ h
  rw [this, flat_single (fun i : Nat => ((List.range T).map fun j => (i, j)).flatMap f) m (· = a) (fun i => i) a ha (fun i => Iff.rfl), List.flatMap_map]

theorem add0_eq {i t : Nat} (hi : i < c.lengthEvals) (r : List Int × RegOut) :
    add0 c i t r = if c.keepModels then (modelKept c i t r).map fun e => (true, e) else [] := by
  unfold add0
  rw [flat_cells _ _ i hi _ (by intro p hp; unfold cell0; rw [if_neg (by rintro ⟨h, -⟩; exact hp h.symm)])]
  by_cases hk : c.keepModels = true
  · rw [if_pos hk]
    unfold modelKept
    rw [List.map_flatMap]
    congr 1
    funext j
    unfold cell0
    by_cases hj : (wanted c r.1)[j]? = some (t : Int)
    · rw [if_pos ⟨rfl, hj⟩, if_pos hj]
      dsimp only
      cases r.2.metric i j with
      | none => rfl
      | some q =>
        simp only [if_pos hk, List.map_cons, List.map_nil]
        unfold keepOf endoOf exoOf
        cases c.innerExo <;> rfl
    · rw [if_neg (by rintro ⟨-, h⟩; exact hj h), if_neg hj]; rfl
  · rw [if_neg hk]
    rw [List.flatMap_eq_nil_iff]
    intro j _
    unfold cell0
    split_ifs <;> try rfl
    dsimp only
    cases r.2.metric i j <;> rfl

theorem add1_eq {i t k : Nat} (hi : i < c.lengthEvals) (hk : k < c.length1) (r : List Int × RegOut) :
    add1 c i t k r = (coefKept c i t k r).map fun e => (false, e) := by
  unfold add1
  rw [flat_cells _ _ i hi _ (by intro p hp; unfold cell1; rw [if_neg (by rintro ⟨h, -⟩; exact hp h.symm)])]
  unfold coefKept
  rw [List.map_flatMap]
  congr 1
  funext j
  unfold cell1
  by_cases hj : (wanted c r.1)[j]? = some (t : Int)
  · rw [if_pos ⟨rfl, hj, hk⟩, if_pos hj]
    dsimp only
    cases r.2.metric i j with
    | none => rfl
    | some q =>
      dsimp only
      unfold coefOf
      cases r.2.mean k j with
      | none => rfl
      | some m =>
        unfold keepOf endoOf exoOf
        cases c.innerExo <;> rfl
  · rw [if_neg (by rintro ⟨-, h, -⟩; exact hj h), if_neg hj]; rfl

/-- The estimator found a metric. -/
def Found (c : RegCfg) (r : List Int × RegOut) : Prop := ∃ i j, i < c.lengthEvals ∧ j < (wanted c r.1).length ∧ r.2.metric i j ≠ none

theorem mem_cells {m T : Nat} {p : Nat × Nat} : p ∈ cells m T ↔ p.1 < m ∧ p.2 < T := by
  unfold cells
  simp only [List.mem_flatMap, List.mem_range, List.mem_map]
  constructor
  · rintro ⟨i, hi, j, hj, rfl⟩; exact ⟨hi, hj⟩
  · rintro ⟨h1, h2⟩; exact ⟨p.1, h1, p.2, h2, rfl⟩

theorem found_iff (r : List Int × RegOut) :
    ((cells c.lengthEvals (wanted c r.1).length).all fun p => (r.2.metric p.1 p.2).isNone) = true ↔ ¬ Found c r := by
  rw [List.all_eq_true]
  constructor
  · rintro h ⟨i, j, h1, h2, h3⟩
    have := h (i, j) (mem_cells.2 ⟨h1, h2⟩)
    rw [Option.isNone_iff_eq_none] at this
    exact h3 this
  · intro h p hp
    rw [Option.isNone_iff_eq_none]
    by_contra hn
    obtain ⟨h1, h2⟩ := mem_cells.1 hp
    exact h ⟨p.1, p.2, h1, h2, hn⟩

open Classical in
/-- A call of `EstimateOne`. -/
theorem estimateOne_spec (hr : Ready c) (hE : 0 < c.lengthEvals) {cur : List Int} (hl : cur.length = c.n)
    (hc : ∀ a ∈ cur, 0 ≤ a ∧ a < (c.numEndo + c.numExo : Nat)) {st : RegSt} (hC : ColsOk c st) {h0 h1} (hI : Inv S c big tiny st h0 h1)
    (est : List Int → List Int → RegOut) (atMsg : String) :
    let r := (cur, est (tableColumns c cur) (wanted c cur))
    ∃ st' rep, estimateOne S c est atMsg cur st = (st', rep) ∧ ColsOk c st' ∧ st'.cols = tableColumns c cur ∧ st'.targets = wanted c cur ∧
      (Estimated c cur r.2 → Found c r → rep = .returns "") ∧
      (Estimated c cur r.2 → ¬ Found c r → rep = .throwsMsg "all metrics are NaN") ∧
      (¬ Estimated c cur r.2 → rep = .throwsMsg "No targets!" ∨ rep = .returns "cancel" ∨ (rep = r.2.reply ∧ r.2.reply ≠ .returns "")) ∧
      (¬ (Estimated c cur r.2 ∧ Found c r) → st'.s0 = st.s0 ∧ st'.s1 = st.s1) ∧
      Inv S c big tiny st' (fun i t => h0 i t ++ if Estimated c cur r.2 then add0 c i t r else [])
        (fun i t k => h1 i t k ++ if Estimated c cur r.2 then add1 c i t k r else []) := by
  intro r
  obtain ⟨s1, s2, s3, s4, s5⟩ := setIndices_spec hC hl
  have hI' : Inv S c big tiny (setIndices c cur st) h0 h1 :=
    ⟨fun i t => by rw [s3]; exact hI.s0 i t, fun i t k => by rw [s4]; exact hI.s1 i t k, hI.r0, hI.r1⟩
  have notEst : ¬ Estimated c cur r.2 → Inv S c big tiny (setIndices c cur st) (fun i t => h0 i t ++ if Estimated c cur r.2 then add0 c i t r else [])
        (fun i t k => h1 i t k ++ if Estimated c cur r.2 then add1 c i t k r else []) := fun h =>
    hI'.congr (fun i t => by rw [if_neg h, List.append_nil]) fun i t k => by rw [if_neg h, List.append_nil]
  unfold estimateOne
  dsimp only
  rw [s1, s2, if_neg (by rw [← hr.evals]; omega)]
  by_cases hw : (wanted c cur).length = 0
  · have hn : ¬ Estimated c cur r.2 := by
      rintro ⟨h, -⟩; exact h (by simpa using hw)
    rw [if_pos hw]
    refine ⟨_, _, rfl, s5, s1, s2, fun h => absurd h hn, fun h => absurd h hn, fun _ => Or.inl rfl, fun _ => ⟨s3, s4⟩, notEst hn⟩
  rw [if_neg hw]
  change ∃ st' rep, (if r.2.cancelBefore = true then _ else _) = (st', rep) ∧ _
  by_cases hb : r.2.cancelBefore = true
  · have hn : ¬ Estimated c cur r.2 := by rintro ⟨-, h, -⟩; rw [hb] at h; cases h
    rw [if_pos hb]
    refine ⟨_, _, rfl, s5, s1, s2, fun h => absurd h hn, fun h => absurd h hn, fun _ => Or.inr (Or.inl rfl), fun _ => ⟨s3, s4⟩, notEst hn⟩
  rw [if_neg hb]
  have other : ∀ rep : Reply, r.2.reply = rep → rep ≠ .returns "" → ∀ x : RegSt × Reply, x = (setIndices c cur st, rep) →
      ∃ st' rep, x = (st', rep) ∧ ColsOk c st' ∧ st'.cols = tableColumns c cur ∧ st'.targets = wanted c cur ∧
      (Estimated c cur r.2 → Found c r → rep = .returns "") ∧
      (Estimated c cur r.2 → ¬ Found c r → rep = .throwsMsg "all metrics are NaN") ∧
      (¬ Estimated c cur r.2 → rep = .throwsMsg "No targets!" ∨ rep = .returns "cancel" ∨ (rep = r.2.reply ∧ r.2.reply ≠ .returns "")) ∧
      (¬ (Estimated c cur r.2 ∧ Found c r) → st'.s0 = st.s0 ∧ st'.s1 = st.s1) ∧
      Inv S c big tiny st' (fun i t => h0 i t ++ if Estimated c cur r.2 then add0 c i t r else [])
        (fun i t k => h1 i t k ++ if Estimated c cur r.2 then add1 c i t k r else []) := by
    intro rep e hne x hx
    have hn : ¬ Estimated c cur r.2 := by rintro ⟨-, -, h, -⟩; rw [e] at h; exact hne h
    exact ⟨_, _, hx, s5, s1, s2, fun h => absurd h hn, fun h => absurd h hn, fun _ => Or.inr (Or.inr ⟨e.symm, by rw [e]; exact hne⟩), fun _ => ⟨s3, s4⟩, notEst hn⟩
  change ∃ st' rep, (match r.2.reply with
      | .returns s => _
      | x => (setIndices c cur st, x)) = (st', rep) ∧ _
  cases hrep : r.2.reply with
  | throwsMsg s =>
    have := other _ hrep (by simp) _ rfl
    rw [hrep] at this
    exact this
  | throwsOther =>
    have := other _ hrep (by simp) _ rfl
    rw [hrep] at this
    exact this
  | returns s =>
    dsimp only
    by_cases hs : s.length ≠ 0
    · rw [if_pos hs]
      have := other _ hrep (by intro h; cases h; exact hs rfl) _ rfl
      rw [hrep] at this
      exact this
    have hs' : s = "" := by
      rw [not_not] at hs
      exact String.length_eq_zero_iff.1 hs
    subst hs'
    rw [if_neg hs]
    by_cases ha : r.2.cancelAfter = true
    · have hn : ¬ Estimated c cur r.2 := by rintro ⟨-, -, -, h⟩; rw [ha] at h; cases h
      rw [if_pos ha]
      refine ⟨_, _, rfl, s5, s1, s2, fun h => absurd h hn, fun h => absurd h hn, fun _ => Or.inr (Or.inl rfl), fun _ => ⟨s3, s4⟩, notEst hn⟩
    rw [if_neg ha]
    have hEst : Estimated c cur r.2 := ⟨by intro h; exact hw (by rw [h]; rfl), by simpa using hb, hrep, by simpa using ha⟩
    have hwr : ∀ a ∈ wanted c cur, 0 ≤ a ∧ a < (c.lengthTargets : Int) := by
      intro a ha
      unfold wanted at ha
      obtain ⟨h1, h2⟩ := List.mem_filter.1 ha
      refine ⟨?_, by simpa using h2⟩
      unfold endoOf at h1
      split_ifs at h1
      · exact (hc a h1).1
      · exact (hr.inner a h1).1
    obtain ⟨st', e1, e2, e3, e4, e5⟩ := pushCells_spec hr hc r.2 (wanted c cur) hwr (cells c.lengthEvals (wanted c cur).length) (setIndices c cur st) true h0 h1
      (fun p hp => mem_cells.1 hp) hI'
    rw [← hr.evals]
    change ∃ st'' rep, (match pushCells S c cur r.2 (wanted c cur) (cells c.lengthEvals (wanted c cur).length) (setIndices c cur st) true with
      | (st, none) => (st, Reply.throwsMsg atMsg)
      | (st, some true) => (st, Reply.throwsMsg "all metrics are NaN")
      | (st, some false) => (st, Reply.returns "")) = (st'', rep) ∧ _
    rw [e1, Bool.true_and]
    have hfi := found_iff (c := c) r
    have hC' : ColsOk c st' := by
      obtain ⟨x, hx, h⟩ := s5
      refine ⟨x, hx, ?_⟩
      rw [e2, e3]; exact h
    have hInv : Inv S c big tiny st' (fun i t => h0 i t ++ if Estimated c cur r.2 then add0 c i t r else [])
        (fun i t k => h1 i t k ++ if Estimated c cur r.2 then add1 c i t k r else []) :=
      e5.congr (fun i t => by rw [if_pos hEst]; rfl) fun i t k => by rw [if_pos hEst]; rfl
    change ((cells c.lengthEvals (wanted c cur).length).all fun p => (r.2.metric p.1 p.2).isNone) = true ↔ _ at hfi
    by_cases hF : Found c r
    · have : ((cells c.lengthEvals (wanted c cur).length).all fun p => (r.2.metric p.1 p.2).isNone) = false := by
        cases h : ((cells c.lengthEvals (wanted c cur).length).all fun p => (r.2.metric p.1 p.2).isNone) with
        | false => rfl
        | true => exact absurd hF (hfi.1 h)
      rw [this]
      refine ⟨_, _, rfl, hC', e2.trans s1, e3.trans s2, fun _ _ => rfl, fun _ h => absurd hF h, fun h => absurd hEst h, fun h => absurd ⟨hEst, hF⟩ h, hInv⟩
    · have := hfi.2 hF
      rw [this]
      have e4 := e4 this
      refine ⟨_, _, rfl, hC', e2.trans s1, e3.trans s2, fun _ h => absurd h hF, fun _ _ => rfl, fun h => absurd hEst h, fun _ => ?_, hInv⟩
      rw [e4]; exact ⟨s3, s4⟩

open Classical in
theorem estimated_cons (r : List Int × RegOut) (l : List (List Int × RegOut)) :
    estimated c (r :: l) = (if Estimated c r.1 r.2 then [r] else []) ++ estimated c l := by
  unfold estimated
  by_cases h : Estimated c r.1 r.2
  · rw [if_pos h, List.filter_cons_of_pos (by simpa using h)]; rfl
  · rw [if_neg h, List.filter_cons_of_neg (by simpa using h)]; rfl

/-- A sequence of calls. -/
theorem stateAfter_spec (hr : Ready c) (hE : 0 < c.lengthEvals) (est : List Visit → List Int → List Int → RegOut) (atMsg : String) :
    ∀ (calls done : List Visit) (st : RegSt) (h0 h1), (∀ v ∈ calls, Selects c v) → ColsOk c st → Inv S c big tiny st h0 h1 →
    ColsOk c (stateAfter S c est atMsg done calls st) ∧
    Inv S c big tiny (stateAfter S c est atMsg done calls st)
      (fun i t => h0 i t ++ (estimated c (answers c est done calls)).flatMap (add0 c i t))
      (fun i t k => h1 i t k ++ (estimated c (answers c est done calls)).flatMap (add1 c i t k)) := by
  intro calls
  induction calls with
  | nil => intro done st h0 h1 _ hC hI; exact ⟨hC, by simpa [stateAfter, answers, estimated] using hI⟩
  | cons v vs ih =>
    intro done st h0 h1 hv hC hI
    obtain ⟨hl, hc⟩ := hv v (by simp)
    obtain ⟨st', rep, e1, e2, -, -, -, -, -, -, e3⟩ := estimateOne_spec hr hE hl hc hC hI (est done) atMsg
    unfold stateAfter
    rw [e1]
    obtain ⟨f1, f2⟩ := ih (done ++ [v]) st' _ _ (fun u hu => hv u (by simp [hu])) e2 e3
    refine ⟨f1, f2.congr (fun i t => ?_) fun i t k => ?_⟩
    all_goals
      rw [List.append_assoc]
      congr 1
      rw [show answers c est done (v :: vs) = (v.cur, est done (tableColumns c v.cur) (wanted c v.cur)) :: answers c est (done ++ [v]) vs from rfl,
        estimated_cons, List.flatMap_append]
      congr 1
      by_cases hE' : Estimated c v.cur (est done (tableColumns c v.cur) (wanted c v.cur))
      · rw [if_pos hE', if_pos hE']; simp
      · rw [if_neg hE', if_neg hE']; rfl

end Srch
end LDT
