import Verif.Props.SearchReg
/-!
# C119: a whole search, and a concrete one
-/
namespace LDT
namespace Srch
open Arr Di Score

section
variable {S : Fns} {c : RegCfg} {big tiny : ℝ} {st0 : RegSt}

/-- An estimator that does not remember earlier calls. -/
theorem answers_const (e : List Int → List Int → RegOut) : ∀ (calls done : List Visit),
    answers c (fun _ => e) done calls = calls.map fun v => (v.cur, e (tableColumns c v.cur) (wanted c v.cur)) := by
  intro calls
  induction calls with
  | nil => intro done; rfl
  | cons v vs ih => intro done; simp only [answers, List.map_cons, ih]

theorem columns_selects {parts : List (List Int)} {n : Nat} (hn : n = c.n) (hr : ∀ g ∈ parts, ∀ a ∈ g, 0 ≤ a ∧ a < (c.numEndo + c.numExo : Nat))
    {v : Visit} (hl : v.parts.length = n) (h : Columns parts v.parts v.items v.cur) : Selects c v := by
  obtain ⟨h1, h2⟩ := h
  refine ⟨by rw [h1, hl, hn], fun a ha => ?_⟩
  obtain ⟨j, hj, rfl⟩ := List.getElem_of_mem ha
  obtain ⟨g, e1, e2, e3⟩ := h2 j (by omega)
  rw [List.getElem?_eq_getElem hj, List.getElem?_eq_getElem e2] at e3
  rw [Option.some.inj e3]
  exact hr g (List.mem_of_getElem? e1) _ (List.getElem_mem e2)

/-- **C119**, completeness: a search with given endogenous variables that is not cancelled tries every model of the given size exactly once, and its
summaries have received exactly what the estimator answers for them. -/
theorem C119_search (h : regConstruct c big tiny = .ok st0) (hr : Ready c) (comb : Combinations) (h0 : comb.numFixItems = 0)
    (hf : comb.numFixPartitions ≤ c.n) (hn : c.n ≤ comb.partitions.length) (hpos : 0 < c.n)
    (hv : ∀ g ∈ comb.partitions, ∀ a ∈ g, 0 ≤ a ∧ a < (c.numEndo + c.numExo : Nat)) (e : List Int → List Int → RegOut) (atMsg : String) :
    ∃ (order : List (List Nat × List Nat)) (bound : Nat), order.Nodup ∧
      (∀ p i, (p, i) ∈ order ↔ IsModel comb.partitions c.n p i ∧ ∀ q, q < comb.numFixPartitions → q ∈ p) ∧
      ∀ (cancel : Nat → Bool) (lt : Int) (fuel : Nat), (∀ j, cancel j = false) → bound ≤ fuel →
        ∃ run, start comb c.n (regEnv S c (fun _ => e) atMsg cancel st0) false lt fuel = .ok run ∧ run.positions = order ∧
          (∀ v ∈ run.log, Columns comb.partitions v.parts v.items v.cur) ∧
          let fin := stateAfter S c (fun _ => e) atMsg [] run.log st0
          let ms := estimated c (run.log.map fun v => (v.cur, e (tableColumns c v.cur) (wanted c v.cur)))
          (c.keepModels = true → ∀ i t, i < c.lengthEvals →
            FedBy S c.items (posOf c) big tiny c.numEndo c.numExo (fin.s0 i t, (ms.flatMap (modelKept c i t)).map fun x => (true, x))) ∧
          (∀ i t k, i < c.lengthEvals → k < c.length1 →
            FedBy S c.items (posOf c) big tiny c.numEndo c.numExo (fin.s1 i t k, (ms.flatMap (coefKept c i t k)).map fun x => (false, x))) := by
  obtain ⟨order, bound, a1, a2, a3⟩ := C19_enumerates_fixed comb h0 c.n hf hn hpos
  refine ⟨order, bound, a1, a2, fun cancel lt fuel hc hb => ?_⟩
  obtain ⟨run, b1, b2, b3⟩ := a3 (regEnv S c (fun _ => e) atMsg cancel st0) lt fuel hc hb
  refine ⟨run, b1, b2, b3, ?_⟩
  have hsel : ∀ v ∈ run.log, Selects c v := by
    intro v hvm
    refine columns_selects rfl hv ?_ (b3 v hvm)
    have : (v.parts, v.items) ∈ order := by
      rw [← b2]
      exact List.mem_map.2 ⟨v, hvm, rfl⟩
    exact ((a2 _ _).1 this).1.lenP
  have ha := answers_const (c := c) e run.log []
  refine ⟨fun hk i t hi => ?_, fun i t k hi hk => ?_⟩
  · have := C119_models_kept (S := S) h hr (fun _ => e) atMsg run.log hsel i t hi hk
    rw [ha] at this
    exact this
  · have := C119_coefficients_kept (S := S) h hr (fun _ => e) atMsg run.log hsel i t k hi hk
    rw [ha] at this
    exact this

end

/-! ## Refusals -/

/-- **C119**: a searcher for given endogenous variables none of which is a target cannot be made. -/
theorem C119_no_target (c : RegCfg) (big tiny : ℝ) (hi : c.innerExo = false) (h : ∀ a ∈ c.inner, (c.lengthTargets : Int) ≤ a) :
    regConstruct c big tiny = .throws := by
  cases hc : regConstruct c big tiny with
  | ok st =>
    obtain ⟨-, -, -, -, -, -, hw⟩ := construct_spec hc
    refine absurd ?_ (hw hi)
    unfold wanted endoOf
    rw [if_neg (by simp [hi]), List.filter_eq_nil_iff]
    intro a ha
    have := h a ha
    simp; omega
  | throws => rfl
  | ub =>
    unfold regConstruct at hc
    split_ifs at hc <;> (dsimp only at hc) <;> split_ifs at hc
  | diverges =>
    unfold regConstruct at hc
    split_ifs at hc <;> (dsimp only at hc) <;> split_ifs at hc

/-! ## A concrete search -/

/-- One endogenous variable (the target), two exogenous variables, a weight; one metric (AIC), two coefficients. -/
noncomputable def exCfg : RegCfg where
  items := exItems
  keepModels := true
  lengthEvals := 1
  lengthTargets := 1
  length1 := 2
  numEndo := 1
  numExo := 2
  hasWeight := true
  metricsIn := [.frequencyCost]
  metricsOut := []
  minIn := fun _ => none
  minOut := fun _ => none
  pos := [false]
  innerExo := false
  inner := [0]
  n := 1

/-- The model with the first exogenous variable can be estimated, the other one not. -/
noncomputable def exEst (cols : List Int) (_ : List Int) : RegOut :=
  if cols = [0, 1, 2] then
    ⟨false, .returns "", false, fun _ _ => some (1/4), fun k _ => if k = 0 then some 3 else none, fun _ _ => some 2, []⟩
  else ⟨false, .throwsMsg "singular", false, fun _ _ => none, fun _ _ => none, fun _ _ => none, []⟩

/-- The two calls. -/
def exCalls : List Visit := [⟨[0], [0], [1]⟩, ⟨[1], [0], [2]⟩]

theorem C119_example (S : Fns) (big tiny : ℝ) : ∃ st0, regConstruct exCfg big tiny = .ok st0 ∧ Ready exCfg ∧ (∀ v ∈ exCalls, Selects exCfg v) ∧
    FedBy S exItems (posOf exCfg) big tiny 1 2 ((stateAfter S exCfg (fun _ => exEst) "at" [] exCalls st0).s1 0 0 0,
      [(false, ⟨1/4, 3/4, some 3, some 2, [0], [1], []⟩)]) ∧
    FedBy S exItems (posOf exCfg) big tiny 1 2 ((stateAfter S exCfg (fun _ => exEst) "at" [] exCalls st0).s1 0 0 1, []) := by
  have hmake : ∃ st0, regConstruct exCfg big tiny = .ok st0 := by
    unfold regConstruct exCfg
    exact ⟨_, rfl⟩
  obtain ⟨st0, h⟩ := hmake
  have hr : Ready exCfg := by
    refine ⟨rfl, fun g l h => ?_, fun g l h => ?_, fun a ha => ?_⟩
    · simp [exCfg] at h
    · simp [exCfg] at h
    · simp [exCfg] at ha ⊢; omega
  have hs : ∀ v ∈ exCalls, Selects exCfg v := by
    intro v hv
    simp [exCalls] at hv
    rcases hv with rfl | rfl
    · refine ⟨rfl, ?_⟩; simp [exCfg]
    · refine ⟨rfl, ?_⟩; simp [exCfg]
  have w0 : ∀ cur, wanted exCfg cur = [0] := by intro cur; simp [wanted, endoOf, exCfg]
  have ha : estimated exCfg (answers exCfg (fun _ => exEst) [] exCalls) = [([1], exEst [0, 1, 2] [0])] := by
    rw [answers_const]
    have t1 : tableColumns exCfg [1] = [0, 1, 2] := by simp [tableColumns, endoOf, exoOf, exCfg]
    have t2 : tableColumns exCfg [2] = [0, 1, 3] := by simp [tableColumns, endoOf, exoOf, exCfg]
    simp only [exCalls, List.map_cons, List.map_nil, t1, t2, w0]
    rw [estimated_cons, estimated_cons]
    have e1 : Estimated exCfg [1] (exEst [0, 1, 2] [0]) := by
      refine ⟨by rw [w0]; simp, ?_, ?_, ?_⟩ <;> simp [exEst]
    have e2 : ¬ Estimated exCfg [2] (exEst [0, 1, 3] [0]) := by
      rintro ⟨-, -, h, -⟩; simp [exEst] at h
    rw [if_pos e1, if_neg e2]; rfl
  refine ⟨st0, h, hr, hs, ?_, ?_⟩
  · have := C119_coefficients_kept (S := S) h hr (fun _ => exEst) "at" exCalls hs 0 0 0 (by simp [exCfg]) (by simp [exCfg])
    rw [ha] at this
    have e : ([(([1] : List Int), exEst [0, 1, 2] [0])].flatMap (coefKept exCfg 0 0 0)).map (fun e => (false, e)) =
        [(false, (⟨1/4, 3/4, some 3, some 2, [0], [1], []⟩ : Est))] := by
      simp [coefKept, w0, exEst]
      simp [regWeight, exCfg, gofToWeight, endoOf, exoOf]
      norm_num
    rw [e] at this
    exact this
  · have := C119_coefficients_kept (S := S) h hr (fun _ => exEst) "at" exCalls hs 0 0 1 (by simp [exCfg]) (by simp [exCfg])
    rw [ha] at this
    have e : ([(([1] : List Int), exEst [0, 1, 2] [0])].flatMap (coefKept exCfg 0 0 1)).map (fun e => (false, e)) = [] := by
      simp [coefKept, w0, exEst]
    rw [e] at this
    exact this

end Srch
end LDT
