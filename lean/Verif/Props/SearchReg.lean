import Verif.Lemmas.SearchRegRun
import Verif.Props.Search
/-!
# C119: a search over regression models keeps exactly the models that were estimated

`stateAfter … [] calls st0` is the object after the calls of `EstimateOne` for the combinations `calls`; by `start` with
`regEnv` these are the combinations in the log of the search.
-/
namespace LDT
namespace Srch
open Arr Di Score

section
variable {S : Fns} {c : RegCfg} {big tiny : ℝ} {st0 : RegSt}

theorem inv_start (h : regConstruct c big tiny = .ok st0) : Inv S c big tiny st0 (fun _ _ => []) (fun _ _ _ => []) := by
  obtain ⟨-, h0, h1, -⟩ := construct_spec h
  refine ⟨fun i t => by rw [h0]; rfl, fun i t k => by rw [h1]; rfl, fun _ _ _ h => by simp at h, fun _ _ _ _ h => by simp at h⟩

theorem after_spec (h : regConstruct c big tiny = .ok st0) (hr : Ready c) (est : List Visit → List Int → List Int → RegOut) (atMsg : String)
    (calls : List Visit) (hv : ∀ v ∈ calls, Selects c v) :
    ColsOk c (stateAfter S c est atMsg [] calls st0) ∧ Inv S c big tiny (stateAfter S c est atMsg [] calls st0)
      (fun i t => (estimated c (answers c est [] calls)).flatMap (add0 c i t))
      (fun i t k => (estimated c (answers c est [] calls)).flatMap (add1 c i t k)) := by
  obtain ⟨a, -, -, b, -⟩ := construct_spec h
  obtain ⟨e, f⟩ := stateAfter_spec hr b est atMsg calls [] st0 _ _ hv a (inv_start (S := S) h)
  exact ⟨e, f.congr (fun _ _ => (List.nil_append _).symm) fun _ _ _ => (List.nil_append _).symm⟩

/-- **C119**: whatever was estimated before, the estimator works on the columns of the model: its endogenous variables, the weight if there
is one, its exogenous variables, and finds its targets; nothing else of the object decides the result. -/
theorem C119_estimator_input (h : regConstruct c big tiny = .ok st0) (hr : Ready c) (est : List Visit → List Int → List Int → RegOut) (atMsg : String)
    (calls : List Visit) (v : Visit) (hv : ∀ u ∈ calls ++ [v], Selects c u) :
    (stateAfter S c est atMsg [] (calls ++ [v]) st0).cols = tableColumns c v.cur ∧
    (stateAfter S c est atMsg [] (calls ++ [v]) st0).targets = wanted c v.cur ∧
    ∀ e e' : List Int → List Int → RegOut, e (tableColumns c v.cur) (wanted c v.cur) = e' (tableColumns c v.cur) (wanted c v.cur) →
      estimateOne S c e atMsg v.cur (stateAfter S c est atMsg [] calls st0) = estimateOne S c e' atMsg v.cur (stateAfter S c est atMsg [] calls st0) := by
  obtain ⟨hl, hc⟩ := hv v (by simp)
  obtain ⟨hC, hI⟩ := after_spec (S := S) h hr est atMsg calls fun u hu => hv u (by simp [hu])
  have hE := (construct_spec h).2.2.2.1
  have app : ∀ (l done : List Visit) (st : RegSt), stateAfter S c est atMsg done (l ++ [v]) st =
      (estimateOne S c (est (done ++ l)) atMsg v.cur (stateAfter S c est atMsg done l st)).1 := by
    intro l
    induction l with
    | nil => intro done st; simp [stateAfter]
    | cons u l ih => intro done st; simp only [List.cons_append, stateAfter, ih, List.append_assoc, List.singleton_append, List.cons_append, List.nil_append]
  rw [app]
  obtain ⟨st', rep, e1, -, e2, e3, -⟩ := estimateOne_spec hr hE hl hc hC hI (est ([] ++ calls)) atMsg
  refine ⟨by rw [e1]; exact e2, by rw [e1]; exact e3, fun e e' he => ?_⟩
  obtain ⟨s1, s2, -⟩ := setIndices_spec hC hl
  unfold estimateOne
  dsimp only
  rw [s1, s2, he]

/-- **C119**: after any calls the summary of metric `i` and target `t` has received exactly the models that were estimated, contain the
target and have this metric, in the order of the calls, with the weight of their metric; … -/
theorem C119_models_kept (h : regConstruct c big tiny = .ok st0) (hr : Ready c) (est : List Visit → List Int → List Int → RegOut) (atMsg : String)
    (calls : List Visit) (hv : ∀ v ∈ calls, Selects c v) (i t : Nat) (hi : i < c.lengthEvals) (hk : c.keepModels = true) :
    FedBy S c.items (posOf c) big tiny c.numEndo c.numExo
      ((stateAfter S c est atMsg [] calls st0).s0 i t, ((estimated c (answers c est [] calls)).flatMap (modelKept c i t)).map fun e => (true, e)) := by
  obtain ⟨-, hI⟩ := after_spec (S := S) h hr est atMsg calls hv
  have := hI.s0 i t
  obtain ⟨a, b, d⟩ := feed_index this
  unfold FedBy
  dsimp only
  rw [a, b, d, ← this]
  congr 1
  rw [List.map_flatMap]
  congr 1
  funext r
  rw [add0_eq hi, if_pos hk]

/-- … the summary of a coefficient the models among them that have this coefficient, with its mean and variance. -/
theorem C119_coefficients_kept (h : regConstruct c big tiny = .ok st0) (hr : Ready c) (est : List Visit → List Int → List Int → RegOut) (atMsg : String)
    (calls : List Visit) (hv : ∀ v ∈ calls, Selects c v) (i t k : Nat) (hi : i < c.lengthEvals) (hk : k < c.length1) :
    FedBy S c.items (posOf c) big tiny c.numEndo c.numExo
      ((stateAfter S c est atMsg [] calls st0).s1 i t k, ((estimated c (answers c est [] calls)).flatMap (coefKept c i t k)).map fun e => (false, e)) := by
  obtain ⟨-, hI⟩ := after_spec (S := S) h hr est atMsg calls hv
  have := hI.s1 i t k
  obtain ⟨a, b, d⟩ := feed_index this
  unfold FedBy
  dsimp only
  rw [a, b, d, ← this]
  congr 1
  rw [List.map_flatMap]
  congr 1
  funext r
  rw [add1_eq hi hk]

/-- **C119**: the answer of a call is success exactly if the model was estimated and has at least one metric; a call that fails leaves all
summaries as they were. -/
theorem C119_outcome (h : regConstruct c big tiny = .ok st0) (hr : Ready c) (est : List Visit → List Int → List Int → RegOut) (atMsg : String)
    (calls : List Visit) (v : Visit) (hv : ∀ u ∈ calls ++ [v], Selects c u)
    (hm : ∀ s, (est calls (tableColumns c v.cur) (wanted c v.cur)).reply = .throwsMsg s → s ≠ "") :
    let r := (v.cur, est calls (tableColumns c v.cur) (wanted c v.cur))
    let st := stateAfter S c est atMsg [] calls st0
    let x := estimateOne S c (est calls) atMsg v.cur st
    (x.2.message = "" ↔ Estimated c v.cur r.2 ∧ Found c r) ∧
    (x.2.message ≠ "" → x.1.s0 = st.s0 ∧ x.1.s1 = st.s1) := by
  intro r st x
  obtain ⟨hl, hc⟩ := hv v (by simp)
  obtain ⟨hC, hI⟩ := after_spec (S := S) h hr est atMsg calls fun u hu => hv u (by simp [hu])
  have hE := (construct_spec h).2.2.2.1
  obtain ⟨st', rep, e1, -, -, -, e2, e3, e4, e5, -⟩ := estimateOne_spec hr hE hl hc hC hI (est calls) atMsg
  have hx : x = (st', rep) := e1
  rw [hx]
  have key : rep.message = "" ↔ Estimated c v.cur r.2 ∧ Found c r := by
    constructor
    · intro hmsg
      by_contra hn
      by_cases hEs : Estimated c v.cur r.2
      · have := e3 hEs (fun hF => hn ⟨hEs, hF⟩)
        rw [this] at hmsg; exact absurd hmsg (by decide)
      · rcases e4 hEs with h | h | ⟨h, h'⟩
        · rw [h] at hmsg; exact absurd hmsg (by decide)
        · rw [h] at hmsg; exact absurd hmsg (by decide)
        · rw [h] at hmsg
          cases hrep : (est calls (tableColumns c v.cur) (wanted c v.cur)).reply with
          | returns s =>
            rw [hrep] at hmsg h'
            exact h' (congrArg Reply.returns hmsg)
          | throwsMsg s =>
            rw [hrep] at hmsg
            exact hm s hrep hmsg
          | throwsOther =>
            rw [hrep] at hmsg
            exact absurd hmsg (by decide)
    · rintro ⟨a, b⟩
      rw [e2 a b]; rfl
  refine ⟨key, fun hne => e5 fun hh => hne (key.2 hh)⟩

/-- **C119**: in a search whose look-ups do not fail the searcher counts as successes exactly the models that were estimated and have a metric. -/
theorem C119_counted (h : regConstruct c big tiny = .ok st0) (hr : Ready c) (est : List Visit → List Int → List Int → RegOut) (atMsg : String)
    (cancel : Nat → Bool) (comb : Combinations) (n : Nat) (check : Bool) (lt : Int) (fuel : Nat) (run : St)
    (hs : start comb n (regEnv S c est atMsg cancel st0) check lt fuel = .ok run) (hcount : run.counter = run.log.length)
    (hv : ∀ v ∈ run.log, Selects c v)
    (hm : ∀ done cols targets s, (est done cols targets).reply = .throwsMsg s → s ≠ "") (k : Nat) (v : Visit) (hk : run.log[k]? = some v) :
    run.msgs.length = run.log.length ∧ ∃ m, run.msgs[k]? = some m ∧
    (m = "" ↔ Estimated c v.cur (est (run.log.take k) (tableColumns c v.cur) (wanted c v.cur)) ∧
      Found c (v.cur, est (run.log.take k) (tableColumns c v.cur) (wanted c v.cur))) := by
  obtain ⟨h1, h2⟩ := C23_reports_are_answers comb n _ check lt fuel run hs hcount
  refine ⟨h1, _, h2 k v hk, ?_⟩
  have hkl : k < run.log.length := by
    rw [List.getElem?_eq_some_iff] at hk
    exact hk.1
  refine (C119_outcome (S := S) h hr est atMsg (run.log.take k) v ?_ (fun s hh => hm _ _ _ s hh)).1
  intro u hu
  refine hv u ?_
  rcases List.mem_append.1 hu with hu | hu
  · exact List.mem_of_mem_take hu
  · rw [List.mem_singleton.1 hu]
    exact List.mem_of_getElem? hk

end

/-! ## Several searchers -/

/-- A searcher with the calls it made. -/
structure RegRun where
  /-- options -/
  cfg : RegCfg
  /-- the object -/
  st0 : RegSt
  /-- the estimator -/
  est : List Visit → List Int → List Int → RegOut
  /-- message of `std::out_of_range` -/
  atMsg : String
  /-- the calls of `EstimateOne` -/
  calls : List Visit

/-- The object after its calls. -/
noncomputable def RegRun.final (S : Fns) (r : RegRun) : RegSt := stateAfter S r.cfg r.est r.atMsg [] r.calls r.st0

/-- The models that were estimated. -/
noncomputable def RegRun.models (r : RegRun) : List (List Int × RegOut) := estimated r.cfg (answers r.cfg r.est [] r.calls)

/-- A searcher that could be made with options that fit together and was called for variables of the data; the options that decide
about the summaries are the same for all searchers. -/
structure RegRun.Ok (big tiny : ℝ) (items : Items) (pos : Int → Bool) (ne nx m T L : Nat) (r : RegRun) : Prop where
  /-- made -/
  made : regConstruct r.cfg big tiny = .ok r.st0
  /-- options -/
  ready : Ready r.cfg
  /-- calls -/
  calls : ∀ v ∈ r.calls, Selects r.cfg v
  /-- common options -/
  items : r.cfg.items = items
  /-- common options -/
  pos : posOf r.cfg = pos
  /-- common options -/
  ne : r.cfg.numEndo = ne
  /-- common options -/
  nx : r.cfg.numExo = nx
  /-- common options -/
  evals : r.cfg.lengthEvals = m
  /-- common options -/
  targets : r.cfg.lengthTargets = T
  /-- common options -/
  length1 : r.cfg.length1 = L

section
variable {S : Fns} {big tiny : ℝ} {items : Items} {pos : Int → Bool} {ne nx m T L : Nat}

theorem flat_pick {α : Type} (n a : Nat) (ha : a < n) (g : Nat → List α) (hg : ∀ i, i < n → i ≠ a → g i = []) : (List.range n).flatMap g = g a := by
  induction n with
  | zero => omega
  | succ n ih =>
    rw [List.range_succ, List.flatMap_append, List.flatMap_cons, List.flatMap_nil, List.append_nil]
    by_cases h : a = n
    · subst h
      have : (List.range a).flatMap g = [] := by
        rw [List.flatMap_eq_nil_iff]
        intro i hi
        rw [List.mem_range] at hi
        exact hg i (by omega) (by omega)
      rw [this, List.nil_append]
    · rw [ih (by omega) fun i hi hne => hg i (by omega) hne, hg n (by omega) (by omega), List.append_nil]

theorem collected_flat (i1 i2 i3 : Int) (rs : List (Summ × List (Bool × Est))) :
    collected i1 i2 i3 rs = rs.flatMap fun p => if p.1.i1 = i1 ∧ p.1.i2 = i2 ∧ p.1.i3 = i3 then p.2 else [] := by
  unfold collected
  induction rs with
  | nil => rfl
  | cons p rs ih =>
    rw [List.flatMap_cons, ← ih]
    by_cases h : p.1.i1 = i1 ∧ p.1.i2 = i2 ∧ p.1.i3 = i3
    · rw [List.filter_cons_of_pos (by simpa using h), if_pos h, List.flatMap_cons]
    · rw [List.filter_cons_of_neg (by simpa using h), if_neg h, List.nil_append]

theorem collected2_flat (i1 i2 : Int) (rs : List (Summ × List (Bool × Est))) :
    collected2 i1 i2 rs = rs.flatMap fun p => if p.1.i1 = i1 ∧ p.1.i2 = i2 then p.2 else [] := by
  unfold collected2
  induction rs with
  | nil => rfl
  | cons p rs ih =>
    rw [List.flatMap_cons, ← ih]
    by_cases h : p.1.i1 = i1 ∧ p.1.i2 = i2
    · rw [List.filter_cons_of_pos (by simpa using h), if_pos h, List.flatMap_cons]
    · rw [List.filter_cons_of_neg (by simpa using h), if_neg h, List.nil_append]

/-- The summaries of the coefficients with what they received. -/
noncomputable def withPushes1 (S : Fns) (r : RegRun) : List (Summ × List (Bool × Est)) :=
  (List.range r.cfg.lengthEvals).flatMap fun i => (List.range r.cfg.lengthTargets).flatMap fun t => (List.range r.cfg.length1).map fun k =>
    ((r.final S).s1 i t k, (r.models.flatMap (coefKept r.cfg i t k)).map fun e => (false, e))

/-- The summaries of the models with what they received. -/
noncomputable def withPushes0 (S : Fns) (r : RegRun) : List (Summ × List (Bool × Est)) :=
  (List.range r.cfg.lengthEvals).flatMap fun i => (List.range r.cfg.lengthTargets).map fun t =>
    ((r.final S).s0 i t, (r.models.flatMap (modelKept r.cfg i t)).map fun e => (true, e))

theorem withPushes1_fed {r : RegRun} (h : r.Ok big tiny items pos ne nx m T L) : ∀ p ∈ withPushes1 S r, FedBy S items pos big tiny ne nx p := by
  intro p hp
  obtain ⟨i, hi, hp⟩ := List.mem_flatMap.1 hp
  obtain ⟨t, ht, hp⟩ := List.mem_flatMap.1 hp
  obtain ⟨k, hk, rfl⟩ := List.mem_map.1 hp
  rw [← h.items, ← h.pos, ← h.ne, ← h.nx]
  exact C119_coefficients_kept h.made h.ready r.est r.atMsg r.calls h.calls i t k (List.mem_range.1 hi) (List.mem_range.1 hk)

theorem withPushes0_fed {r : RegRun} (h : r.Ok big tiny items pos ne nx m T L) (hk : r.cfg.keepModels = true) :
    ∀ p ∈ withPushes0 S r, FedBy S items pos big tiny ne nx p := by
  intro p hp
  obtain ⟨i, hi, hp⟩ := List.mem_flatMap.1 hp
  obtain ⟨t, ht, rfl⟩ := List.mem_map.1 hp
  rw [← h.items, ← h.pos, ← h.ne, ← h.nx]
  exact C119_models_kept h.made h.ready r.est r.atMsg r.calls h.calls i t (List.mem_range.1 hi) hk

theorem withPushes1_collected {r : RegRun} (h : r.Ok big tiny items pos ne nx m T L) {i t k : Nat} (hi : i < m) (ht : t < T) (hk : k < L) :
    collected i t k (withPushes1 S r) = (r.models.flatMap (coefKept r.cfg i t k)).map fun e => (false, e) := by
  rw [collected_flat]
  unfold withPushes1
  have ix : ∀ a b d, ((r.final S).s1 a b d).i1 = a ∧ ((r.final S).s1 a b d).i2 = b ∧ ((r.final S).s1 a b d).i3 = d := by
    intro a b d
    exact feed_index ((after_spec (S := S) h.made h.ready r.est r.atMsg r.calls h.calls).2.s1 a b d)
  rw [List.flatMap_assoc, flat_pick _ i (by rw [h.evals]; exact hi)]
  · rw [List.flatMap_assoc, flat_pick _ t (by rw [h.targets]; exact ht)]
    · rw [List.flatMap_map, flat_pick _ k (by rw [h.length1]; exact hk)]
      · obtain ⟨a, b, d⟩ := ix i t k
        rw [if_pos ⟨a, b, d⟩]
      · intro d _ hd
        rw [if_neg]
        rintro ⟨-, -, hh⟩
        rw [(ix i t d).2.2] at hh
        exact hd (by exact_mod_cast hh)
    · intro b _ hb
      rw [List.flatMap_map, List.flatMap_eq_nil_iff]
      intro d _
      rw [if_neg]
      rintro ⟨-, hh, -⟩
      rw [(ix i b d).2.1] at hh
      exact hb (by exact_mod_cast hh)
  · intro a _ ha
    rw [List.flatMap_assoc, List.flatMap_eq_nil_iff]
    intro b _
    rw [List.flatMap_map, List.flatMap_eq_nil_iff]
    intro d _
    rw [if_neg]
    rintro ⟨hh, -, -⟩
    rw [(ix a b d).1] at hh
    exact ha (by exact_mod_cast hh)

theorem withPushes0_collected {r : RegRun} (h : r.Ok big tiny items pos ne nx m T L) {i t : Nat} (hi : i < m) (ht : t < T) :
    collected2 i t (withPushes0 S r) = (r.models.flatMap (modelKept r.cfg i t)).map fun e => (true, e) := by
  rw [collected2_flat]
  unfold withPushes0
  have ix : ∀ a b, ((r.final S).s0 a b).i1 = a ∧ ((r.final S).s0 a b).i2 = b ∧ ((r.final S).s0 a b).i3 = (0 : Nat) := by
    intro a b
    exact feed_index ((after_spec (S := S) h.made h.ready r.est r.atMsg r.calls h.calls).2.s0 a b)
  rw [List.flatMap_assoc, flat_pick _ i (by rw [h.evals]; exact hi)]
  · rw [List.flatMap_map, flat_pick _ t (by rw [h.targets]; exact ht)]
    · obtain ⟨a, b, d⟩ := ix i t
      rw [if_pos ⟨a, b⟩]
    · intro b _ hb
      rw [if_neg]
      rintro ⟨-, hh⟩
      rw [(ix i b).2.1] at hh
      exact hb (by exact_mod_cast hh)
  · intro a _ ha
    rw [List.flatMap_map, List.flatMap_eq_nil_iff]
    intro b _
    rw [if_neg]
    rintro ⟨hh, -⟩
    rw [(ix a b).1] at hh
    exact ha (by exact_mod_cast hh)

theorem withPushes1_fst (r : RegRun) : (withPushes1 S r).map (·.1) = summaries1 r.cfg (r.final S) := by
  unfold withPushes1 summaries1
  rw [List.map_flatMap]
  congr 1
  funext i
  rw [List.map_flatMap]
  congr 1
  funext t
  rw [List.map_map]; rfl

theorem withPushes0_fst (r : RegRun) (hk : r.cfg.keepModels = true) : (withPushes0 S r).map (·.1) = summaries0 r.cfg (r.final S) := by
  unfold withPushes0 summaries0
  rw [if_pos hk, List.map_flatMap]
  congr 1
  funext i
  rw [List.map_map]; rfl

theorem collected_runs (i t k : Int) (rs : List RegRun) : collected i t k (rs.flatMap (withPushes1 S)) = rs.flatMap fun r => collected i t k (withPushes1 S r) := by
  rw [collected_flat, List.flatMap_assoc]
  congr 1; funext r; rw [collected_flat]

theorem collected2_runs (i t : Int) (rs : List RegRun) : collected2 i t (rs.flatMap (withPushes0 S)) = rs.flatMap fun r => collected2 i t (withPushes0 S r) := by
  rw [collected2_flat, List.flatMap_assoc]
  congr 1; funext r; rw [collected2_flat]

/-- All that the searchers kept of coefficient `k` for metric `i`, target `t`. -/
noncomputable def allCoefs (rs : List RegRun) (i t k : Nat) : List Est := rs.flatMap fun r => r.models.flatMap (coefKept r.cfg i t k)

/-- All models that the searchers kept for metric `i`, target `t`. -/
noncomputable def allModels (rs : List RegRun) (i t : Nat) : List Est := rs.flatMap fun r => r.models.flatMap (modelKept r.cfg i t)

theorem runs_collected {rs : List RegRun} (h : ∀ r ∈ rs, r.Ok big tiny items pos ne nx m T L) {i t k : Nat} (hi : i < m) (ht : t < T) (hk : k < L) :
    collected i t k (rs.flatMap (withPushes1 S)) = (allCoefs rs i t k).map fun e => (false, e) := by
  rw [collected_runs]
  unfold allCoefs
  rw [List.map_flatMap]
  refine List.flatMap_congr fun r hr => withPushes1_collected (h r hr) hi ht hk

theorem runs_collected2 {rs : List RegRun} (h : ∀ r ∈ rs, r.Ok big tiny items pos ne nx m T L) {i t : Nat} (hi : i < m) (ht : t < T) :
    collected2 i t (rs.flatMap (withPushes0 S)) = (allModels rs i t).map fun e => (true, e) := by
  rw [collected2_runs]
  unfold allModels
  rw [List.map_flatMap]
  refine List.flatMap_congr fun r hr => withPushes0_collected (h r hr) hi ht

theorem estimates_false (l : List Est) : estimates (l.map fun e => (false, e)) = l := by
  unfold estimates
  induction l with
  | nil => rfl
  | cons e l ih => simpa using ih

theorem models_true (l : List Est) : models (l.map fun e => (true, e)) = l := by
  unfold models
  induction l with
  | nil => rfl
  | cons e l ih => simpa using ih

theorem runs_ne {rs : List RegRun} (h : ∀ r ∈ rs, r.Ok big tiny items pos ne nx m T L) (hne : rs ≠ []) {i t k : Nat} (hi : i < m) (ht : t < T) (hk : k < L) :
    rs.flatMap (withPushes1 S) ≠ [] := by
  obtain ⟨r, rs', rfl⟩ := List.exists_cons_of_ne_nil hne
  have hr := h r (by simp)
  intro hn
  rw [List.flatMap_eq_nil_iff] at hn
  have := hn r (by simp)
  have hmem : ((r.final S).s1 i t k, (r.models.flatMap (coefKept r.cfg i t k)).map fun e => (false, e)) ∈ withPushes1 S r := by
    unfold withPushes1
    rw [List.mem_flatMap]
    refine ⟨i, by rw [List.mem_range, hr.evals]; exact hi, ?_⟩
    rw [List.mem_flatMap]
    refine ⟨t, by rw [List.mem_range, hr.targets]; exact ht, ?_⟩
    rw [List.mem_map]
    exact ⟨k, by rw [List.mem_range, hr.length1]; exact hk, rfl⟩
  rw [this] at hmem; simp at hmem

/-- **C119**, the average over a whole search: the mixture that is reported for a coefficient is that of the coefficient's estimates in all models that
were estimated by any searcher and have the metric, weighted by the metric. -/
theorem C119_mixture {rs : List RegRun} (hne : rs ≠ []) (h : ∀ r ∈ rs, r.Ok big tiny items pos ne nx m T L) (hkm : items.keepMixture = true)
    {i t k : Nat} (hi : i < m) (ht : t < T) (hk : k < L) :
    ∃ r, combineMixture i t k (rs.flatMap fun r => summaries1 r.cfg (r.final S)) = .ok r ∧
      let ps := (allCoefs rs i t k).filterMap partOf
      r.count = ps.length ∧
      (ps = [] → r.getMean = none ∧ r.getVariance = none ∧ r.getSkewness = none ∧ r.getKurtosis = none) ∧
      (ps ≠ [] → r.sumW = (ps.map (·.w)).sum ∧ ∃ mean v, r.getMean = some mean ∧ r.getVariance = some v ∧
        mean = (ps.map fun p => p.w * p.m).sum / (ps.map (·.w)).sum ∧
        v = (ps.map fun p => p.w * (p.v + (p.m - mean) ^ 2)).sum / (ps.map (·.w)).sum ∧
        ((∀ p ∈ ps, 0 < p.v) → ∃ sk ku, r.getSkewness = some sk ∧ r.getKurtosis = some ku ∧ 0 < v ∧
          MeanVar (IntAvg (mixed ps)) mean v ∧ Skew (IntAvg (mixed ps)) mean v sk ∧ Kurt (IntAvg (mixed ps)) mean v ku)) := by
  have := C118_mixture (S := S) (pos := pos) (big := big) (tiny := tiny) (ne := ne) (nx := nx) hkm i t k (rs.flatMap (withPushes1 S)) (runs_ne h hne hi ht hk)
    (by
      intro p hp
      obtain ⟨r, hr, hp⟩ := List.mem_flatMap.1 hp
      exact withPushes1_fed (h r hr) p hp)
  rw [List.map_flatMap] at this
  have e : (fun r => (withPushes1 S r).map (·.1)) = fun r => summaries1 r.cfg (r.final S) := funext fun r => withPushes1_fst r
  rw [e] at this
  have hp : parts (collected (i : Int) (t : Int) (k : Int) (rs.flatMap (withPushes1 S))) = (allCoefs rs i t k).filterMap partOf := by
    rw [runs_collected h hi ht hk]
    unfold parts
    rw [estimates_false]
  rw [hp] at this
  exact this

/-- **C119**: the averaged probability of a coefficient at a requested point is the probability under the mixture over all the models. -/
theorem C119_probability (hS : S.Good) {rs : List RegRun} (hne : rs ≠ []) (h : ∀ r ∈ rs, r.Ok big tiny items pos ne nx m T L)
    {i t k : Nat} (hi : i < m) (ht : t < T) (hk : k < L) (q : Nat) (v : ℝ) (hq : items.cdfsAt[q]? = some v)
    (hw : ∀ e ∈ allCoefs rs i t k, 0 < e.weight ∧ e.variance ≠ some 0) :
    ∃ r, combineCdfAt i t k q (rs.flatMap fun r => summaries1 r.cfg (r.final S)) = .ok r ∧
      let ps := (allCoefs rs i t k).filterMap partOf
      r.count = ps.length ∧ (ps = [] → r.getMean = none) ∧
      (ps ≠ [] → ∃ p, r.getMean = some p ∧ IntUpTo (mixed ps) v p ∧ 0 ≤ p ∧ p ≤ 1) := by
  have hc := runs_collected (S := S) h hi ht hk
  have := C118_probability (S := S) (pos := pos) (big := big) (tiny := tiny) (ne := ne) (nx := nx) hS i t k q v hq (rs.flatMap (withPushes1 S)) (runs_ne h hne hi ht hk)
    (by
      intro p hp
      obtain ⟨r, hr, hp⟩ := List.mem_flatMap.1 hp
      exact withPushes1_fed (h r hr) p hp)
    (by rw [hc, estimates_false]; exact hw)
  rw [List.map_flatMap] at this
  have e : (fun r => (withPushes1 S r).map (·.1)) = fun r => summaries1 r.cfg (r.final S) := funext fun r => withPushes1_fst r
  rw [e] at this
  have hp : parts (collected (i : Int) (t : Int) (k : Int) (rs.flatMap (withPushes1 S))) = (allCoefs rs i t k).filterMap partOf := by
    rw [hc]
    unfold parts
    rw [estimates_false]
  rw [hp] at this
  exact this

/-- **C119**: the inclusion weight of a variable is the average weight of the models of the search that contain it. -/
theorem C119_inclusion {rs : List RegRun} (hne : rs ≠ []) (h : ∀ r ∈ rs, r.Ok big tiny items pos ne nx m T L) (hkm : ∀ r ∈ rs, r.cfg.keepModels = true)
    (hki : items.keepInclusion = true) {i t : Nat} (hi : i < m) (ht : t < T) (j : Nat) (hj : j < ne + nx)
    (hn : ∀ e ∈ allModels rs i t, (e.endo ++ e.exo).Nodup) :
    ∃ r, combineInclusion i t j (rs.flatMap fun r => summaries0 r.cfg (r.final S)) = .ok r ∧
      let ms := (allModels rs i t).filter fun e => (j : Int) ∈ e.endo ++ e.exo
      r.count = ms.length ∧ r.getMean = if ms = [] then none else some (average (ms.map (·.weight))) := by
  have hc := runs_collected2 (S := S) h hi ht
  have hne' : rs.flatMap (withPushes0 S) ≠ [] := by
    obtain ⟨r, rs', rfl⟩ := List.exists_cons_of_ne_nil hne
    have hr := h r (by simp)
    intro hn
    rw [List.flatMap_eq_nil_iff] at hn
    have := hn r (by simp)
    have hmem : ((r.final S).s0 i t, (r.models.flatMap (modelKept r.cfg i t)).map fun e => (true, e)) ∈ withPushes0 S r := by
      unfold withPushes0
      rw [List.mem_flatMap]
      refine ⟨i, by rw [List.mem_range, hr.evals]; exact hi, ?_⟩
      rw [List.mem_map]
      exact ⟨t, by rw [List.mem_range, hr.targets]; exact ht, rfl⟩
    rw [this] at hmem; simp at hmem
  have := C118_inclusion (S := S) (pos := pos) (big := big) (tiny := tiny) (ne := ne) (nx := nx) hki i t j hj (rs.flatMap (withPushes0 S)) hne'
    (by
      intro p hp
      obtain ⟨r, hr, hp⟩ := List.mem_flatMap.1 hp
      exact withPushes0_fed (h r hr) (hkm r hr) p hp)
    (by rw [hc, models_true]; exact hn)
  rw [hc, models_true, List.map_flatMap] at this
  have e : (rs.flatMap fun r => (withPushes0 S r).map (·.1)) = rs.flatMap fun r => summaries0 r.cfg (r.final S) :=
    List.flatMap_congr fun r hr => withPushes0_fst r (hkm r hr)
  rw [e] at this
  exact this

end
end Srch
end LDT
