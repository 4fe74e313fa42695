import Verif.Spec.ChoiceSet
import Verif.Props.ChoiceSearchLink
import Verif.Props.SearchOptions
import Verif.Props.FreqCost
import Verif.Props.MatrixTest
import Verif.Props.MatrixExt
/-! # What the constructors of a search accept -/
namespace LDT
namespace Dc
open Op Di Mx Arr Score

/-- A call that succeeds exactly if `P` holds, and throws otherwise. -/
structure Decided {α : Type} (x : Outcome α) (P : Prop) : Prop where
  yes : P → ∃ a, x = .ok a
  no : ¬ P → x = .throws

theorem Decided.pure {α : Type} (a : α) : Decided (Outcome.ok a) True := ⟨fun _ => ⟨a, rfl⟩, fun h => absurd trivial h⟩

theorem Decided.throws {α : Type} : Decided (Outcome.throws : Outcome α) False := ⟨fun h => h.elim, fun _ => rfl⟩

theorem Decided.congr {α : Type} {x : Outcome α} {P Q : Prop} (h : Decided x P) (e : P ↔ Q) : Decided x Q :=
  ⟨fun q => h.yes (e.2 q), fun q => h.no fun p => q (e.1 p)⟩

theorem Decided.guard {α : Type} {c : Prop} [Decidable c] {y : Outcome α} {Q : Prop} (h : ¬ c → Decided y Q) :
    Decided (if c then .throws else y) (¬ c ∧ Q) := by
  by_cases hc : c
  · rw [if_pos hc]
    exact ⟨fun h => absurd hc h.1, fun _ => rfl⟩
  · rw [if_neg hc]
    exact ⟨fun q => (h hc).yes q.2, fun q => (h hc).no fun r => q ⟨hc, r⟩⟩

theorem Decided.bind {α β : Type} {x : Outcome α} {f : α → Outcome β} {P Q : Prop} (h : Decided x P) (g : ∀ a, x = .ok a → Decided (f a) Q) :
    Decided (x >>= f) (P ∧ Q) := by
  refine ⟨fun q => ?_, fun q => ?_⟩
  · obtain ⟨a, ha⟩ := h.yes q.1
    rw [ha, Outcome.ok_bind]
    exact (g a ha).yes q.2
  · by_cases p : P
    · obtain ⟨a, ha⟩ := h.yes p
      rw [ha, Outcome.ok_bind]
      exact (g a ha).no fun r => q ⟨p, r⟩
    · rw [h.no p]; rfl

theorem Decided.ok_iff {α : Type} {x : Outcome α} {P : Prop} (h : Decided x P) : (∃ a, x = .ok a) ↔ P := by
  refine ⟨fun ⟨a, ha⟩ => ?_, h.yes⟩
  by_contra p
  rw [h.no p] at ha
  cases ha

theorem Decided.of_ok {α : Type} {x : Outcome α} {a : α} (h : x = .ok a) : Decided x True := ⟨fun _ => ⟨a, h⟩, fun q => absurd trivial q⟩

/-! ## The parts -/

/-- The form fits the number of choices. -/
def FormFits (form : Form) (choices : ℤ) : Prop := (form = .binary ∧ choices = 2) ∨ (form = .ordered ∧ 3 ≤ choices)

theorem construct_decided (form : Form) (n k : ℤ) {choices : ℤ} (h2 : 2 ≤ choices) (dd : Bool) : Decided (construct form n k choices dd) (FormFits form choices) := by
  unfold construct
  refine (Decided.guard fun _ => Decided.guard fun _ => Decided.guard fun _ => Decided.pure _).congr ?_
  unfold FormFits
  cases form <;> simp <;> omega

theorem dataset_decided (rows cols : ℤ) (hc : 0 < cols) (a b : Bool) : Decided (Dataset.make rows cols a b) (0 < rows) := by
  unfold Dataset.make
  refine (Decided.guard fun _ => Decided.pure _).congr ?_
  simp; omega

theorem ext_decided (form : Form) {rows cols : ℤ} (hc : 0 < cols) (w : Bool) {choices : ℤ} (h2 : 2 ≤ choices) (f : ℤ) :
    Decided (extConstruct form rows cols w false choices false f none) (0 < rows ∧ FormFits form choices) := by
  unfold extConstruct
  dsimp only
  refine (Decided.bind (dataset_decided rows cols hc _ _) fun ds _ => Decided.bind (construct_decided form rows _ h2 _) fun m _ => ?_).congr
    (by rw [and_true])
  rw [if_neg (by simp)]
  exact Decided.pure _

theorem simConstruct_decided (u : SimSetup) {rows cols : ℤ} (hc : 0 < cols) (h2 : 2 ≤ u.numChoices) (ht : u.doTable = false) :
    Decided (simConstruct u rows cols) (FormFits u.form u.numChoices ∧ (u.costs ≠ [] ∨ u.doAuc = true) ∧ 0 ≤ u.fix ∧
      (u.fix = 0 → 0 < u.ratio ∧ u.ratio < 1) ∧ 0 < Split.trainSize rows u.ratio u.fix ∧ Split.trainSize rows u.ratio u.fix ≠ rows) := by
  unfold simConstruct
  dsimp only
  refine (Decided.guard fun _ => Decided.guard fun _ => Decided.guard fun _ => Decided.guard fun _ => Decided.guard fun _ => Decided.guard fun _ =>
    Decided.guard fun _ => Decided.bind (ext_decided u.form hc u.hasWeight h2 _) fun m _ => Decided.pure _).congr ?_
  rw [ht]
  generalize Split.trainSize rows u.ratio u.fix = T
  have e : rows - (rows - T) = T := by ring
  constructor
  · rintro ⟨-, -, -, a, b, c, d, ⟨f, g⟩, -⟩
    refine ⟨g, ?_, by omega, fun h0 => ?_, by omega, fun h => d (Or.inr h)⟩
    · by_contra hn
      push Not at hn
      exact a ⟨hn.1, rfl, by simpa using hn.2⟩
    · by_contra hn
      apply c
      refine ⟨h0, ?_⟩
      by_contra hm
      push Not at hm
      exact hn ⟨hm.2, hm.1⟩
  · rintro ⟨g, a, b, c, d, f⟩
    refine ⟨by omega, ?_, ?_, ?_, by omega, ?_, ?_, ⟨by omega, g⟩, trivial⟩
    · rintro ⟨h1, h2⟩
      rcases g with ⟨g1, g2⟩ | ⟨g1, g2⟩
      · rw [h2] at g1; cases g1
      · omega
    · rintro ⟨h1, h2⟩
      rcases g with ⟨g1, g2⟩ | ⟨g1, g2⟩
      · omega
      · rw [h2] at g1; cases g1
    · rintro ⟨h1, -, h3⟩
      rcases a with a | a
      · exact a h1
      · rw [a] at h3; cases h3
    · rintro ⟨h0, h⟩
      have := c h0
      rcases h with h | h <;> linarith [this.1, this.2]
    · rintro (h | h)
      · omega
      · exact f h

/-- What the simulations of a model need. -/
def SimFits (u : DcSetup) (rows : ℤ) : Prop :=
  FormFits u.form u.numChoices ∧ (u.costs ≠ [] ∨ Sco.auc ∈ u.metrics.metricsOut) ∧ 0 ≤ u.metrics.trainFix ∧
    (u.metrics.trainFix = 0 → 0 < (Srch.toVal u.metrics.trainRatio).getD 0 ∧ (Srch.toVal u.metrics.trainRatio).getD 0 < 1) ∧
    0 < Split.trainSize rows ((Srch.toVal u.metrics.trainRatio).getD 0) u.metrics.trainFix ∧
    Split.trainSize rows ((Srch.toVal u.metrics.trainRatio).getD 0) u.metrics.trainFix ≠ rows

theorem pos_some {α : Type} {f : α → Option ℤ} {k : α} {i : ℤ} (h : f k = some i) : pos f k = .ok i := by unfold pos; rw [h]; rfl

theorem simMade_decided {u : DcSetup} (hx : Indexed u.metrics) {rows cols : ℤ} (hc : 0 < cols) (h2 : 2 ≤ u.numChoices) :
    Decided (do let v ← simSetup u; simConstruct v rows cols) (SimFits u rows) := by
  obtain ⟨b, hb, -⟩ := hx.2 .brier
  obtain ⟨a, ha, pa⟩ := hx.2 .auc
  have hv : simSetup u = .ok ⟨u.law, u.form, u.numChoices, u.hasWeight, (Srch.toVal u.metrics.trainRatio).getD 0, u.metrics.trainFix, u.costs,
      decide (b ≥ 0), decide (a ≥ 0), false, u.weightedEval, u.roc, u.rocCosts, intMax⟩ := by
    unfold simSetup
    rw [pos_some hb, Outcome.ok_bind, pos_some ha, Outcome.ok_bind]
    rfl
  rw [hv, Outcome.ok_bind]
  refine (simConstruct_decided _ hc h2 rfl).congr ?_
  unfold SimFits
  dsimp only
  rw [decide_eq_true_iff, position_mem pa]

theorem scored_ok {u : DcSetup} (hx : Indexed u.metrics) : ∃ b, scored u = .ok b := by
  obtain ⟨c, hc, -⟩ := hx.1 .frequencyCost
  obtain ⟨a, ha, -⟩ := hx.1 .auc
  obtain ⟨b, hb, -⟩ := hx.1 .brier
  refine ⟨decide (c ≥ 0) || decide (a ≥ 0) || decide (b ≥ 0), ?_⟩
  unfold scored
  rw [pos_some hc, Outcome.ok_bind, pos_some ha, Outcome.ok_bind, pos_some hb, Outcome.ok_bind]
  rfl

theorem Decided.cond {α : Type} {c : Prop} [Decidable c] {x : Outcome α} {a : α} {P : Prop} (h : c → Decided x P) :
    Decided (if c then x else Outcome.ok a) (c → P) := by
  by_cases hc : c
  · rw [if_pos hc]
    exact (h hc).congr ⟨fun p _ => p, fun p => p hc⟩
  · rw [if_neg hc]
    exact (Decided.pure a).congr ⟨fun _ h => absurd h hc, fun _ => trivial⟩

theorem dc_decided {u : DcSetup} (hx : Indexed u.metrics) {fp rows cols numExo : ℤ} (hc : 0 < cols) (h2 : 2 ≤ u.numChoices) :
    Decided (dcConstruct u fp rows cols numExo)
      (fp ≠ 0 ∧ 0 < rows ∧ (u.checks.estimation = true → FormFits u.form u.numChoices) ∧ (u.simulates = true → SimFits u rows)) := by
  unfold dcConstruct
  obtain ⟨sc, hsc⟩ := scored_ok hx
  refine (Decided.guard fun _ => Decided.bind (dataset_decided rows cols hc _ _) fun ds _ =>
    Decided.bind (Decided.cond fun _ => construct_decided u.form rows numExo h2 false) fun m _ =>
    Decided.bind (Decided.cond fun _ => simMade_decided hx hc h2) fun s _ => Decided.bind (Decided.of_ok hsc) fun _ _ => Decided.pure _).congr ?_
  simp

theorem reg_decided (c : Srch.RegCfg) (hi : c.innerExo = false) (hin : c.inner = [0]) (ht : c.lengthTargets = 1) (big tiny : ℝ) :
    Decided (Srch.regConstruct c big tiny) (c.lengthEvals ≠ 0 ∧ c.lengthEvals = c.pos.length ∧ (c.keepModels = true ∨ c.length1 ≠ 0)) := by
  unfold Srch.regConstruct
  dsimp only
  rw [hi, hin]
  have htar : Srch.targetsOf c [0] = [0] := by unfold Srch.targetsOf; simp [ht]
  refine (Decided.guard fun _ => Decided.guard fun _ => Decided.guard fun _ => (?_ : Decided _ True)).congr ?_
  · rw [if_neg (by simp), htar]
    refine (Decided.guard fun _ => Decided.pure _).congr (by simp)
  · rw [ht]
    simp only [one_ne_zero, or_false, ne_eq, not_not, not_and, and_true]
    constructor
    · rintro ⟨a, b, d⟩
      refine ⟨a, b, ?_⟩
      cases hk : c.keepModels with
      | true => exact Or.inl rfl
      | false => exact Or.inr (d hk)
    · rintro ⟨a, b, d⟩
      refine ⟨a, b, fun hk => ?_⟩
      rcases d with d | d
      · rw [hk] at d; cases d
      · exact d

theorem reg_cols {c : Srch.RegCfg} (hi : c.innerExo = false) (hin : c.inner = [0]) {big tiny : ℝ} {st : Srch.RegSt} (h : Srch.regConstruct c big tiny = .ok st) :
    st.cols.length = c.n + c.w + 1 := by
  have hp : ∀ (l : List ℤ) (off : ℕ) (cs : List ℤ), (Srch.putAt off l cs).length = cs.length := by
    intro l
    induction l with
    | nil => intro off cs; rfl
    | cons a l ih => intro off cs; rw [Srch.putAt, ih, List.length_set]
  unfold Srch.regConstruct at h
  dsimp only at h
  split_ifs at h <;> first | (rw [← Outcome.ok.inj h]; simp [hp, hin]) | simp_all

section
variable (q : Request) (big tiny : ℝ) {metrics : SOpt.Metrics ℝ} (checks : SOpt.Checks ℝ) (evals : ℤ) {choices : ℤ}

/-- What one searcher of the size `n` needs. -/
def OneFits (q : Request) (metrics : SOpt.Metrics ℝ) (checks : SOpt.Checks ℝ) (evals choices n : ℤ) : Prop :=
  (q.comb.numFixPartitions : ℤ) ≤ n ∧ evals.toNat ≠ 0 ∧ evals.toNat = metrics.orient.length ∧ (q.keepModels = true ∨ q.length1.toNat ≠ 0) ∧
    q.comb.numFixPartitions ≠ 0 ∧ 0 < q.source.rows ∧ (checks.estimation = true → FormFits q.form choices) ∧
    ((q.setup metrics checks choices .logit).simulates = true → SimFits (q.setup metrics checks choices .logit) q.source.rows)

theorem one_decided (hx : Indexed metrics) (h2 : 2 ≤ choices) (seed n : ℤ) (law : Law) :
    Decided (makeSearcher q big tiny metrics checks evals 1 choices seed n law) (OneFits q metrics checks evals choices n) := by
  unfold makeSearcher
  refine (Decided.guard fun _ => Decided.bind (reg_decided (q.cfg metrics evals 1 n) rfl rfl rfl big tiny) fun st hst =>
    Decided.bind (dc_decided (u := q.setup metrics checks choices law) hx (by have := reg_cols rfl rfl hst; omega) h2) fun z _ => Decided.pure _).congr ?_
  unfold OneFits
  rw [and_true, not_lt]
  constructor
  · rintro ⟨a, ⟨b, d, e⟩, f, g, i, j⟩
    exact ⟨a, b, d, e, by simpa using f, g, i, j⟩
  · rintro ⟨a, b, d, e, f, g, i, j⟩
    exact ⟨a, ⟨b, d, e⟩, by simpa using f, g, i, j⟩

/-- What a searcher that was made consists of. -/
structure MadeOf (q : Request) (big tiny : ℝ) (metrics : SOpt.Metrics ℝ) (checks : SOpt.Checks ℝ) (evals choices : ℤ) (s : DcSearcher) (law : Law) (n seed : ℤ) : Prop where
  cfg : s.cfg = q.cfg metrics evals 1 n
  setup : s.setup = q.setup metrics checks choices law
  seed : s.seed = seed
  reg : Srch.regConstruct s.cfg big tiny = .ok s.init
  sizes : dcConstruct s.setup q.comb.numFixPartitions q.source.rows (s.cfg.n + s.cfg.w + 1 : ℕ) n = .ok s.sizes
  enough : (q.comb.numFixPartitions : ℤ) ≤ n

theorem one_made {seed n : ℤ} {law : Law} {s : DcSearcher} (h : makeSearcher q big tiny metrics checks evals 1 choices seed n law = .ok s) :
    MadeOf q big tiny metrics checks evals choices s law n seed := by
  unfold makeSearcher at h
  by_cases hf : (q.comb.numFixPartitions : ℤ) > n
  · rw [if_pos hf] at h; cases h
  rw [if_neg hf] at h
  dsimp only at h
  obtain ⟨st, h1, h⟩ := bind_ok h
  obtain ⟨z, h3, h⟩ := bind_ok h
  obtain rfl := Outcome.ok.inj h
  refine ⟨rfl, rfl, rfl, h1, ?_, not_lt.1 hf⟩
  have := reg_cols (c := q.cfg metrics evals 1 n) rfl rfl h1
  show dcConstruct (q.setup metrics checks choices law) _ _ (((q.cfg metrics evals 1 n).n + (q.cfg metrics evals 1 n).w + 1 : ℕ) : ℤ) n = _
  rw [← this]
  exact h3

/-- The searchers of the sizes, in their order. -/
def plan (q : Request) (seed : ℤ) (co : ℤ) : List ℤ → List (ℤ × Law × ℤ)
  | [] => []
  | s :: ss => (q.laws.map fun l => (s, l, seedOf seed (co + 1))) ++ plan q seed (co + 1) ss

theorem law_decided (b : Bool) {α : Type} {x : Outcome α} {P : Prop} (h : Decided x P) :
    Decided (if b then do let y ← x; pure [y] else pure [] : Outcome (List α)) (b = true → P) := by
  cases b with
  | false => exact (Decided.pure _).congr ⟨fun _ (h : false = true) => (by cases h), fun _ => trivial⟩
  | true => exact (Decided.bind h fun _ _ => Decided.pure _).congr ⟨fun h _ => h.1, fun h => ⟨h rfl, trivial⟩⟩

theorem all_decided (hx : Indexed metrics) (h2 : 2 ≤ choices) : ∀ (l : List ℤ) (co : ℤ), Decided (makeSearchers q big tiny metrics checks evals 1 choices co l)
    (∀ s ∈ l, 0 < s ∧ (q.addLogit = true ∨ q.addProbit = true → OneFits q metrics checks evals choices s))
  | [], co => (Decided.pure _).congr ⟨fun _ => by simp, fun _ => trivial⟩
  | s :: ss, co => by
    unfold makeSearchers
    refine (Decided.guard fun _ => Decided.bind (law_decided q.addLogit (one_decided q big tiny checks evals hx h2 _ s .logit)) fun a _ =>
      Decided.bind (law_decided q.addProbit (one_decided q big tiny checks evals hx h2 _ s .probit)) fun b _ =>
      Decided.bind (all_decided hx h2 ss (co + 1)) fun r _ => Decided.pure _).congr ?_
    rw [List.forall_mem_cons, not_le, and_true]
    constructor
    · rintro ⟨a, b, d, e⟩
      exact ⟨⟨a, fun h => h.elim b d⟩, e⟩
    · rintro ⟨⟨a, b⟩, e⟩
      exact ⟨a, fun h => b (Or.inl h), fun h => b (Or.inr h), e⟩

theorem law_made {b : Bool} {α : Type} {x : Outcome α} {l : List α} (h : (if b then do let y ← x; pure [y] else pure [] : Outcome (List α)) = .ok l) :
    (b = false ∧ l = []) ∨ (b = true ∧ ∃ y, x = .ok y ∧ l = [y]) := by
  cases b with
  | false => exact Or.inl ⟨rfl, (Outcome.ok.inj h).symm⟩
  | true =>
    obtain ⟨y, hy, h⟩ := bind_ok h
    exact Or.inr ⟨rfl, y, hy, (Outcome.ok.inj h).symm⟩

theorem all_made : ∀ (l : List ℤ) (co : ℤ) (r : List DcSearcher), makeSearchers q big tiny metrics checks evals 1 choices co l = .ok r →
    List.Forall₂ (fun s (p : ℤ × Law × ℤ) => MadeOf q big tiny metrics checks evals choices s p.2.1 p.1 p.2.2) r (plan q metrics.seed co l)
  | [], co, r, h => by
    rw [← Outcome.ok.inj h]
    exact List.Forall₂.nil
  | s :: ss, co, r, h => by
    unfold makeSearchers at h
    by_cases hs : s ≤ 0
    · rw [if_pos hs] at h; cases h
    rw [if_neg hs] at h
    dsimp only at h
    obtain ⟨a, h1, h⟩ := bind_ok h
    obtain ⟨b, h3, h⟩ := bind_ok h
    obtain ⟨rest, h4, h⟩ := bind_ok h
    obtain rfl := Outcome.ok.inj h
    have ih := all_made ss (co + 1) rest h4
    unfold plan Request.laws
    rw [List.map_append]
    refine List.rel_append (List.rel_append ?_ ?_) ih
    · rcases law_made h1 with ⟨e, rfl⟩ | ⟨e, y, hy, rfl⟩
      · rw [e]; exact List.Forall₂.nil
      · rw [e]; exact List.Forall₂.cons (one_made q big tiny checks evals hy) List.Forall₂.nil
    · rcases law_made h3 with ⟨e, rfl⟩ | ⟨e, y, hy, rfl⟩
      · rw [e]; exact List.Forall₂.nil
      · rw [e]; exact List.Forall₂.cons (one_made q big tiny checks evals hy) List.Forall₂.nil

end

theorem tables_decided {choices : ℤ} (h0 : 0 ≤ choices) : ∀ (l : List (Mat ℝ)), (∀ c ∈ l, c.Wf) → Decided (checkTables choices l) (∀ c ∈ l, CostTable c choices)
  | [], _ => (Decided.pure _).congr ⟨fun _ => by simp, fun _ => trivial⟩
  | c :: cs, hw => by
    have hc : Decided (FCost.check c choices) (CostTable c choices) := by
      obtain ⟨a, b⟩ := FCost.C29_check c (hw c (by simp)) choices h0
      have e : CostTable c choices ↔ FCost.check c choices = .ok () :=
        ⟨fun h => a.2 ⟨h.rows, h.cols, h.unit, h.ascending⟩, fun h => ⟨(a.1 h).1, (a.1 h).2.1, (a.1 h).2.2.1, (a.1 h).2.2.2⟩⟩
      refine ⟨fun h => ⟨(), e.1 h⟩, fun h => b.resolve_left fun hb => h (e.2 hb)⟩
    exact (Decided.bind hc fun _ _ => tables_decided h0 cs fun c h => hw c (by simp [h])).congr (by rw [List.forall_mem_cons])

theorem position_later {α : Type} {l : List α} {x : α} {i : ℤ} (h : SOpt.Position l x i) : (i > 0 ↔ Later l x) ∧ (i = -1 ↔ x ∉ l) := by
  rcases h with ⟨hm, rfl⟩ | ⟨k, rfl, hk, hf⟩
  · exact ⟨⟨fun h => by omega, fun h => absurd h.1 hm⟩, ⟨fun _ => hm, fun _ => rfl⟩⟩
  · refine ⟨⟨fun h => ⟨List.mem_of_getElem? hk, hf 0 (by omega)⟩, fun h => ?_⟩, ⟨fun h => by omega, fun h => absurd (List.mem_of_getElem? hk) h⟩⟩
    rcases Nat.eq_zero_or_pos k with rfl | hp
    · exact absurd hk h.2
    · omega

theorem costs_decided {m : SOpt.Metrics ℝ} (hx : Indexed m) {costs : List (Mat ℝ)} (hw : ∀ c ∈ costs, c.Wf) {choices : ℤ} (h0 : 0 ≤ choices) :
    Decided (checkCosts m costs choices) ((Gof.frequencyCost ∉ m.metricsIn → Sco.frequencyCost ∉ m.metricsOut → costs = []) ∧
      (Later m.metricsIn .frequencyCost ∨ Later m.metricsOut .frequencyCost → costs ≠ [] ∧ ∀ c ∈ costs, CostTable c choices)) := by
  obtain ⟨i, hi, pi⟩ := hx.1 .frequencyCost
  obtain ⟨o, ho, po⟩ := hx.2 .frequencyCost
  obtain ⟨i1, i2⟩ := position_later pi
  obtain ⟨o1, o2⟩ := position_later po
  unfold checkCosts
  rw [pos_some hi, Outcome.ok_bind, pos_some ho, Outcome.ok_bind, ← i1, ← o1, ← i2, ← o2]
  by_cases h : i = -1 ∧ o = -1
  · rw [if_pos h]
    refine (Decided.guard fun _ => Decided.pure _).congr ?_
    rw [and_true, not_lt, Nat.le_zero, List.length_eq_zero_iff]
    exact ⟨fun e => ⟨fun _ _ => e, fun h' => by omega⟩, fun e => e.1 h.1 h.2⟩
  rw [if_neg h]
  by_cases h' : i > 0 ∨ o > 0
  · rw [if_pos h']
    refine (Decided.guard fun _ => tables_decided h0 costs hw).congr ?_
    rw [List.length_eq_zero_iff]
    exact ⟨fun e => ⟨fun a b => absurd ⟨a, b⟩ h, fun _ => e⟩, fun e => e.2 h'⟩
  · rw [if_neg h']
    exact (Decided.pure _).congr ⟨fun _ => ⟨fun a b => absurd ⟨a, b⟩ h, fun a => absurd a h'⟩, fun _ => trivial⟩

theorem elements_decided (exo : ℤ) (l : List (List ℤ)) : Decided (checkElements exo l) (∀ b ∈ l, ∀ a ∈ b, 0 ≤ a ∧ a ≤ exo) := by
  unfold checkElements
  refine (Decided.guard fun _ => Decided.pure _).congr ?_
  rw [and_true]
  constructor
  · intro h b hb a ha
    by_contra hn
    apply h
    rw [List.any_eq_true]
    refine ⟨b, hb, ?_⟩
    rw [List.any_eq_true]
    refine ⟨a, ha, ?_⟩
    simp only [Bool.or_eq_true, decide_eq_true_eq]
    omega
  · intro h hn
    rw [List.any_eq_true] at hn
    obtain ⟨b, hb, hn⟩ := hn
    rw [List.any_eq_true] at hn
    obtain ⟨a, ha, hn⟩ := hn
    simp only [Bool.or_eq_true, decide_eq_true_eq] at hn
    have := h b hb a ha
    omega

end Dc
end LDT
