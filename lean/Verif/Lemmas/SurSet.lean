import Verif.Spec.SurSet
import Verif.Lemmas.ChoiceSet
import Verif.Props.ChoiceSetMore
/-! # What the constructor of a search over systems of regressions accepts -/
namespace LDT
namespace Su
open Op Mx Arr Score
open Dc (bind_ok Decided)

theorem set_reg_decided (c : Srch.RegCfg) (hi : c.innerExo = false) (big tiny : ℝ) :
    Decided (Srch.regConstruct c big tiny) (c.lengthEvals ≠ 0 ∧ c.lengthTargets ≠ 0 ∧ c.lengthEvals = c.pos.length ∧ (c.keepModels = true ∨ c.length1 ≠ 0) ∧
      ∃ t ∈ c.inner, t < (c.lengthTargets : ℤ)) := by
  unfold Srch.regConstruct
  dsimp only
  rw [hi]
  refine (Decided.guard fun _ => Decided.guard fun _ => Decided.guard fun _ => (?_ : Decided _ (∃ t ∈ c.inner, t < (c.lengthTargets : ℤ)))).congr ?_
  · rw [if_neg (by simp)]
    refine (Decided.guard fun _ => Decided.pure _).congr ?_
    rw [and_true, List.length_eq_zero_iff]
    unfold Srch.targetsOf
    rw [List.filter_eq_nil_iff]
    simp
  · constructor
    · rintro ⟨a, b, d, f⟩
      refine ⟨fun h => a (Or.inl h), fun h => a (Or.inr h), not_not.1 b, ?_, f⟩
      cases hk : c.keepModels with
      | true => exact Or.inl rfl
      | false => exact Or.inr fun h => d ⟨hk, h⟩
    · rintro ⟨a, a', b, d, f⟩
      refine ⟨fun h => h.elim a a', not_not.2 b, fun h => ?_, f⟩
      rcases d with d | d
      · rw [h.1] at d; cases d
      · exact d h.2

theorem set_ss_decided (u : SsSetup) (rows : ℤ) {m k : ℕ} (hm : 0 < m + k) : Decided (ssConstruct u rows m k) (0 < rows) := by
  unfold ssConstruct
  refine (Decided.bind (Dc.dataset_decided rows ((k : ℤ) + m) (by omega) _ _) fun _ _ => Decided.pure _).congr (by rw [and_true])

section
variable (q : SetRequest) (big tiny : ℝ) {metrics : SOpt.Metrics ℝ} (checks : SOpt.Checks ℝ) (evals : ℤ)

/-- What one searcher needs, apart from room for the fixed partitions. -/
def SetFits (q : SetRequest) (metrics : SOpt.Metrics ℝ) (evals : ℤ) (e : List ℤ) : Prop :=
  evals.toNat ≠ 0 ∧ q.targets ≠ 0 ∧ evals.toNat = metrics.orient.length ∧ (q.keepModels = true ∨ q.length1 ≠ 0) ∧ q.HasTarget e ∧ 0 < q.source.rows

theorem set_one_decided (seed n : ℤ) {e : List ℤ} (he : e ≠ []) (hn : q.Roomy n) :
    Decided (setSearcher q big tiny metrics checks evals seed n e) (SetFits q metrics evals e) := by
  unfold setSearcher
  unfold SetRequest.Roomy at hn
  rw [if_neg (by omega)]
  have hpos : 0 < e.length := List.length_pos_iff.2 he
  refine (Decided.bind (set_reg_decided (q.cfg metrics evals n e) rfl big tiny) fun st _ =>
    Decided.bind (set_ss_decided (q.setup metrics checks) q.source.rows (by omega)) fun z _ => Decided.pure _).congr ?_
  unfold SetFits
  rw [and_true]
  constructor
  · rintro ⟨⟨a, b, c, d, f⟩, g⟩
    exact ⟨a, b, c, d, f, g⟩
  · rintro ⟨a, b, c, d, f, g⟩
    exact ⟨⟨a, b, c, d, f⟩, g⟩

theorem set_groups_decided {s : ℤ} (hs : q.Roomy s) : ∀ (l : List (List ℤ)) (co : ℕ), Decided (setGroups q big tiny metrics checks evals s co l)
    (∀ e ∈ l, e ≠ [] ∧ (q.Chosen e → SetFits q metrics evals e))
  | [], co => (Decided.pure _).congr ⟨fun _ => by simp, fun _ => trivial⟩
  | [] :: l, co => Decided.throws.congr ⟨fun h => h.elim, fun h => (h [] (by simp)).1 rfl⟩
  | (a :: e) :: l, co => by
    unfold setGroups
    have hch : q.Chosen (a :: e) ↔ a ≤ (q.targets : ℤ) := by
      unfold SetRequest.Chosen
      simp
    by_cases ha : a > (q.targets : ℤ)
    · rw [if_pos ha]
      refine (set_groups_decided hs l co).congr ?_
      rw [List.forall_mem_cons]
      refine ⟨fun h => ⟨⟨by simp, fun hc => absurd (hch.1 hc) (by omega)⟩, h⟩, fun h => h.2⟩
    · rw [if_neg ha]
      refine (Decided.bind (set_one_decided q big tiny checks evals _ s (by simp) hs) fun _ _ => Decided.bind (set_groups_decided hs l (co + 1)) fun _ _ =>
        Decided.pure _).congr ?_
      rw [List.forall_mem_cons, and_true]
      exact ⟨fun h => ⟨⟨by simp, fun _ => h.1⟩, h.2⟩, fun h => ⟨h.1.2 (hch.2 (by omega)), h.2⟩⟩

theorem set_sizes_decided : ∀ (l : List ℤ) (co : ℕ), Decided (setSizes q big tiny metrics checks evals co l)
    ((∀ s ∈ l, 0 < s) ∧ ((∃ s ∈ l, q.Roomy s) → ∀ e ∈ q.groups, e ≠ [] ∧ (q.Chosen e → SetFits q metrics evals e)))
  | [], co => (Decided.pure _).congr ⟨fun _ => by simp, fun _ => trivial⟩
  | s :: l, co => by
    unfold setSizes
    by_cases hs : (q.comb.numFixPartitions : ℤ) > s
    · have hr : ¬ q.Roomy s := by unfold SetRequest.Roomy; omega
      rw [if_pos hs]
      refine (Decided.guard fun _ => set_sizes_decided l co).congr ?_
      rw [List.forall_mem_cons, not_le]
      constructor
      · rintro ⟨a, b, c⟩
        refine ⟨⟨a, b⟩, ?_⟩
        rintro ⟨s', h', hr'⟩
        rcases List.mem_cons.1 h' with rfl | h'
        · exact absurd hr' hr
        · exact c ⟨s', h', hr'⟩
      · rintro ⟨⟨a, b⟩, c⟩
        refine ⟨a, b, ?_⟩
        rintro ⟨s', h', hr'⟩
        exact c ⟨s', by simp [h'], hr'⟩
    · have hr : q.Roomy s := by unfold SetRequest.Roomy; omega
      rw [if_neg hs]
      refine (Decided.guard fun _ => Decided.bind (set_groups_decided q big tiny checks evals hr q.groups co) fun _ _ =>
        Decided.bind (set_sizes_decided l _) fun _ _ => Decided.pure _).congr ?_
      rw [List.forall_mem_cons, not_le, and_true]
      constructor
      · rintro ⟨a, b, c, d⟩
        exact ⟨⟨a, c⟩, fun _ => b⟩
      · rintro ⟨⟨a, b⟩, c⟩
        exact ⟨a, c ⟨s, by simp, hr⟩, b, fun _ => c ⟨s, by simp, hr⟩⟩

theorem set_partitions_decided (endo exo : ℕ) (l : List (List ℤ)) :
    Decided (checkPartitions endo exo l) (∀ b ∈ l, ∀ a ∈ b, (endo : ℤ) ≤ a ∧ a < endo + exo) := by
  unfold checkPartitions
  refine (Decided.guard fun _ => Decided.pure _).congr ?_
  rw [and_true]
  constructor
  · intro h b hb a ha
    by_contra hn
    apply h
    rw [List.any_eq_true]
    refine ⟨b, hb, ?_⟩
    rw [List.any_eq_true]
    refine ⟨a, ha, ?_⟩
    simp only [Bool.or_eq_true, decide_eq_true_eq]
    omega
  · intro h hn
    rw [List.any_eq_true] at hn
    obtain ⟨b, hb, hn⟩ := hn
    rw [List.any_eq_true] at hn
    obtain ⟨a, ha, hn⟩ := hn
    simp only [Bool.or_eq_true, decide_eq_true_eq] at hn
    have := h b hb a ha
    omega

/-- What a searcher that was made consists of. -/
structure SetMade (q : SetRequest) (big tiny : ℝ) (metrics : SOpt.Metrics ℝ) (checks : SOpt.Checks ℝ) (evals : ℤ) (s : SetSearcher) (n : ℤ) (e : List ℤ) (seed : ℤ) :
    Prop where
  cfg : s.cfg = q.cfg metrics evals n e
  setup : s.setup = q.setup metrics checks
  seed : s.seed = seed
  reg : Srch.regConstruct s.cfg big tiny = .ok s.init
  sizes : ssConstruct s.setup q.source.rows e.length n.toNat = .ok s.sizes
  room : q.Roomy n

theorem set_one_made {seed n : ℤ} {e : List ℤ} {s : SetSearcher} (h : setSearcher q big tiny metrics checks evals seed n e = .ok s) :
    SetMade q big tiny metrics checks evals s n e seed := by
  unfold setSearcher at h
  by_cases hf : (q.comb.numFixPartitions : ℤ) > n
  · rw [if_pos hf] at h; cases h
  rw [if_neg hf] at h
  dsimp only at h
  obtain ⟨st, h1, h⟩ := bind_ok h
  obtain ⟨z, h3, h⟩ := bind_ok h
  obtain rfl := Outcome.ok.inj h
  exact ⟨rfl, rfl, rfl, h1, h3, not_lt.1 hf⟩

/-- The searchers with their seeds, `co` is the number of the first one. -/
def seeded (seed : ℤ) (co : ℕ) (l : List (ℤ × List ℤ)) : List ((ℤ × List ℤ) × ℤ) := (l.zipIdx co).map fun p => (p.1, setSeed seed p.2)

theorem seeded_cons (seed : ℤ) (co : ℕ) (p : ℤ × List ℤ) (l : List (ℤ × List ℤ)) : seeded seed co (p :: l) = (p, setSeed seed co) :: seeded seed (co + 1) l := by
  unfold seeded
  rw [List.zipIdx_cons, List.map_cons]

theorem seeded_append (seed : ℤ) (co : ℕ) (l l' : List (ℤ × List ℤ)) : seeded seed co (l ++ l') = seeded seed co l ++ seeded seed (co + l.length) l' := by
  unfold seeded
  rw [List.zipIdx_append, List.map_append]

open Classical in
theorem set_groups_made {s : ℤ} : ∀ (l : List (List ℤ)) (co : ℕ) (r : List SetSearcher), setGroups q big tiny metrics checks evals s co l = .ok r →
    List.Forall₂ (fun x (p : (ℤ × List ℤ) × ℤ) => SetMade q big tiny metrics checks evals x p.1.1 p.1.2 p.2) r
      (seeded metrics.seed co ((l.filter fun e => decide (q.Chosen e)).map fun e => (s, e)))
  | [], co, r, h => by
    rw [← Outcome.ok.inj (show Outcome.ok [] = Outcome.ok r from h)]
    exact List.Forall₂.nil
  | [] :: l, co, r, h => by cases h
  | (a :: e) :: l, co, r, h => by
    unfold setGroups at h
    have hch : q.Chosen (a :: e) ↔ a ≤ (q.targets : ℤ) := by
      unfold SetRequest.Chosen
      simp
    by_cases ha : a > (q.targets : ℤ)
    · rw [if_pos ha] at h
      rw [List.filter_cons_of_neg (by rw [decide_eq_true_iff, hch]; omega)]
      exact set_groups_made l co r h
    · rw [if_neg ha] at h
      obtain ⟨x, h1, h⟩ := bind_ok h
      obtain ⟨rest, h2, h⟩ := bind_ok h
      obtain rfl := Outcome.ok.inj h
      rw [List.filter_cons_of_pos (by rw [decide_eq_true_iff, hch]; omega), List.map_cons, seeded_cons]
      exact List.Forall₂.cons (set_one_made q big tiny checks evals h1) (set_groups_made l (co + 1) rest h2)

open Classical in
theorem set_sizes_made : ∀ (l : List ℤ) (co : ℕ) (r : List SetSearcher), setSizes q big tiny metrics checks evals co l = .ok r →
    List.Forall₂ (fun x (p : (ℤ × List ℤ) × ℤ) => SetMade q big tiny metrics checks evals x p.1.1 p.1.2 p.2) r
      (seeded metrics.seed co ((l.filter fun s => decide (q.Roomy s)).flatMap fun s => (q.groups.filter fun e => decide (q.Chosen e)).map fun e => (s, e)))
  | [], co, r, h => by
    rw [← Outcome.ok.inj (show Outcome.ok [] = Outcome.ok r from h)]
    exact List.Forall₂.nil
  | s :: l, co, r, h => by
    unfold setSizes at h
    by_cases h0 : s ≤ 0
    · rw [if_pos h0] at h; cases h
    rw [if_neg h0] at h
    by_cases hs : (q.comb.numFixPartitions : ℤ) > s
    · rw [if_pos hs] at h
      rw [List.filter_cons_of_neg (by rw [decide_eq_true_iff]; unfold SetRequest.Roomy; omega)]
      exact set_sizes_made l co r h
    · rw [if_neg hs] at h
      obtain ⟨x, h1, h⟩ := bind_ok h
      obtain ⟨rest, h2, h⟩ := bind_ok h
      obtain rfl := Outcome.ok.inj h
      have g := set_groups_made q big tiny checks evals q.groups co x h1
      have hl : x.length = ((q.groups.filter fun e => decide (q.Chosen e)).map fun e => (s, e)).length := by
        rw [g.length_eq]
        unfold seeded
        rw [List.length_map, List.length_zipIdx]
      rw [List.filter_cons_of_pos (by rw [decide_eq_true_iff]; unfold SetRequest.Roomy; omega), List.flatMap_cons, seeded_append]
      refine List.rel_append g ?_
      rw [← hl]
      exact set_sizes_made l (co + x.length) rest h2

end
end Su
end LDT
