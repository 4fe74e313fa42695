import Verif.Spec.SurSim
import Verif.Spec.NelderMead
import Verif.Lemmas.ChoiceSim
/-! # Lemmas on the scores of systems of regressions -/
namespace LDT
namespace Su
open Mx Op Score
open Dc (bind_ok)

/-- What the iterations of a list give: the test samples of those that count. -/
inductive Ran (u : SimSetup) (m : ℕ) {A : Type} (draw : ℕ → Outcome A) (fit : A → Outcome SimFit) : List ℕ → List Forecast → Prop
  | nil : Ran u m draw fit [] []
  | bad {i a r g} : draw i = .ok a → fit a = .throws → Ran u m draw fit r g → Ran u m draw fit (i :: r) g
  | broken {i a p r g} : draw i = .ok a → fit a = .ok p → (simForecast u p).broken m → Ran u m draw fit r g → Ran u m draw fit (i :: r) g
  | good {i a p r g} : draw i = .ok a → fit a = .ok p → ¬ (simForecast u p).broken m → Ran u m draw fit r g →
      Ran u m draw fit (i :: r) (simForecast u p :: g)

/-- The sums over the iterations of a list. -/
noncomputable def sums (crps : Dbl ℝ → Dbl ℝ → Outcome (Dbl ℝ)) (es : List Sco) : List Forecast → Results → Outcome Results
  | [], t => .ok t
  | F :: g, t => do
    let t ← addScores crps F es t
    sums crps es g t

section
variable {crps : Dbl ℝ → Dbl ℝ → Outcome (Dbl ℝ)} {u : SimSetup} {m : ℕ} {A : Type} {draw : ℕ → Outcome A} {fit : A → Outcome SimFit}

theorem simLoop_ran : ∀ (l : List ℕ) (s s' : SimState), simLoop crps u m draw fit l s = .ok s' → ∃ g, Ran u m draw fit l g ∧
    s'.valid = s.valid + g.length ∧ s'.counts = s.counts + (g.map (·.rows)).sum ∧ s'.invalid + (g.length : ℤ) = s.invalid + l.length ∧
    sums crps u.metrics g s.results = .ok s'.results
  | [], s, s', h => by
    rw [simLoop] at h
    obtain rfl := Outcome.ok.inj h
    exact ⟨[], .nil, rfl, rfl, rfl, rfl⟩
  | i :: r, s, s', h => by
    rw [simLoop] at h
    obtain ⟨a, h1, h⟩ := bind_ok h
    cases hf : fit a with
    | throws =>
      rw [hf] at h
      obtain ⟨g, k1, k2, k3, k4, k5⟩ := simLoop_ran r _ s' h
      refine ⟨g, .bad h1 hf k1, k2, k3, ?_, k5⟩
      rw [k4, List.length_cons]; push_cast; ring
    | ub => rw [hf] at h; cases h
    | diverges => rw [hf] at h; cases h
    | ok p =>
      rw [hf] at h
      dsimp only at h
      by_cases hl : lambdasOk u.lambdas m = false
      · rw [if_pos hl] at h; cases h
      rw [if_neg hl] at h
      by_cases hb : (simForecast u p).broken m
      · rw [if_pos hb] at h
        obtain ⟨g, k1, k2, k3, k4, k5⟩ := simLoop_ran r _ s' h
        refine ⟨g, .broken h1 hf hb k1, k2, k3, ?_, k5⟩
        rw [k4, List.length_cons]; push_cast; ring
      rw [if_neg hb] at h
      by_cases hi : s.invalid > u.maxInvalid
      · rw [if_pos hi] at h; cases h
      rw [if_neg hi] at h
      obtain ⟨t, h2, h⟩ := bind_ok h
      obtain ⟨g, k1, k2, k3, k4, k5⟩ := simLoop_ran r _ s' h
      refine ⟨_ :: g, .good h1 hf hb k1, ?_, ?_, ?_, ?_⟩
      · rw [k2, List.length_cons]; dsimp only; omega
      · rw [k3, List.map_cons, List.sum_cons]; dsimp only; omega
      · rw [List.length_cons, List.length_cons]; push_cast; dsimp only at k4; omega
      · rw [sums, h2]; exact k5

theorem Ran.unique {l : List ℕ} {g} (h : Ran u m draw fit l g) : ∀ {g'}, Ran u m draw fit l g' → g = g' := by
  induction h with
  | nil => intro g' h'; cases h'; rfl
  | bad h1 h2 h3 ih =>
    intro g' h'
    cases h' with
    | bad k1 k2 k3 => exact ih k3
    | broken k1 k2 k3 k4 => rw [h1] at k1; obtain rfl := Outcome.ok.inj k1; rw [h2] at k2; cases k2
    | good k1 k2 k3 k4 => rw [h1] at k1; obtain rfl := Outcome.ok.inj k1; rw [h2] at k2; cases k2
  | broken h1 h2 h3 h4 ih =>
    intro g' h'
    cases h' with
    | bad k1 k2 k3 => rw [h1] at k1; obtain rfl := Outcome.ok.inj k1; rw [h2] at k2; cases k2
    | broken k1 k2 k3 k4 => exact ih k4
    | good k1 k2 k3 k4 =>
      rw [h1] at k1; obtain rfl := Outcome.ok.inj k1; rw [h2] at k2; obtain rfl := Outcome.ok.inj k2; exact absurd h3 k3
  | good h1 h2 h3 h4 ih =>
    intro g' h'
    cases h' with
    | bad k1 k2 k3 => rw [h1] at k1; obtain rfl := Outcome.ok.inj k1; rw [h2] at k2; cases k2
    | broken k1 k2 k3 k4 =>
      rw [h1] at k1; obtain rfl := Outcome.ok.inj k1; rw [h2] at k2; obtain rfl := Outcome.ok.inj k2; exact absurd k3 h3
    | good k1 k2 k3 k4 =>
      rw [h1] at k1; obtain rfl := Outcome.ok.inj k1; rw [h2] at k2; obtain rfl := Outcome.ok.inj k2; rw [ih k4]

theorem Ran.length {l : List ℕ} {g} (h : Ran u m draw fit l g) : g.length ≤ l.length := by
  induction h with
  | nil => exact le_refl _
  | bad _ _ _ ih => rw [List.length_cons]; omega
  | broken _ _ _ _ ih => rw [List.length_cons]; omega
  | good _ _ _ _ ih => rw [List.length_cons, List.length_cons]; omega

theorem Ran.mem {l : List ℕ} {g} (h : Ran u m draw fit l g) : ∀ F ∈ g, ∃ i ∈ l, ∃ a p, draw i = .ok a ∧ fit a = .ok p ∧ F = simForecast u p ∧
    ¬ F.broken m := by
  induction h with
  | nil => intro F hF; cases hF
  | bad _ _ _ ih => intro F hF; obtain ⟨i, hi, r⟩ := ih F hF; exact ⟨i, List.mem_cons_of_mem _ hi, r⟩
  | broken _ _ _ _ ih => intro F hF; obtain ⟨i, hi, r⟩ := ih F hF; exact ⟨i, List.mem_cons_of_mem _ hi, r⟩
  | good h1 h2 h3 _ ih =>
    intro F hF
    rcases List.mem_cons.1 hF with rfl | hF
    · exact ⟨_, List.mem_cons_self, _, _, h1, h2, rfl, h3⟩
    · obtain ⟨i, hi, r⟩ := ih F hF; exact ⟨i, List.mem_cons_of_mem _ hi, r⟩

theorem simLoop_all {l : List ℕ} {g} (h : Ran u m draw fit l g) (hl : lambdasOk u.lambdas m = true) : ∀ (s : SimState),
    (∀ F ∈ g, ∀ t, ∃ t', addScores crps F u.metrics t = .ok t') →
    (simLoop crps u m draw fit l s = .throws ∧ u.maxInvalid < s.invalid + l.length - g.length) ∨ ∃ s', simLoop crps u m draw fit l s = .ok s' := by
  induction h with
  | nil => intro s _; exact Or.inr ⟨s, by rw [simLoop]⟩
  | @bad i a r g h1 h2 h3 ih =>
    intro s hs
    rw [simLoop, h1, Outcome.ok_bind, h2]
    rcases ih { s with invalid := s.invalid + 1 } hs with ⟨e, hi⟩ | ⟨s', e⟩
    · refine Or.inl ⟨e, ?_⟩
      rw [List.length_cons]; push_cast; dsimp only at hi; omega
    · exact Or.inr ⟨s', e⟩
  | @broken i a p r g h1 h2 h3 h4 ih =>
    intro s hs
    rw [simLoop, h1, Outcome.ok_bind, h2]
    dsimp only
    rw [if_neg (by rw [hl]; simp), if_pos h3]
    rcases ih { s with invalid := s.invalid + 1 } hs with ⟨e, hi⟩ | ⟨s', e⟩
    · refine Or.inl ⟨e, ?_⟩
      rw [List.length_cons]; push_cast; dsimp only at hi; omega
    · exact Or.inr ⟨s', e⟩
  | @good i a p r g h1 h2 h3 h4 ih =>
    intro s hs
    rw [simLoop, h1, Outcome.ok_bind, h2]
    dsimp only
    rw [if_neg (by rw [hl]; simp), if_neg h3]
    have hlen := h4.length
    by_cases hi : s.invalid > u.maxInvalid
    · rw [if_pos hi]
      refine Or.inl ⟨rfl, ?_⟩
      rw [List.length_cons, List.length_cons]; push_cast; omega
    · rw [if_neg hi]
      obtain ⟨t, ht⟩ := hs _ List.mem_cons_self s.results
      rw [ht, Outcome.ok_bind]
      rcases ih ⟨t, s.counts + (simForecast u p).rows, s.valid + 1, s.invalid⟩ (fun F hF => hs F (List.mem_cons_of_mem _ hF)) with ⟨e, hi⟩ | ⟨s', e⟩
      · refine Or.inl ⟨e, ?_⟩
        rw [List.length_cons, List.length_cons]; push_cast; dsimp only at hi; omega
      · exact Or.inr ⟨s', e⟩

end

/-! ## Sums -/

/-- The scores that are there. -/
def Implemented (e : Sco) : Prop := e ∈ [Sco.sign, .mae, .mape, .rmse, .rmspe, .crps]

section
variable {crps : Dbl ℝ → Dbl ℝ → Outcome (Dbl ℝ)}

theorem sumScores_throws {e : Sco} (h : ¬ Implemented e) (F : Forecast) (j : ℕ) : sumScores crps e F j = .throws := by
  unfold sumScores
  rw [if_pos]
  cases e <;> simp [Implemented] at h ⊢

theorem not_bad {e : Sco} (h : Implemented e) : e ∉ [Sco.direction, .frequencyCost, .auc, .brier] := by
  cases e <;> simp [Implemented] at h ⊢

theorem foldlM_num {t : ℕ → Outcome (Dbl ℝ)} {l : ℕ → ℝ} : ∀ (L : List ℕ), (∀ i ∈ L, t i = .ok (.num (l i))) → ∀ a : ℝ,
    L.foldlM (fun s i => do let t ← t i; pure ((exact : Ops ℝ).add s t)) (Dbl.num a) = .ok (.num (a + (L.map l).sum))
  | [], _, a => by simp
  | i :: L, h, a => by
    rw [List.foldlM_cons, h i List.mem_cons_self]
    show L.foldlM _ (Dbl.num (a + l i)) = _
    rw [foldlM_num L (fun k hk => h k (List.mem_cons_of_mem _ hk))]
    rw [List.map_cons, List.sum_cons, add_assoc]

theorem sumScores_num {e : Sco} (he : Implemented e) {F : Forecast} {j : ℕ} {l : ℕ → ℝ}
    (h : ∀ i < F.rows, term crps e (F.y i j) (F.mean i j) (F.err i j) (F.std i j) = .ok (.num (l i))) :
    sumScores crps e F j = .ok (.num (∑ i ∈ Finset.range F.rows, l i)) := by
  unfold sumScores
  rw [if_neg (not_bad he), foldlM_num (List.range F.rows) (fun i hi => h i (List.mem_range.1 hi)), zero_add, Dc.list_range_sum]

theorem addRow_spec {e : Sco} {F : Forecast} : ∀ (v : List (Dbl ℝ)) (k : ℕ) (v' : List (Dbl ℝ)), addRow crps e F k v = .ok v' →
    v'.length = v.length ∧ ∀ j x, v[j]? = some x → ∃ s, sumScores crps e F (k + j) = .ok s ∧ v'[j]? = some ((exact : Ops ℝ).add x s)
  | [], k, v', h => by
    rw [addRow] at h
    obtain rfl := Outcome.ok.inj h
    exact ⟨rfl, fun j x hx => by simp at hx⟩
  | a :: r, k, v', h => by
    rw [addRow] at h
    obtain ⟨s, h1, h⟩ := bind_ok h
    obtain ⟨r', h2, h⟩ := bind_ok h
    obtain rfl := Outcome.ok.inj h
    obtain ⟨l1, l2⟩ := addRow_spec r (k + 1) r' h2
    refine ⟨by rw [List.length_cons, List.length_cons, l1], fun j x hx => ?_⟩
    cases j with
    | zero =>
      simp only [List.getElem?_cons_zero, Option.some.injEq] at hx
      subst hx
      exact ⟨s, h1, rfl⟩
    | succ j =>
      rw [List.getElem?_cons_succ] at hx
      obtain ⟨s', e1, e2⟩ := l2 j x hx
      exact ⟨s', by rw [← e1]; congr 1; omega, e2⟩

/-- The cell `(i, j)` of the results. -/
def cell (r : Results) (i j : ℕ) : Option (Dbl ℝ) := r[i]? >>= fun v => v[j]?

theorem addScores_spec {F : Forecast} : ∀ (es : List Sco) (t t' : Results), t.length = es.length → addScores crps F es t = .ok t' →
    t'.length = es.length ∧ ∀ i e, es[i]? = some e → ∀ j x, cell t i j = some x → ∃ s, sumScores crps e F j = .ok s ∧
      cell t' i j = some ((exact : Ops ℝ).add x s)
  | [], t, t', hl, h => by
    rw [addScores] at h
    obtain rfl := Outcome.ok.inj h
    · exact ⟨rfl, fun i e he => by simp at he⟩
    · intro e es v r h1; cases h1
  | e :: es, [], t', hl, h => by simp at hl
  | e :: es, v :: r, t', hl, h => by
    rw [addScores] at h
    obtain ⟨v', h1, h⟩ := bind_ok h
    obtain ⟨r', h2, h⟩ := bind_ok h
    obtain rfl := Outcome.ok.inj h
    obtain ⟨l1, l2⟩ := addScores_spec es r r' (by simpa using hl) h2
    obtain ⟨-, m2⟩ := addRow_spec v 0 v' h1
    refine ⟨by rw [List.length_cons, List.length_cons, l1], fun i e' he j x hx => ?_⟩
    cases i with
    | zero =>
      simp only [List.getElem?_cons_zero, Option.some.injEq] at he
      subst he
      obtain ⟨s, e1, e2⟩ := m2 j x hx
      exact ⟨s, by rw [zero_add] at e1; exact e1, e2⟩
    | succ i => exact l2 i e' (by simpa using he) j x hx

theorem sums_spec {es : List Sco} : ∀ (g : List Forecast) (t t' : Results), t.length = es.length → sums crps es g t = .ok t' →
    t'.length = es.length ∧ ∀ i e, es[i]? = some e → ∀ j (a : ℝ) (c : Forecast → ℝ), cell t i j = some (.num a) →
      (∀ F ∈ g, sumScores crps e F j = .ok (.num (c F))) → cell t' i j = some (.num (a + (g.map c).sum))
  | [], t, t', hl, h => by
    rw [sums] at h
    obtain rfl := Outcome.ok.inj h
    exact ⟨hl, fun i e _ j a c hx _ => by simpa using hx⟩
  | F :: g, t, t', hl, h => by
    rw [sums] at h
    obtain ⟨t1, h1, h⟩ := bind_ok h
    obtain ⟨l1, l2⟩ := addScores_spec es t t1 hl h1
    obtain ⟨k1, k2⟩ := sums_spec g t1 t' l1 h
    refine ⟨k1, fun i e he j a c hx hF => ?_⟩
    obtain ⟨s, e1, e2⟩ := l2 i e he j _ hx
    rw [hF F List.mem_cons_self] at e1
    obtain rfl := Outcome.ok.inj e1
    rw [k2 i e he j (a + c F) c e2 (fun G hG => hF G (List.mem_cons_of_mem _ hG)), List.map_cons, List.sum_cons, add_assoc]

end

theorem backD_none (v : Dbl ℝ) : backD none v = v := by cases v <;> rfl

/-- The forecast consists of these numbers (the standard deviations too, if they are wanted). -/
def Forecast.Is (F : Forecast) (m : ℕ) (deviations : Prop) (t : Numbers) : Prop :=
  F.rows = t.rows ∧ ∀ a < t.rows, ∀ j < m, F.y a j = .num (t.y a j) ∧ F.mean a j = .num (t.mean a j) ∧ (deviations → F.std a j = .num (t.std a j))

end Su
end LDT
