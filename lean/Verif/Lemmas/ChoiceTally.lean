import Verif.Lemmas.ChoiceSim
import Verif.Props.FreqCost
/-! # Lemmas on the sums of the simulations -/
namespace LDT
namespace Dc
open Op Di Mx Arr

/-- What happened in the simulations of a list: those in which the model could be estimated, in order; in the others an exception was caught. -/
inductive Ran {A : Type} (draw : ℕ → Outcome A) (fit : A → Outcome (Data × (ℕ → ℕ → Val ℝ))) : List ℕ → List (Data × (ℕ → ℕ → Val ℝ)) → Prop
  | nil : Ran draw fit [] []
  | bad {i a r g} : draw i = .ok a → fit a = .throws → Ran draw fit r g → Ran draw fit (i :: r) g
  | good {i a q r g} : draw i = .ok a → fit a = .ok q → Ran draw fit r g → Ran draw fit (i :: r) (q :: g)

/-- The sums over the simulations of a list. -/
noncomputable def scores (u : SimSetup) : List (Data × (ℕ → ℕ → Val ℝ)) → Tally → Outcome Tally
  | [], s => .ok s
  | q :: g, s => do
    let t ← score u q.1 q.2 s
    scores u g t

section
variable {u : SimSetup} {A : Type} {draw : ℕ → Outcome A} {fit : A → Outcome (Data × (ℕ → ℕ → Val ℝ))}

theorem simLoop_ran : ∀ (l : List ℕ) (s s' : SimState), simLoop u draw fit l s = .ok s' → ∃ g, Ran draw fit l g ∧ s'.valid = s.valid + g.length ∧
    s'.invalid + g.length = s.invalid + l.length ∧ scores u g s.tally = .ok s'.tally
  | [], s, s', h => by
    obtain rfl := Outcome.ok.inj h
    exact ⟨[], .nil, by simp, by simp, rfl⟩
  | i :: l, s, s', h => by
    rw [simLoop] at h
    obtain ⟨a, ha, h⟩ := bind_ok h
    cases hf : fit a with
    | throws =>
      rw [hf] at h
      obtain ⟨g, h1, h2, h3, h4⟩ := simLoop_ran l _ s' h
      exact ⟨g, .bad ha hf h1, h2, by rw [h3]; simp; ring, h4⟩
    | ub => rw [hf] at h; cases h
    | diverges => rw [hf] at h; cases h
    | ok q =>
      rw [hf] at h
      dsimp only at h
      obtain ⟨t, ht, h⟩ := bind_ok h
      by_cases hm : s.invalid > u.maxInvalid
      · rw [if_pos hm] at h; cases h
      rw [if_neg hm] at h
      obtain ⟨g, h1, h2, h3, h4⟩ := simLoop_ran l _ s' h
      refine ⟨q :: g, .good ha hf h1, by rw [h2]; simp; ring, by simp at h3 ⊢; omega, ?_⟩
      show (score u q.1 q.2 s.tally >>= _) = _
      rw [ht]
      exact h4

theorem Ran.length_le {l : List ℕ} {g} (h : Ran draw fit l g) : g.length ≤ l.length := by
  induction h with
  | nil => simp
  | bad _ _ _ ih => simp; omega
  | good _ _ _ ih => simp; omega

theorem Ran.unique {l : List ℕ} {g} (h : Ran draw fit l g) : ∀ {g'}, Ran draw fit l g' → g = g' := by
  induction h with
  | nil => intro g' h; cases h; rfl
  | bad h1 h2 _ ih =>
    intro g' h
    cases h with
    | bad k1 k2 k3 => exact ih k3
    | good k1 k2 k3 =>
      rw [h1] at k1; obtain rfl := Outcome.ok.inj k1
      rw [h2] at k2; cases k2
  | good h1 h2 _ ih =>
    intro g' h
    cases h with
    | bad k1 k2 k3 =>
      rw [h1] at k1; obtain rfl := Outcome.ok.inj k1
      rw [h2] at k2; cases k2
    | good k1 k2 k3 =>
      rw [h1] at k1; obtain rfl := Outcome.ok.inj k1
      rw [h2] at k2; obtain rfl := Outcome.ok.inj k2
      rw [ih k3]

theorem Ran.mem {l : List ℕ} {g} (h : Ran draw fit l g) : ∀ q ∈ g, ∃ i ∈ l, ∃ a, draw i = .ok a ∧ fit a = .ok q := by
  induction h with
  | nil => simp
  | bad h1 h2 _ ih => intro q hq; obtain ⟨i, hi, a, h⟩ := ih q hq; exact ⟨i, by simp [hi], a, h⟩
  | good h1 h2 _ ih =>
    intro q hq
    rcases List.mem_cons.1 hq with rfl | hq
    · exact ⟨_, by simp, _, h1, h2⟩
    · obtain ⟨i, hi, a, h⟩ := ih q hq; exact ⟨i, by simp [hi], a, h⟩

theorem simLoop_all {l : List ℕ} {g} (h : Ran draw fit l g) : ∀ (s : SimState), (∀ q ∈ g, ∀ t, ∃ t', score u q.1 q.2 t = .ok t') →
    simLoop u draw fit l s = .throws ∨ ∃ s', simLoop u draw fit l s = .ok s' := by
  induction h with
  | nil => intro s _; exact Or.inr ⟨s, rfl⟩
  | bad h1 h2 _ ih =>
    intro s hs
    rw [simLoop, h1]
    show (match fit _ with
      | .throws => simLoop u draw fit _ _
      | .ub => .ub
      | .diverges => .diverges
      | .ok q => _) = _ ∨ _
    simp only [bind, Outcome.bind]
    rw [h2]
    exact ih _ hs
  | good h1 h2 _ ih =>
    intro s hs
    rw [simLoop, h1]
    simp only [bind, Outcome.bind]
    rw [h2]
    obtain ⟨t, ht⟩ := hs _ List.mem_cons_self s.tally
    dsimp only
    rw [ht]
    dsimp only
    split_ifs with hm
    · exact Or.inl rfl
    · exact ih _ fun q hq => hs q (by simp [hq])

/-! ## The parts of a score -/

/-- The weights of the costs and of the area. -/
def SimSetup.evalWeight (u : SimSetup) (T : Data) (i : ℕ) : ℝ := if u.hasWeight && u.weightedEval then T.wt i else 1

/-- The costs of a simulation. -/
noncomputable def simCosts (u : SimSetup) (q : Data × (ℕ → ℕ → Val ℝ)) : Outcome (List (ℝ × ℝ) × ℝ) :=
  FCost.calculate u.costs (costObs q.1.n q.1.y (u.evalWeight q.1)) (dense q.1.n u.numChoices.toNat fun i j => (q.2 i j).getD 0)

/-- The area of a simulation. -/
noncomputable def simAuc (u : SimSetup) (q : Data × (ℕ → ℕ → Val ℝ)) : Outcome (Val ℝ) :=
  aucOf u.roc u.rocCosts q.1.n q.1.y (fun i => (q.2 i 0).getD 0) (u.evalWeight q.1)

/-- The Brier score of a simulation. -/
noncomputable def simBrier (q : Data × (ℕ → ℕ → Val ℝ)) : Val ℝ :=
  brier q.1.n (fun i => some (q.1.wt i)) (fun i => some (q.1.y i)) (fun i => q.2 i 1)

theorem score_parts {q : Data × (ℕ → ℕ → Val ℝ)} {s s' : Tally} (h : score u q.1 q.2 s = .ok s') :
    (if u.costs = [] then s'.costs = s.costs
      else ∃ c avg, simCosts u q = .ok (c, avg) ∧ s'.costs = List.zipWith (fun a b => (a.1 + b.1, a.2 + b.2)) s.costs c) ∧
    (∃ a, (if u.doAuc then simAuc u q = .ok a else a = some 0) ∧ s'.auc = do let x ← s.auc; let y ← a; pure (x + y)) ∧
    (if u.doTable then tableLoop u.numChoices q.1.y q.1.wt q.2 (List.range q.1.n) s.table = .ok s'.table else s'.table = s.table) ∧
    (s'.brier = if u.doBrier then simBrier q else s.brier) := by
  unfold score at h
  dsimp only at h
  obtain ⟨cs, h1, h⟩ := bind_ok h
  obtain ⟨a, h2, h⟩ := bind_ok h
  have k1 : if u.costs = [] then cs = s.costs
      else ∃ c avg, simCosts u q = .ok (c, avg) ∧ cs = List.zipWith (fun a b => (a.1 + b.1, a.2 + b.2)) s.costs c := by
    by_cases hc : u.costs = []
    · rw [if_pos hc] at h1 ⊢; exact (Outcome.ok.inj h1).symm
    · rw [if_neg hc] at h1 ⊢
      obtain ⟨r, hr, h1⟩ := bind_ok h1
      exact ⟨r.1, r.2, hr, (Outcome.ok.inj h1).symm⟩
  have k2 : if u.doAuc then simAuc u q = .ok a else a = some 0 := by
    by_cases hc : u.doAuc = true
    · rw [if_pos hc] at h2 ⊢; exact h2
    · rw [if_neg hc] at h2 ⊢; exact (Outcome.ok.inj h2).symm
  by_cases hc : u.doTable = true
  · rw [if_pos hc] at h
    obtain ⟨t, ht, h⟩ := bind_ok h
    rw [← Outcome.ok.inj h, if_pos hc]
    exact ⟨k1, ⟨a, k2, rfl⟩, ht, rfl⟩
  · rw [if_neg hc] at h
    rw [← Outcome.ok.inj h, if_neg hc]
    exact ⟨k1, ⟨a, k2, rfl⟩, rfl, rfl⟩

theorem scores_brier (hb : u.doBrier = true) : ∀ (g : List (Data × (ℕ → ℕ → Val ℝ))) (s s' : Tally), scores u g s = .ok s' →
    ∀ q, g.getLast? = some q → s'.brier = simBrier q
  | [], s, s', h, q, hq => by simp at hq
  | p :: g, s, s', h, q, hq => by
    rw [scores] at h
    obtain ⟨t, ht, h⟩ := bind_ok h
    cases g with
    | nil =>
      obtain rfl := Outcome.ok.inj h
      have : p = q := by simpa using hq
      subst this
      have := (score_parts ht).2.2.2
      rw [if_pos hb] at this
      exact this
    | cons p' g => exact scores_brier hb (p' :: g) t s' h q (by rw [← hq]; simp [List.getLast?_cons_cons])

theorem scores_auc (ha : u.doAuc = true) : ∀ (g : List (Data × (ℕ → ℕ → Val ℝ))) (s s' : Tally), scores u g s = .ok s' →
    ∃ as : List (Val ℝ), List.Forall₂ (fun q a => simAuc u q = .ok a) g as ∧ s'.auc = as.foldl (fun x a => do let x ← x; let y ← a; pure (x + y)) s.auc
  | [], s, s', h => by
    obtain rfl := Outcome.ok.inj h
    exact ⟨[], .nil, rfl⟩
  | p :: g, s, s', h => by
    rw [scores] at h
    obtain ⟨t, ht, h⟩ := bind_ok h
    obtain ⟨as, h1, h2⟩ := scores_auc ha g t s' h
    obtain ⟨a, k1, k2⟩ := (score_parts ht).2.1
    rw [if_pos ha] at k1
    exact ⟨a :: as, .cons k1 h1, by rw [h2, k2]; rfl⟩

theorem val_sum (xs : List ℝ) : ∀ x : ℝ, (xs.map some).foldl (fun (x a : Val ℝ) => (do let x ← x; let y ← a; pure (x + y) : Val ℝ)) (some x) = some (x + xs.sum) := by
  induction xs with
  | nil => simp
  | cons a xs ih =>
    intro x
    show (xs.map some).foldl _ (some (x + a)) = _
    rw [ih]; simp [add_assoc]

theorem val_none (as : List (Val ℝ)) : as.foldl (fun (x a : Val ℝ) => (do let x ← x; let y ← a; pure (x + y) : Val ℝ)) none = none := by
  induction as with
  | nil => rfl
  | cons a as ih => exact ih

theorem val_nan (as : List (Val ℝ)) (h : none ∈ as) : ∀ x : Val ℝ, as.foldl (fun (x a : Val ℝ) => (do let x ← x; let y ← a; pure (x + y) : Val ℝ)) x = none := by
  induction as with
  | nil => simp at h
  | cons a as ih =>
    intro x
    rcases List.mem_cons.1 h with rfl | h
    · show as.foldl _ _ = none
      cases x <;> exact val_none as
    · exact ih h _

theorem scores_costs (hc : u.costs ≠ []) : ∀ (g : List (Data × (ℕ → ℕ → Val ℝ))) (s s' : Tally), scores u g s = .ok s' →
    ∃ cs : List (List (ℝ × ℝ)), List.Forall₂ (fun q c => ∃ avg, simCosts u q = .ok (c, avg)) g cs ∧
      s'.costs = cs.foldl (fun x c => List.zipWith (fun a b => (a.1 + b.1, a.2 + b.2)) x c) s.costs
  | [], s, s', h => by
    obtain rfl := Outcome.ok.inj h
    exact ⟨[], .nil, rfl⟩
  | p :: g, s, s', h => by
    rw [scores] at h
    obtain ⟨t, ht, h⟩ := bind_ok h
    obtain ⟨cs, h1, h2⟩ := scores_costs hc g t s' h
    have k := (score_parts ht).1
    rw [if_neg hc] at k
    obtain ⟨c, avg, k1, k2⟩ := k
    exact ⟨c :: cs, .cons ⟨avg, k1⟩ h1, by rw [h2, k2]; rfl⟩

theorem chargeAll_length {p : ℝ} {col : ℤ} {w : ℝ} : ∀ (cs : List (Mat ℝ)) (ss out : List (ℝ × ℝ)), FCost.chargeAll p col w cs ss = .ok out →
    ss.length = cs.length → out.length = cs.length
  | [], ss, out, h, _ => by
    rw [FCost.chargeAll] at h
    · rw [← Outcome.ok.inj h]; rfl
    · simp
  | c :: cs, [], out, h, hl => by simp at hl
  | c :: cs, s :: ss, out, h, hl => by
    rw [FCost.chargeAll] at h
    obtain ⟨s', h1, h⟩ := bind_ok h
    obtain ⟨rest, h2, h⟩ := bind_ok h
    rw [← Outcome.ok.inj h]
    simp [chargeAll_length cs ss rest h2 (by simpa using hl)]

theorem obsLoop_length {costs : List (Mat ℝ)} {scores : Mat ℝ} : ∀ (obs : List (Option ℤ × ℝ)) (i : ℤ) (st out : List (ℝ × ℝ)),
    FCost.obsLoop costs scores obs i st = .ok out → st.length = costs.length → out.length = costs.length
  | [], i, st, out, h, hl => by rw [FCost.obsLoop] at h; rw [← Outcome.ok.inj h]; exact hl
  | (none, w) :: obs, i, st, out, h, hl => by rw [FCost.obsLoop] at h; exact obsLoop_length obs _ st out h hl
  | (some c, w) :: obs, i, st, out, h, hl => by
    rw [FCost.obsLoop] at h
    obtain ⟨p, h1, h⟩ := bind_ok h
    obtain ⟨st', h2, h⟩ := bind_ok h
    exact obsLoop_length obs _ st' out h (chargeAll_length _ _ _ h2 hl)

theorem simCosts_length {q : Data × (ℕ → ℕ → Val ℝ)} {c : List (ℝ × ℝ)} {avg : ℝ} (h : simCosts u q = .ok (c, avg)) : c.length = u.costs.length := by
  unfold simCosts FCost.calculate at h
  obtain ⟨st, h1, h⟩ := bind_ok h
  have := Outcome.ok.inj h
  have e : st = c := congrArg Prod.fst this
  rw [← e]
  exact obsLoop_length _ _ _ _ h1 (by simp)

theorem zip_sums (n : ℕ) (cs : List (List (ℝ × ℝ))) (hl : ∀ c ∈ cs, c.length = n) : ∀ x : List (ℝ × ℝ), x.length = n →
    (cs.foldl (fun x c => List.zipWith (fun a b => (a.1 + b.1, a.2 + b.2)) x c) x).length = n ∧ ∀ j < n,
      (cs.foldl (fun x c => List.zipWith (fun a b => (a.1 + b.1, a.2 + b.2)) x c) x).getD j (0, 0) =
        ((x.getD j (0, 0)).1 + (cs.map fun c => (c.getD j (0, 0)).1).sum, (x.getD j (0, 0)).2 + (cs.map fun c => (c.getD j (0, 0)).2).sum) := by
  induction cs with
  | nil => intro x hx; exact ⟨hx, fun j _ => by simp⟩
  | cons c cs ih =>
    intro x hx
    have hcl := hl c (by simp)
    obtain ⟨h1, h2⟩ := ih (fun c hc => hl c (by simp [hc])) (List.zipWith (fun a b => (a.1 + b.1, a.2 + b.2)) x c) (by simp [hx, hcl])
    refine ⟨h1, fun j hj => ?_⟩
    rw [List.foldl_cons, h2 j hj]
    have : (List.zipWith (fun (a b : ℝ × ℝ) => (a.1 + b.1, a.2 + b.2)) x c).getD j (0, 0) =
        ((x.getD j (0, 0)).1 + (c.getD j (0, 0)).1, (x.getD j (0, 0)).2 + (c.getD j (0, 0)).2) := by
      simp only [List.getD_eq_getElem?_getD, List.getElem?_zipWith, List.getElem?_eq_getElem (show j < x.length by omega),
        List.getElem?_eq_getElem (show j < c.length by omega), Option.getD_some]
    rw [this]
    simp [add_assoc]

/-! ## The table -/

theorem inRow_iff {p : ℝ} {a : ℕ} (ha : a < 10) : (a : ℤ) = (if ⌊p * 10⌋ = 10 then 9 else ⌊p * 10⌋) ↔ InRow a p := by
  unfold InRow
  have h10 : ∀ k : ℤ, ⌊p * 10⌋ = k ↔ (k : ℝ) / 10 ≤ p ∧ p < (k + 1) / 10 := fun k => by
    rw [Int.floor_eq_iff]
    constructor <;> rintro ⟨h1, h2⟩ <;> constructor <;> linarith
  by_cases h : ⌊p * 10⌋ = 10
  · rw [if_pos h]
    have hp := (h10 10).1 h
    push_cast at hp
    constructor
    · intro e
      have e : a = 9 := by omega
      subst e
      exact ⟨by push_cast; linarith [hp.1], Or.inr ⟨rfl, by linarith [hp.2]⟩⟩
    · rintro ⟨h1, h2 | ⟨rfl, h2⟩⟩
      · exfalso
        have : (a : ℝ) ≤ 9 := by exact_mod_cast (by omega : a ≤ 9)
        linarith [hp.1]
      · rfl
  · rw [if_neg h, eq_comm, h10]
    rw [show ((a : ℤ) : ℝ) = (a : ℝ) from Int.cast_natCast a]
    constructor
    · rintro ⟨h1, h2⟩; exact ⟨h1, Or.inl h2⟩
    · rintro ⟨h1, h2 | ⟨rfl, h2⟩⟩
      · exact ⟨h1, h2⟩
      · refine ⟨h1, ?_⟩
        by_contra hge
        push Not at hge
        exact h ((h10 10).2 ⟨by push_cast at hge ⊢; linarith, by push_cast; linarith⟩)

open Classical in
theorem tableLoop_spec {c : ℤ} {y w : ℕ → ℝ} {p : ℕ → ℕ → Val ℝ} : ∀ (l : List ℕ) (t t' : ℕ → ℕ → ℝ), tableLoop c y w p l t = .ok t' →
    ∀ a < 10, ∀ b, t' a b = t a b + (l.map fun i => if trunc (y i) = b ∧ ∃ v, p i b = some v ∧ InRow a v then w i else 0).sum
  | [], t, t', h, a, ha, b => by
    rw [tableLoop] at h
    rw [← Outcome.ok.inj h]; simp
  | i :: l, t, t', h, a, ha, b => by
    rw [tableLoop] at h
    dsimp only at h
    split_ifs at h with hr
    · push Not at hr
      cases hp : p i (trunc (y i)).toNat with
      | none => rw [hp] at h; cases h
      | some v =>
        rw [hp] at h
        dsimp only at h
        obtain ⟨t1, h1, h⟩ := bind_ok h
        rw [tableLoop_spec l t1 t' h a ha b, List.map_cons, List.sum_cons, ← add_assoc]
        congr 1
        unfold plusAt at h1
        generalize hjj : (if ⌊v * 10⌋ = 10 then 9 else ⌊v * 10⌋) = j at h1
        split_ifs at h1 with hj
        rw [← Outcome.ok.inj h1]
        dsimp only
        by_cases hb : (b : ℤ) = trunc (y i)
        · have hb' : (trunc (y i)).toNat = b := by omega
          rw [hb'] at hp
          by_cases hA : InRow a v
          · rw [if_pos ⟨((inRow_iff ha).2 hA).trans hjj, hb⟩, if_pos ⟨hb.symm, v, hp, hA⟩]
          · rw [if_neg (fun h => hA ((inRow_iff ha).1 (h.1.trans hjj.symm))), if_neg (by
              rintro ⟨_, v', hv', h'⟩; rw [hp] at hv'; obtain rfl := Option.some.inj hv'; exact hA h'), add_zero]
        · rw [if_neg (fun h => hb h.2), if_neg (fun h => hb h.1.symm), add_zero]

open Classical in
/-- What a simulation adds to a cell of the table. -/
noncomputable def cellOf (q : Data × (ℕ → ℕ → Val ℝ)) (a b : ℕ) : ℝ :=
  ∑ i ∈ Finset.range q.1.n, if trunc (q.1.y i) = b ∧ ∃ v, q.2 i b = some v ∧ InRow a v then q.1.wt i else 0

theorem scores_table (ht : u.doTable = true) : ∀ (g : List (Data × (ℕ → ℕ → Val ℝ))) (s s' : Tally), scores u g s = .ok s' →
    ∀ a < 10, ∀ b, s'.table a b = s.table a b + (g.map fun q => cellOf q a b).sum
  | [], s, s', h, a, ha, b => by
    rw [← Outcome.ok.inj h]; simp
  | p :: g, s, s', h, a, ha, b => by
    rw [scores] at h
    obtain ⟨t, h1, h⟩ := bind_ok h
    rw [scores_table ht g t s' h a ha b, List.map_cons, List.sum_cons, ← add_assoc]
    congr 1
    have k := (score_parts h1).2.2.1
    rw [if_pos ht] at k
    rw [tableLoop_spec _ _ _ k a ha b, list_range_sum]
    rfl

end
end Dc
end LDT
