import Verif.Lemmas.VarmaSim
/-! # The loops of the simulations of VARMA models -/
namespace LDT
namespace Vs
open Mx Op Score
open Dc (bind_ok)
open Su (backD sqrtD lambda lambdasOk Results cell requiresVariance)

/-! ## When a simulation can be scored -/

theorem exists_mapM {α β : Type} {f : α → Outcome β} : ∀ {l : List α}, (∀ a ∈ l, ∃ b, f a = .ok b) → ∃ r, l.mapM f = .ok r
  | [], _ => ⟨[], rfl⟩
  | a :: l, h => by
    obtain ⟨b, hb⟩ := h a List.mem_cons_self
    obtain ⟨r, hr⟩ := exists_mapM (l := l) fun x hx => h x (List.mem_cons_of_mem _ hx)
    exact ⟨b :: r, by rw [List.mapM_cons, hb, Outcome.ok_bind, hr, Outcome.ok_bind]; rfl⟩

theorem read_exists {α : Type} {l : List α} {k : ℤ} (h0 : 0 ≤ k) (h1 : k < l.length) : ∃ v, Mx.read l k = .ok v := by
  have h2 : k.toNat < l.length := by omega
  refine ⟨l[k.toNat], ?_⟩
  unfold Mx.read
  rw [if_pos h0, List.getElem?_eq_getElem h2]

theorem addHorizons_ok {H : ℤ} {temp : List (Dbl ℝ)} : ∀ (hs : List ℤ) (k : ℤ) (v : Dbl ℝ), 0 ≤ k → k + hs.length ≤ temp.length →
    ∃ w, addHorizons H temp hs k v = .ok w
  | [], k, v, _, _ => ⟨v, by rw [addHorizons]⟩
  | h :: r, k, v, h0, h1 => by
    rw [List.length_cons] at h1
    push_cast at h1
    rw [addHorizons]
    by_cases hh : h > H
    · rw [if_pos hh]; exact addHorizons_ok r k v h0 (by omega)
    · rw [if_neg hh]
      obtain ⟨t, ht⟩ := read_exists (l := temp) h0 (by omega)
      rw [ht, Outcome.ok_bind]
      exact addHorizons_ok r (k + 1) _ (by omega) (by omega)

section
variable {crps : Dbl ℝ → Dbl ℝ → Outcome (Dbl ℝ)} {u : Setup} {data : Cols}

/-- What is needed for a simulation to be scored: metrics that are there, a transformation for each variable, positive horizons, and a continuous ranked
probability score for deviations that are not negative (they may be after a transformation). -/
structure Scorable (crps : Dbl ℝ → Dbl ℝ → Outcome (Dbl ℝ)) (u : Setup) : Prop where
  metrics : ∀ e ∈ u.metrics, Implemented e
  crps : Sco.crps ∈ u.metrics → u.lambdas = none ∧ ∀ a b : Dbl ℝ, b.lt (.num 0) = false → ∃ v, crps a b = .ok v
  lambdas : ∀ l, u.lambdas = some l → u.eqs ≤ l.length
  horizons : ∀ h ∈ u.horizons, 1 ≤ h

/-- The forecast (and its variance, if it is wanted) reaches `H` periods beyond its first columns. -/
def Reaches (u : Setup) (p : Fit) (H : ℤ) : Prop :=
  0 ≤ p.start ∧ p.start + H ≤ p.forecast.length ∧ (u.doVar = true → p.start + H ≤ p.variance.length)

theorem Scorable.ok (hs : Scorable crps u) : lambdasOk u.lambdas u.eqs = true := by
  unfold lambdasOk
  cases h : u.lambdas with
  | none => rfl
  | some l => exact decide_eq_true (hs.lambdas l h)

theorem column_ok (hs : Scorable crps u) {p : Fit} {final se h : ℤ} (hh : h ∈ u.horizons) (h0 : 0 ≤ final - se) (h1 : final < data.length)
    (hr : Reaches u p (min se u.hMax)) : ∃ k, column u data p (final - se) (min se u.hMax) h = .ok k := by
  have hp := hs.horizons h hh
  obtain ⟨r1, r2, r3⟩ := hr
  unfold column
  by_cases hle : h ≤ min se u.hMax
  · rw [if_pos hle]
    obtain ⟨a, ha⟩ := read_exists (l := data) (k := final - se + h) (by omega) (by omega)
    obtain ⟨f, hf⟩ := read_exists (l := p.forecast) (k := p.start - 1 + h) (by omega) (by omega)
    rw [ha, Outcome.ok_bind, hf, Outcome.ok_bind]
    unfold variances
    by_cases hd : u.doVar = true
    · have := r3 hd
      obtain ⟨v, hv⟩ := read_exists (l := p.variance) (k := p.start - 1 + h) (by omega) (by omega)
      rw [if_pos hd, hv, Outcome.ok_bind]
      exact ⟨_, rfl⟩
    · rw [if_neg hd, Outcome.ok_bind]
      exact ⟨_, rfl⟩
  · rw [if_neg hle]; exact ⟨_, rfl⟩

theorem sqrtD_not_neg (v : Dbl ℝ) : (sqrtD v).lt (.num 0) = false := by
  cases v with
  | num x =>
    unfold sqrtD
    dsimp only
    by_cases h : x < 0
    · rw [if_pos h]; rfl
    · rw [if_neg h]; exact decide_eq_false (not_lt.2 (Real.sqrt_nonneg _))
  | nan => rfl
  | pinf => rfl
  | ninf => rfl

theorem std_not_neg (hn : u.lambdas = none) (hd : u.doVar = true) (k : Column) (j : ℕ) : ((k.back u).std j).lt (.num 0) = false := by
  show (if u.doVar then backD (lambda u.lambdas j) (sqrtD (k.std j)) else k.std j).lt (.num 0) = false
  rw [hd, if_pos rfl, hn, show lambda none j = none from rfl, Su.backD_none]
  exact sqrtD_not_neg _

theorem doVar_of_crps {e : Sco} (he : e ∈ u.metrics) (hc : e = .crps) : u.doVar = true := by
  unfold Setup.doVar
  rw [List.any_eq_true]
  exact ⟨e, he, by rw [hc]; rfl⟩

theorem addEquation_ok (hs : Scorable crps u) {e : Sco} (he : e ∈ u.metrics) {H : ℤ} {last : ℕ → Dbl ℝ} {cols : List Column}
    (hc : ∀ k ∈ cols, ∃ k0 : Column, k = k0.back u) (hl : cols.length = u.horizons.length) (j : ℕ) (v : Dbl ℝ) :
    ∃ w, addEquation crps e u H last cols j v = .ok w := by
  unfold addEquation
  obtain ⟨temp, ht⟩ := exists_mapM (f := fun k : Column => score crps e (last j) (k.act j) (k.forc j) (k.err j) (k.std j)) (l := cols) (fun k hk => by
    have hi := hs.metrics e he
    by_cases hcr : e = .crps
    · obtain ⟨hn, hcc⟩ := hs.crps (hcr ▸ he)
      obtain ⟨k0, rfl⟩ := hc k hk
      obtain ⟨w, hw⟩ := hcc ((k0.back u).err j) ((k0.back u).std j) (std_not_neg hn (doVar_of_crps he hcr) k0 j)
      refine ⟨w, ?_⟩
      rw [hcr]
      exact hw
    · cases e <;> first | exact ⟨_, rfl⟩ | exact absurd rfl hcr | (simp [Implemented] at hi))
  rw [ht, Outcome.ok_bind]
  have hlen := (mapM_forall₂ ht).length_eq
  exact addHorizons_ok _ 0 v (le_refl _) (by omega)

theorem addRow_ok {e : Sco} {H : ℤ} {last : ℕ → Dbl ℝ} {cols : List Column} (h : ∀ j v, ∃ w, addEquation crps e u H last cols j v = .ok w) :
    ∀ (v : List (Dbl ℝ)) (j : ℕ), ∃ w, addRow crps e u H last cols j v = .ok w
  | [], j => ⟨[], by rw [addRow]⟩
  | a :: r, j => by
    obtain ⟨s, h1⟩ := h j a
    obtain ⟨r', h2⟩ := addRow_ok h r (j + 1)
    exact ⟨_, by rw [addRow, h1, Outcome.ok_bind, h2, Outcome.ok_bind]; rfl⟩

theorem addScores_ok {H : ℤ} {last : ℕ → Dbl ℝ} {cols : List Column} : ∀ (es : List Sco)
    (_ : ∀ e ∈ es, ∀ j v, ∃ w, addEquation crps e u H last cols j v = .ok w) (t : Results), ∃ t', addScores crps u H last cols es t = .ok t'
  | [], _, t => ⟨[], by rw [addScores]; intro e es v r h; cases h⟩
  | e :: es, hs, [] => ⟨[], by rw [addScores]; intro e es v r _ h; cases h⟩
  | e :: es, hs, v :: r => by
    obtain ⟨v', h1⟩ := addRow_ok (hs e List.mem_cons_self) v 0
    obtain ⟨r', h2⟩ := addScores_ok es (fun e he => hs e (List.mem_cons_of_mem _ he)) r
    exact ⟨_, by rw [addScores, h1, Outcome.ok_bind, h2, Outcome.ok_bind]; rfl⟩

theorem simulate_ok (hs : Scorable crps u) {p : Fit} {final se : ℤ} (h0 : 0 ≤ final - se) (h1 : final < data.length) (hse : 0 ≤ se)
    (hr : Reaches u p (min se u.hMax)) (t : Results) : ∃ r, simulate crps u data p (final - se) (min se u.hMax) t = .ok r := by
  unfold simulate
  obtain ⟨l, hl⟩ := read_exists (l := data) h0 (by omega)
  obtain ⟨ks, hk⟩ := exists_mapM (f := fun h => column u data p (final - se) (min se u.hMax) h) (l := u.horizons) fun h hh => column_ok hs hh h0 h1 hr
  rw [hl, Outcome.ok_bind, hk, Outcome.ok_bind, if_neg (by rw [hs.ok]; simp)]
  dsimp only
  obtain ⟨t', ht⟩ := addScores_ok (crps := crps) (u := u) (H := min se u.hMax) (last := fun i => backD (lambda u.lambdas i) (l i))
    (cols := ks.map fun c => c.back u) u.metrics (fun e he j v => addEquation_ok hs he (fun k hk => by
      obtain ⟨k0, -, rfl⟩ := List.mem_map.1 hk
      exact ⟨k0, rfl⟩) (by rw [List.length_map]; exact (mapM_forall₂ hk).length_eq.symm) j v) t
  rw [ht, Outcome.ok_bind]
  exact ⟨_, rfl⟩

/-! ## When the loop stops -/

theorem hMin_mem (hu : Ascending u) : u.hMin ∈ u.horizons ∧ ∀ h ∈ u.horizons, u.hMin ≤ h := by
  obtain ⟨hne, hp⟩ := hu
  unfold Setup.hMin
  cases hh : u.horizons with
  | nil => exact absurd hh hne
  | cons h r =>
    rw [hh] at hp
    refine ⟨List.mem_cons_self, fun x hx => ?_⟩
    rcases List.mem_cons.1 hx with rfl | hx
    · exact le_refl _
    · exact le_of_lt ((List.pairwise_cons.1 hp).1 x hx)

theorem hMax_ge (hu : Ascending u) : ∀ h ∈ u.horizons, h ≤ u.hMax := by
  intro x hx
  unfold Setup.hMax
  obtain ⟨i, hi, rfl⟩ := List.getElem_of_mem hx
  rw [List.getLastD_eq_getLast?, List.getLast?_eq_some_getLast hu.1, Option.getD_some, List.getLast_eq_getElem]
  by_cases he : i = u.horizons.length - 1
  · simp only [he]; exact le_refl _
  · exact le_of_lt (List.pairwise_iff_getElem.1 hu.2 i _ hi (by omega) (by omega))

theorem compared_eq (hu : Ascending u) (se : ℤ) : compared u (min se u.hMax) = (within u se).length := by
  unfold compared
  rw [filter_min hu.2]

theorem compared_ne (hu : Ascending u) {se : ℤ} (h : u.hMin ≤ se) : compared u (min se u.hMax) ≠ 0 := by
  rw [compared_eq hu]
  have : u.hMin ∈ within u se := by
    unfold within
    rw [List.mem_filter]
    exact ⟨(hMin_mem hu).1, by simpa using h⟩
  have := List.length_pos_of_mem this
  omega

theorem stops_iff (hu : Ascending u) (se : ℤ) : min se u.hMax < u.hMin ↔ se < u.hMin := by
  have := hMax_ge hu _ (hMin_mem hu).1
  omega

variable {σ : Type} {fit : Estimator σ}

theorem not_stop {n : ℕ} {m : ℤ} (h : n + 1 = 0 ∨ ((n + 1 : ℕ) : ℤ) < m) : ¬ m ≤ n + 1 := by
  rcases h with h | h
  · omega
  · push_cast at h; omega

theorem Ran.unique {n : ℕ} {q : σ} {b : Bool} {g f} (h : Ran u fit n q b g f) : ∀ {g' f'}, Ran u fit n q b g' f' → g = g' ∧ f = f' := by
  induction h with
  | stop hh =>
    intro g' f' h'
    cases h' with
    | stop _ => exact ⟨rfl, rfl⟩
    | failed k1 _ _ => exact absurd k1 (not_stop hh)
    | done k1 _ _ => exact absurd k1 (not_stop hh)
  | failed h1 h2 _ ih =>
    intro g' f' h'
    cases h' with
    | stop hh => exact absurd h1 (not_stop hh)
    | failed k1 k2 k3 =>
      rw [h2] at k2
      cases k2
      obtain ⟨e1, e2⟩ := ih k3
      exact ⟨e1, by rw [e2]⟩
    | done k1 k2 k3 => rw [h2] at k2; cases k2
  | done h1 h2 _ ih =>
    intro g' f' h'
    cases h' with
    | stop hh => exact absurd h1 (not_stop hh)
    | failed k1 k2 k3 => rw [h2] at k2; cases k2
    | done k1 k2 k3 =>
      rw [h2] at k2
      cases k2
      obtain ⟨e1, e2⟩ := ih k3
      exact ⟨by rw [e1], e2⟩

theorem Ran.mem {n : ℕ} {q : σ} {b : Bool} {g f} (h : Ran u fit n q b g f) : ∀ s ∈ g, u.hMin ≤ s.1 ∧ 0 < s.1 ∧ s.1 ≤ n ∧
    ∃ q b q', fit q s.1 (min s.1 u.hMax) b = (q', .done s.2) := by
  induction h with
  | stop _ => intro s hs; cases hs
  | failed _ _ _ ih =>
    intro s hs
    obtain ⟨a1, a2, a3, a4⟩ := ih s hs
    exact ⟨a1, a2, by push_cast; omega, a4⟩
  | done h1 h2 _ ih =>
    intro s hs
    rcases List.mem_cons.1 hs with rfl | hs
    · exact ⟨by push_cast; omega, by push_cast; omega, le_refl _, _, _, _, by push_cast; exact h2⟩
    · obtain ⟨a1, a2, a3, a4⟩ := ih s hs
      exact ⟨a1, a2, by push_cast; omega, a4⟩

/-- Every number of periods left out is tried, from `n` down to the first horizon. -/
theorem Ran.length {n : ℕ} {q : σ} {b : Bool} {g f} (h : Ran u fit n q b g f) : ((g.length + f.length : ℕ) : ℤ) = max 0 (n - max (u.hMin - 1) 0) := by
  induction h with
  | stop hh => simp; omega
  | failed h1 _ _ ih => rw [List.length_cons]; push_cast at ih ⊢; omega
  | done h1 _ _ ih => rw [List.length_cons]; push_cast at ih ⊢; omega

/-- How many forecasts are compared. -/
def comparisons (u : Setup) (g : List (ℤ × Fit)) : ℕ := (g.map fun s => (within u s.1).length).sum

theorem points_length (final : ℤ) (j : ℕ) (g : List (ℤ × Fit)) : (points u data final j g).length = comparisons u g := by
  unfold points comparisons
  rw [List.length_flatMap]
  simp only [List.length_map]

/-- The break is counted as a failure. -/
def early (u : Setup) (n : ℕ) : ℤ := if 1 < u.hMin ∧ 0 < n then 1 else 0

theorem early_succ (n : ℕ) (h : u.hMin ≤ n + 1) : early u n = early u (n + 1) := by
  unfold early
  by_cases h1 : 1 < u.hMin
  · rw [if_pos ⟨h1, by omega⟩, if_pos ⟨h1, by omega⟩]
  · rw [if_neg (by omega), if_neg (by omega)]

theorem loop_step {maxInvalid : ℤ} (hu : Ascending u) {n : ℕ} (hn : n + 1 < data.length) (s : St σ) (h : u.hMin ≤ n + 1) :
    loop crps u data fit maxInvalid (n + 1) s =
      match (fit s.kept (n + 1) (min (n + 1) u.hMax) (u.usePrevious && s.success)).2 with
      | .failed _ => loop crps u data fit maxInvalid n
          { s with invalid := s.invalid + 1, kept := (fit s.kept (n + 1) (min (n + 1) u.hMax) (u.usePrevious && s.success)).1 }
      | .ub => .ub
      | .diverges => .diverges
      | .done p =>
        if s.invalid > maxInvalid then .throws
        else (simulate crps u data p (((data.length : ℤ) - 1) - (n + 1)) (min (n + 1) u.hMax) s.results).bind fun t =>
          loop crps u data fit maxInvalid n ⟨(fit s.kept (n + 1) (min (n + 1) u.hMax) (u.usePrevious && s.success)).1, true, t.1,
            s.counter + (within u (n + 1)).length, s.valid + 1, s.invalid⟩ := by
  rw [loop]
  dsimp only
  rw [if_neg (show ¬ ((data.length : ℤ) - (n + 1) - 1 < 0) by omega), if_neg (show ¬ (min ((n : ℤ) + 1) u.hMax < u.hMin) by rw [stops_iff hu]; omega),
    if_neg (compared_ne hu h), compared_eq hu]
  cases (fit s.kept (n + 1) (min (n + 1) u.hMax) (u.usePrevious && s.success)).2 with
  | failed m => rfl
  | ub => rfl
  | diverges => rfl
  | done p =>
    dsimp only
    rw [show s.invalid + 1 - 1 = s.invalid by ring, show (data.length : ℤ) - (n + 1) - 1 = (data.length : ℤ) - 1 - (n + 1) by ring]
    rfl

theorem loop_stop {maxInvalid : ℤ} (hu : Ascending u) {n : ℕ} (s : St σ) (h : n = 0 ∨ (n : ℤ) < u.hMin) :
    loop crps u data fit maxInvalid n s = .ok { s with invalid := s.invalid + early u n } := by
  cases n with
  | zero =>
    rw [loop]
    congr 1
    unfold early
    rw [if_neg (by omega), add_zero]
  | succ n =>
    have h' : ((n : ℤ) + 1) < u.hMin := not_le.1 (not_stop h)
    have he : early u (n + 1) = 1 := by unfold early; rw [if_pos ⟨by omega, by omega⟩]
    rw [loop, he]
    dsimp only
    by_cases h1 : (data.length : ℤ) - (n + 1) - 1 < 0
    · rw [if_pos h1]
    · rw [if_neg h1, if_pos ((stops_iff hu _).2 h')]

theorem loop_ran {maxInvalid : ℤ} (hu : Ascending u) : ∀ (n : ℕ) (_ : n ≤ data.length - 1) (s s' : St σ), loop crps u data fit maxInvalid n s = .ok s' →
    ∃ g f, Ran u fit n s.kept s.success g f ∧ s'.valid = s.valid + g.length ∧ s'.counter = s.counter + comparisons u g ∧
      s'.invalid = s.invalid + f.length + early u n ∧ sums crps u data ((data.length : ℤ) - 1) g s.results = .ok s'.results
  | 0, _, s, s', h => by
    rw [loop_stop hu s (Or.inl rfl)] at h
    obtain rfl := Outcome.ok.inj h
    exact ⟨[], [], .stop (Or.inl rfl), rfl, rfl, by simp, by rw [sums]⟩
  | n + 1, hn, s, s', h => by
    by_cases hm : u.hMin ≤ n + 1
    · rw [loop_step hu (by omega) s hm] at h
      cases hf : fit s.kept (n + 1) (min (n + 1) u.hMax) (u.usePrevious && s.success) with
      | mk q r =>
        rw [hf] at h
        cases r with
        | failed m =>
          obtain ⟨g, f, k1, k2, k3, k4, k5⟩ := loop_ran hu n (by omega) _ s' h
          refine ⟨g, m :: f, .failed hm hf k1, k2, k3, ?_, k5⟩
          rw [k4, List.length_cons, ← early_succ n hm]; push_cast; ring
        | ub => cases h
        | diverges => cases h
        | done p =>
          dsimp only at h
          by_cases hi : s.invalid > maxInvalid
          · rw [if_pos hi] at h; cases h
          rw [if_neg hi] at h
          obtain ⟨t, h1, h⟩ := bind_ok h
          obtain ⟨g, f, k1, k2, k3, k4, k5⟩ := loop_ran hu n (by omega) _ s' h
          refine ⟨_ :: g, f, .done hm hf k1, ?_, ?_, ?_, ?_⟩
          · rw [k2, List.length_cons]; dsimp only; omega
          · rw [k3]
            unfold comparisons
            rw [List.map_cons, List.sum_cons]
            dsimp only
            push_cast
            omega
          · rw [k4, ← early_succ n hm]
          · rw [sums]
            push_cast
            rw [h1]
            exact k5
    · have hs : (n + 1) = 0 ∨ ((n + 1 : ℕ) : ℤ) < u.hMin := Or.inr (by push_cast; omega)
      rw [loop_stop hu s hs] at h
      obtain rfl := Outcome.ok.inj h
      exact ⟨[], [], .stop hs, rfl, rfl, by simp, by rw [sums]⟩

theorem loop_all {maxInvalid : ℤ} (hu : Ascending u) {n : ℕ} {q : σ} {b : Bool} {g f} (h : Ran u fit n q b g f) : ∀ (_ : n < data.length) (s : St σ), s.kept = q →
    s.success = b → (∀ x ∈ g, ∀ t, ∃ r, simulate crps u data x.2 ((data.length : ℤ) - 1 - x.1) (min x.1 u.hMax) t = .ok r) →
    (loop crps u data fit maxInvalid n s = .throws ∧ maxInvalid < s.invalid + f.length) ∨ ∃ s', loop crps u data fit maxInvalid n s = .ok s' := by
  induction h with
  | stop hh => intro _ s _ _ _; exact Or.inr ⟨_, loop_stop hu s hh⟩
  | @failed n q q' b m g f h1 h2 h3 ih =>
    intro hn s hq hb hs
    rw [loop_step hu hn s h1, hq, hb, h2]
    rcases ih (by omega) { s with invalid := s.invalid + 1, kept := q' } rfl hb hs with ⟨e, hi⟩ | ⟨s', e⟩
    · refine Or.inl ⟨?_, ?_⟩
      · subst hb
        exact e
      · rw [List.length_cons]; push_cast; dsimp only at hi; omega
    · refine Or.inr ⟨s', ?_⟩
      subst hb
      exact e
  | @done n q q' b p g f h1 h2 h3 ih =>
    intro hn s hq hb hs
    rw [loop_step hu hn s h1, hq, hb, h2]
    dsimp only
    by_cases hi : s.invalid > maxInvalid
    · rw [if_pos hi]
      exact Or.inl ⟨rfl, by omega⟩
    rw [if_neg hi]
    obtain ⟨r, hr⟩ := hs _ List.mem_cons_self s.results
    dsimp only at hr
    push_cast at hr
    rw [hr]
    exact ih (by omega) ⟨q', true, r.1, s.counter + (within u (n + 1)).length, s.valid + 1, s.invalid⟩ rfl rfl
      fun x hx => hs x (List.mem_cons_of_mem _ hx)

end
end Vs
end LDT
