import Verif.Lemmas.SurSim
import Verif.Props.SurExt
import Verif.Props.DataSplit
/-! # C125: out-of-sample scores of a system of regressions -/
namespace LDT
namespace Su
open Mx Op Ls Score
open Dc (bind_ok)
open Co (part)
open Arr (Val)
open Matrix

/-! ## Which iterations count -/

section
variable {lu : List ℝ → List ℝ} {f : Fns ℝ} {crps : Dbl ℝ → Dbl ℝ → Outcome (Dbl ℝ)} {u : SimSetup} {N : ℤ} {m k : ℕ} {other : Outcome ExtRes}
  {data : Mat ℝ} {R : Option (Mat ℝ)} {maxIteration : ℤ} {maxProb : ℝ} {splitStorage storage work : List ℝ} {orders : ℕ → List ℤ}

/-- The iterations of a run: each is a split of the table followed by an estimation. `g` are the test samples, observed and projected, of those in which
the model can be estimated, its condition number is not too large and no error is NaN. -/
def Simulated (lu : List ℝ → List ℝ) (f : Fns ℝ) (u : SimSetup) (N : ℤ) (m k : ℕ) (other : Outcome ExtRes) (data : Mat ℝ) (R : Option (Mat ℝ))
    (maxIteration : ℤ) (maxProb : ℝ) (splitStorage storage work : List ℝ) (orders : ℕ → List ℤ) (g : List Forecast) : Prop :=
  ∃ st, Split.calculate data splitStorage u.ratio u.fix = .ok st ∧ Ran u m (fun i => Split.shuffle st data (orders i))
    (simFit lu f u N m k other R maxProb storage work) (List.range maxIteration.toNat) g

theorem Simulated.unique {g g'} (h : Simulated lu f u N m k other data R maxIteration maxProb splitStorage storage work orders g)
    (h' : Simulated lu f u N m k other data R maxIteration maxProb splitStorage storage work orders g') : g = g' := by
  obtain ⟨st, h1, h2⟩ := h
  obtain ⟨st', h1', h2'⟩ := h'
  rw [h1] at h1'
  obtain rfl := Outcome.ok.inj h1'
  exact h2.unique h2'

theorem simulate_parts {r : SimResult} (h : simulate lu f crps u N m k other data R maxIteration maxProb splitStorage storage work orders = .ok r) :
    0 < maxIteration ∧ ∃ g s, Simulated lu f u N m k other data R maxIteration maxProb splitStorage storage work orders g ∧ s.valid = g.length ∧
      s.counts = (g.map (·.rows)).sum ∧ s.invalid + (g.length : ℤ) = maxIteration ∧ sums crps u.metrics g (zeros u m) = .ok s.results ∧
      simEnd u s = .ok r := by
  unfold simulate at h
  by_cases hi : maxIteration ≤ 0
  · rw [if_pos hi] at h; cases h
  rw [if_neg hi] at h
  obtain ⟨st, h1, h⟩ := bind_ok h
  obtain ⟨s, h2, h⟩ := bind_ok h
  obtain ⟨g, k1, k2, k3, k4, k5⟩ := simLoop_ran _ _ _ h2
  refine ⟨by omega, g, s, ⟨st, h1, k1⟩, by simpa using k2, by simpa using k3, ?_, k5, h⟩
  rw [List.length_range] at k4
  dsimp only at k4
  omega

/-- **C125.** A result counts the valid iterations, and at most `maxInvalidSim` of them are not. -/
theorem C125_valid {r : SimResult} (h : simulate lu f crps u N m k other data R maxIteration maxProb splitStorage storage work orders = .ok r) :
    0 < maxIteration ∧ ∃ g, Simulated lu f u N m k other data R maxIteration maxProb splitStorage storage work orders g ∧ r.valid = g.length ∧
      maxIteration - r.valid ≤ u.maxInvalid := by
  obtain ⟨h0, g, s, h1, h2, h3, h4, h5, h6⟩ := simulate_parts h
  unfold simEnd at h6
  by_cases hi : s.invalid > u.maxInvalid
  · rw [if_pos hi] at h6; cases h6
  rw [if_neg hi] at h6
  obtain rfl := Outcome.ok.inj h6
  refine ⟨h0, g, h1, h2, ?_⟩
  show maxIteration - (s.valid : ℤ) ≤ _
  omega

theorem addRow_ok {e : Sco} {F : Forecast} (hs : ∀ j, ∃ v, sumScores crps e F j = .ok v) : ∀ (v : List (Dbl ℝ)) (j : ℕ), ∃ v', addRow crps e F j v = .ok v'
  | [], j => ⟨[], by rw [addRow]⟩
  | a :: r, j => by
    obtain ⟨s, h1⟩ := hs j
    obtain ⟨r', h2⟩ := addRow_ok hs r (j + 1)
    exact ⟨_, by rw [addRow, h1, Outcome.ok_bind, h2, Outcome.ok_bind]; rfl⟩

theorem addScores_ok {F : Forecast} : ∀ (es : List Sco) (_ : ∀ e ∈ es, ∀ j, ∃ v, sumScores crps e F j = .ok v) (t : Results),
    ∃ t', addScores crps F es t = .ok t'
  | [], _, t => ⟨[], by rw [addScores]; intro e es v r h; cases h⟩
  | e :: es, hs, [] => ⟨[], by rw [addScores]; intro e es v r _ h; cases h⟩
  | e :: es, hs, v :: r => by
    obtain ⟨v', h1⟩ := addRow_ok (hs e List.mem_cons_self) v 0
    obtain ⟨r', h2⟩ := addScores_ok es (fun e he => hs e (List.mem_cons_of_mem _ he)) r
    exact ⟨_, by rw [addScores, h1, Outcome.ok_bind, h2, Outcome.ok_bind]; rfl⟩

theorem foldlM_ok {t : ℕ → Outcome (Dbl ℝ)} : ∀ (L : List ℕ), (∀ i, ∃ v, t i = .ok v) → ∀ a : Dbl ℝ,
    ∃ v, L.foldlM (fun s i => do let t ← t i; pure ((exact : Ops ℝ).add s t)) a = .ok v
  | [], _, a => ⟨a, rfl⟩
  | i :: L, h, a => by
    obtain ⟨v, hv⟩ := h i
    obtain ⟨w, hw⟩ := foldlM_ok L h ((exact : Ops ℝ).add a v)
    refine ⟨w, ?_⟩
    rw [List.foldlM_cons, hv]
    exact hw

theorem sumScores_ok {e : Sco} (he : Implemented e) (F : Forecast) (j : ℕ) (hc : e = .crps → ∀ a i, ∃ v, crps a (F.std i j) = .ok v) :
    ∃ v, sumScores crps e F j = .ok v := by
  unfold sumScores
  rw [if_neg (not_bad he)]
  refine foldlM_ok _ (fun i => ?_) _
  cases e <;> first | exact ⟨_, rfl⟩ | exact hc rfl _ _ | (simp [Implemented] at he)

theorem std_not_neg {u : SimSetup} (hn : u.lambdas = none) (p : SimFit) (i j : ℕ) : ((simForecast u p).std i j).lt (.num 0) = false := by
  show (if u.doVar then backD (lambda u.lambdas j) (sqrtD (.num (p.variances.val i j))) else Dbl.nan).lt (.num 0) = false
  cases u.doVar with
  | false => rfl
  | true =>
    rw [hn]
    have hb : ∀ x : Dbl ℝ, backD none x = x := fun x => by cases x <;> rfl
    rw [if_pos rfl, show lambda none j = none from rfl, hb]
    unfold sqrtD
    dsimp only
    by_cases h : p.variances.val i j < 0
    · rw [if_pos h]; rfl
    · rw [if_neg h]
      exact decide_eq_false (not_lt.2 (Real.sqrt_nonneg _))

/-- **C125.** When the metrics are there and there is a transformation for each variable, the only reasons to throw are a number of iterations that is not
positive, a training sample that is empty or everything, and more than `maxInvalidSim` iterations that are not valid. -/
theorem C125_fails_iff {g} (hg : Simulated lu f u N m k other data R maxIteration maxProb splitStorage storage work orders g)
    (he : ∀ e ∈ u.metrics, Implemented e) (hc : Sco.crps ∈ u.metrics → ∀ a b, (u.lambdas = none → b.lt (.num 0) = false) → ∃ v, crps a b = .ok v)
    (hl : ∀ l, u.lambdas = some l → m ≤ l.length) (hi : 0 < maxIteration) :
    (u.maxInvalid < maxIteration - g.length → simulate lu f crps u N m k other data R maxIteration maxProb splitStorage storage work orders = .throws) ∧
    (maxIteration - g.length ≤ u.maxInvalid →
      ∃ r, simulate lu f crps u N m k other data R maxIteration maxProb splitStorage storage work orders = .ok r) := by
  replace hl : lambdasOk u.lambdas m = true := by
    unfold lambdasOk
    cases hlam : u.lambdas with
    | none => rfl
    | some l => exact decide_eq_true (hl l hlam)
  obtain ⟨st, h1, h2⟩ := hg
  have hadd : ∀ F ∈ g, ∀ t, ∃ t', addScores crps F u.metrics t = .ok t' := fun F hF t =>
    addScores_ok _ (fun e hm j => sumScores_ok (he e hm) F j (fun hce a i => by
      subst hce
      refine hc hm a _ fun hn => ?_
      obtain ⟨i', -, s, p, -, -, rfl, -⟩ := h2.mem F hF
      exact std_not_neg hn p i j)) t
  have key : simulate lu f crps u N m k other data R maxIteration maxProb splitStorage storage work orders =
      (simLoop crps u m (fun i => Split.shuffle st data (orders i)) (simFit lu f u N m k other R maxProb storage work)
        (List.range maxIteration.toNat) ⟨zeros u m, 0, 0, 0⟩ >>= simEnd u) := by
    unfold simulate
    rw [if_neg (by omega), h1, Outcome.ok_bind]
  rw [key]
  rcases simLoop_all h2 hl ⟨zeros u m, 0, 0, 0⟩ hadd with ⟨e, hb⟩ | ⟨s', e⟩
  · rw [e]
    rw [List.length_range] at hb
    dsimp only at hb
    exact ⟨fun _ => rfl, fun hh => by omega⟩
  · rw [e, Outcome.ok_bind]
    obtain ⟨g', k1, k2, k3, k4, k5⟩ := simLoop_ran _ _ _ e
    obtain rfl := h2.unique k1
    rw [List.length_range] at k4
    dsimp only at k4
    unfold simEnd
    refine ⟨fun hh => by rw [if_pos (by omega)], fun hh => ⟨_, by rw [if_neg (by omega)]⟩⟩

/-- **C125.** What is refused before any iteration. -/
theorem C125_refused (h : maxIteration ≤ 0 ∨ Split.trainSize data.rows u.ratio u.fix ≤ 0 ∨ data.rows ≤ Split.trainSize data.rows u.ratio u.fix) :
    simulate lu f crps u N m k other data R maxIteration maxProb splitStorage storage work orders = .throws := by
  unfold simulate
  by_cases hi : maxIteration ≤ 0
  · rw [if_pos hi]
  rw [if_neg hi]
  have : Split.calculate data splitStorage u.ratio u.fix = .throws := by
    unfold Split.calculate
    dsimp only
    rw [if_pos (by omega)]
  rw [this]
  rfl

theorem addScores_throws {F : Forecast} {m : ℕ} (hm : 0 < m) : ∀ (es : List Sco) (t : Results), t.length = es.length → (∀ v ∈ t, v.length = m) →
    ∀ e ∈ es, ¬ Implemented e → ∀ t', addScores crps F es t ≠ .ok t'
  | [], _, _, _, e, he, _, _ => by cases he
  | e' :: es, [], hl, _, _, _, _, _ => by simp at hl
  | e' :: es, v :: r, hl, hv, e, he, hn, t' => by
    intro h
    rw [addScores] at h
    obtain ⟨v', h1, h⟩ := bind_ok h
    obtain ⟨r', h2, h⟩ := bind_ok h
    rcases List.mem_cons.1 he with rfl | he
    · obtain ⟨-, k⟩ := addRow_spec v 0 v' h1
      have hvl := hv v List.mem_cons_self
      obtain ⟨s, e1, -⟩ := k 0 v[0] (List.getElem?_eq_getElem (by omega))
      rw [sumScores_throws hn] at e1
      cases e1
    · exact addScores_throws hm es r (by simpa using hl) (fun w hw => hv w (List.mem_cons_of_mem _ hw)) e he hn r' h2

/-- **C125.** A metric that is not there (direction, frequency cost, AUC, Brier) leaves no result if an iteration is valid. -/
theorem C125_not_implemented {e : Sco} (he : e ∈ u.metrics) (hn : ¬ Implemented e) (hm : 0 < m) {r : SimResult}
    (h : simulate lu f crps u N m k other data R maxIteration maxProb splitStorage storage work orders = .ok r) : r.valid = 0 := by
  obtain ⟨-, g, s, h1, h2, h3, h4, h5, h6⟩ := simulate_parts h
  have hv : r.valid = s.valid := by
    unfold simEnd at h6
    by_cases hi : s.invalid > u.maxInvalid
    · rw [if_pos hi] at h6; cases h6
    rw [if_neg hi] at h6
    rw [← Outcome.ok.inj h6]
  rw [hv, h2]
  cases g with
  | nil => rfl
  | cons F g =>
    rw [sums] at h5
    obtain ⟨t, e1, -⟩ := bind_ok h5
    exact absurd e1 (addScores_throws hm _ _ (by simp [zeros]) (fun v hv => by
      unfold zeros at hv
      obtain ⟨a, -, rfl⟩ := List.mem_map.1 hv
      simp) e he hn t)

/-! ## The scores -/

theorem abs_ite (a : ℝ) : (if a < 0 then -a else a) = |a| := by
  by_cases h : a < 0
  · rw [if_pos h, abs_of_neg h]
  · rw [if_neg h, abs_of_nonneg (not_lt.1 h)]

theorem term_num {e : Sco} (he : Implemented e) {c : ℝ → ℝ → ℝ} {y mean std : ℝ}
    (hc : e = .crps → crps (.num (y - mean)) (.num std) = .ok (.num (c (y - mean) std))) {sd : Dbl ℝ} (hd : e = .crps → sd = .num std) (hy : e = .mape ∨ e = .rmspe → y ≠ 0) :
    term crps e (.num y) (.num mean) (.num (y - mean)) sd = .ok (.num (loss c e y mean std)) := by
  cases e <;> try (simp [Implemented] at he; done)
  · -- sign
    show Outcome.ok (if (Dbl.num (0 : ℝ)).lt (.num (y * mean)) = true then Dbl.num 1 else .num 0) = .ok (.num (if 0 < y * mean then 1 else 0))
    have : (Dbl.num (0 : ℝ)).lt (.num (y * mean)) = decide (0 < y * mean) := rfl
    rw [this]
    by_cases h : 0 < y * mean <;> simp [h]
  · show Outcome.ok (Dbl.num (if y - mean < 0 then -(y - mean) else y - mean)) = .ok (.num |y - mean|)
    rw [abs_ite]
  · have h0 := hy (Or.inl rfl)
    show Outcome.ok ((exact : Ops ℝ).abs (if y = 0 then _ else _)) = _
    rw [if_neg h0]
    show Outcome.ok (Dbl.num (if (y - mean) / y < 0 then -((y - mean) / y) else (y - mean) / y)) = .ok (.num |(y - mean) / y|)
    rw [abs_ite]
  · show Outcome.ok (Dbl.num ((y - mean) * (y - mean))) = Outcome.ok (Dbl.num ((y - mean) ^ 2))
    rw [sq]
  · have h0 := hy (Or.inr rfl)
    show Outcome.ok ((exact : Ops ℝ).sq (if y = 0 then _ else _)) = _
    rw [if_neg h0]
    show Outcome.ok (Dbl.num ((y - mean) / y * ((y - mean) / y))) = Outcome.ok (Dbl.num (((y - mean) / y) ^ 2))
    rw [sq]
  · rw [hd rfl]; exact hc rfl

theorem forall₂_sums {c : ℝ → ℝ → ℝ} {e : Sco} {j : ℕ} (hm : j < m) (he : Implemented e)
    {F : Forecast} {t : Numbers} (h : F.Is m (e = .crps) t)
    (hc : e = .crps → ∀ a < t.rows, crps (.num (t.y a j - t.mean a j)) (.num (t.std a j)) = .ok (.num (c (t.y a j - t.mean a j) (t.std a j))))
    (hy : e = .mape ∨ e = .rmspe → ∀ a < t.rows, t.y a j ≠ 0) :
    sumScores crps e F j = .ok (.num (∑ a ∈ Finset.range t.rows, loss c e (t.y a j) (t.mean a j) (t.std a j))) := by
  obtain ⟨hr, hF⟩ := h
  rw [sumScores_num he (l := fun a => loss c e (t.y a j) (t.mean a j) (t.std a j)), hr]
  intro a ha
  rw [hr] at ha
  obtain ⟨h1, h2, h3⟩ := hF a ha j hm
  unfold Forecast.err
  rw [h1, h2]
  exact term_num he (fun hh => hc hh a ha) h3 (fun hh => hy hh a ha)

theorem cell_zipWith {es : List Sco} {t : Results} {fn : Sco → Dbl ℝ → Dbl ℝ} {i j : ℕ} {e : Sco} {v : Dbl ℝ} (he : es[i]? = some e)
    (hv : cell t i j = some v) : cell (List.zipWith (fun e r => r.map (fn e)) es t) i j = some (fn e v) := by
  unfold cell at hv ⊢
  rw [List.getElem?_zipWith, he]
  cases h : t[i]? with
  | none => rw [h] at hv; cases hv
  | some r =>
    rw [h] at hv
    have hv : r[j]? = some v := hv
    show (r.map (fn e))[j]? = _
    rw [List.getElem?_map, hv]
    rfl

theorem cell_zeros {i j : ℕ} {e : Sco} (he : u.metrics[i]? = some e) (hj : j < m) : cell (zeros u m) i j = some (.num 0) := by
  unfold cell zeros
  rw [List.getElem?_map, he]
  show (List.replicate m (Dbl.num (0 : ℝ)))[j]? = _
  rw [List.getElem?_replicate, if_pos hj]

theorem forall₂_map {e : Sco} {c : Forecast → ℝ} {d : Numbers → ℝ} : ∀ {g : List Forecast} {T : List Numbers}, List.Forall₂ (fun F t => F.Is m (e = .crps) t ∧ c F = d t) g T →
    g.map c = T.map d ∧ g.map (·.rows) = T.map (·.rows)
  | _, _, .nil => ⟨rfl, rfl⟩
  | _, _, .cons h r => by
    obtain ⟨h1, h2⟩ := forall₂_map r
    rw [List.map_cons, List.map_cons, List.map_cons, List.map_cons, h1, h2, h.2, h.1.1]
    exact ⟨rfl, rfl⟩

/-- **C125.** The score of variable `j` is that of the mean loss over all the observations of all the valid test samples (roots are taken of the means,
percentages are multiplied by 100). -/
theorem C125_scores {r : SimResult} (h : simulate lu f crps u N m k other data R maxIteration maxProb splitStorage storage work orders = .ok r)
    {g} (hg : Simulated lu f u N m k other data R maxIteration maxProb splitStorage storage work orders g) {T : List Numbers}
    {e : Sco}
    (hT : List.Forall₂ (fun F t => Forecast.Is F m (e = .crps) t) g T) (hpos : 0 < (T.map (·.rows)).sum) {i j : ℕ} (he : u.metrics[i]? = some e)
    (hi : Implemented e) (hj : j < m) {c : ℝ → ℝ → ℝ}
    (hc : e = .crps → ∀ t ∈ T, ∀ a < t.rows, crps (.num (t.y a j - t.mean a j)) (.num (t.std a j)) = .ok (.num (c (t.y a j - t.mean a j) (t.std a j))))
    (hy : e = .mape ∨ e = .rmspe → ∀ t ∈ T, ∀ a < t.rows, t.y a j ≠ 0) :
    cell r.results i j = some (.num (scored e (meanLoss c e T j))) := by
  classical
  obtain ⟨-, g', s, h1, h2, h3, h4, h5, h6⟩ := simulate_parts h
  obtain rfl := hg.unique h1
  unfold simEnd at h6
  by_cases hv : s.invalid > u.maxInvalid
  · rw [if_pos hv] at h6; cases h6
  rw [if_neg hv] at h6
  rw [← Outcome.ok.inj h6]
  dsimp only
  obtain ⟨-, hsum⟩ := sums_spec (crps := crps) (es := u.metrics) g (zeros u m) s.results (by simp [zeros]) h5
  let C : Forecast → ℝ := fun F => if hF : ∃ v, sumScores crps e F j = .ok (.num v) then hF.choose else 0
  have hC : ∀ F v, sumScores crps e F j = .ok (.num v) → C F = v := fun F v hF => by
    have hex : ∃ v, sumScores crps e F j = .ok (.num v) := ⟨v, hF⟩
    show (if hF : ∃ v, sumScores crps e F j = .ok (.num v) then hF.choose else 0) = v
    rw [dif_pos hex]
    exact (Dbl.num.inj (Outcome.ok.inj (hF.symm.trans hex.choose_spec))).symm
  have hall : List.Forall₂ (fun F t => F.Is m (e = .crps) t ∧ C F = ∑ a ∈ Finset.range t.rows, loss c e (t.y a j) (t.mean a j) (t.std a j)) g T := by
    clear h2 h3 h4 h5 h6 hsum hpos hg h1
    induction hT with
    | nil => exact .nil
    | cons h1 h2 ih =>
      exact .cons ⟨h1, hC _ _ (forall₂_sums hj hi h1 (fun hh => hc hh _ List.mem_cons_self) (fun hh => hy hh _ List.mem_cons_self))⟩
        (ih (fun hh t ht => hc hh t (List.mem_cons_of_mem _ ht)) (fun hh t ht => hy hh t (List.mem_cons_of_mem _ ht)))
  have hF : ∀ F ∈ g, sumScores crps e F j = .ok (.num (C F)) := by
    clear h2 h3 h4 h5 h6 hsum hpos hg h1 hall
    induction hT with
    | nil => intro F hF; cases hF
    | cons h1 h2 ih =>
      intro F hF
      rcases List.mem_cons.1 hF with rfl | hF
      · have := forall₂_sums (crps := crps) (c := c) hj hi h1 (fun hh => hc hh _ List.mem_cons_self) (fun hh => hy hh _ List.mem_cons_self)
        rw [this, hC _ _ this]
      · exact ih (fun hh t ht => hc hh t (List.mem_cons_of_mem _ ht)) (fun hh t ht => hy hh t (List.mem_cons_of_mem _ ht)) F hF
  have hcell := hsum i e he j 0 C (cell_zeros he hj) hF
  obtain ⟨m1, m2⟩ := forall₂_map hall
  rw [zero_add, m1] at hcell
  rw [cell_zipWith (fn := fun e v => finish e ((exact : Ops ℝ).div v (.num s.counts))) he hcell]
  rw [h3, m2]
  generalize hS : (T.map fun t => ∑ a ∈ Finset.range t.rows, loss c e (t.y a j) (t.mean a j) (t.std a j)).sum = S
  have hcast : (T.map fun t => (t.rows : ℝ)).sum = (((T.map (·.rows)).sum : ℕ) : ℝ) := by
    rw [Nat.cast_list_sum, List.map_map]; rfl
  have hml : meanLoss c e T j = S / (((T.map (·.rows)).sum : ℕ) : ℝ) := by unfold meanLoss; rw [hS, hcast]
  rw [hml]
  have hne : (((T.map (·.rows)).sum : ℕ) : ℝ) ≠ 0 := by exact_mod_cast hpos.ne'
  have hdiv : (exact : Ops ℝ).div (.num S) (.num (((T.map (·.rows)).sum : ℕ) : ℝ)) = .num (S / (((T.map (·.rows)).sum : ℕ) : ℝ)) := by
    show (if (((T.map (·.rows)).sum : ℕ) : ℝ) = 0 then _ else _) = _
    rw [if_neg hne]
  rw [hdiv]
  have hnn : e = .rmse ∨ e = .rmspe → ¬ S / (((T.map (·.rows)).sum : ℕ) : ℝ) < 0 := fun hh => by
    refine not_lt.2 (div_nonneg ?_ (Nat.cast_nonneg _))
    rw [← hS]
    refine List.sum_nonneg fun x hx => ?_
    obtain ⟨t, -, rfl⟩ := List.mem_map.1 hx
    refine Finset.sum_nonneg fun a _ => ?_
    rcases hh with rfl | rfl
    · exact sq_nonneg _
    · exact sq_nonneg _
  congr 1
  generalize S / (((T.map (·.rows)).sum : ℕ) : ℝ) = v at hnn
  unfold finish
  cases e <;> try (simp [Implemented] at hi; done)
  · simp [scored]
  · simp [scored]
  · simp only [reduceCtorEq, or_self, if_false, true_or, if_true, scored]
    show Dbl.num (v * 100) = _
    rw [mul_comm]
  · simp only [reduceCtorEq, or_self, or_false, if_false, if_true, sqrtD, scored]
    rw [if_neg (hnn (Or.inl rfl))]
  · simp only [or_true, if_true, sqrtD, scored]
    rw [if_neg (hnn (Or.inr rfl))]
    show Dbl.num (Real.sqrt v * 100) = _
    rw [mul_comm]
  · simp [scored]

/-- **C125.** If no iteration is valid although `maxInvalidSim` allows that, the scores are NaN and nothing is thrown. -/
theorem C125_no_valid {r : SimResult} (h : simulate lu f crps u N m k other data R maxIteration maxProb splitStorage storage work orders = .ok r)
    (h0 : r.valid = 0) {i j : ℕ} {e : Sco} (he : u.metrics[i]? = some e) (hj : j < m) : cell r.results i j = some .nan := by
  obtain ⟨-, g, s, h1, h2, h3, h4, h5, h6⟩ := simulate_parts h
  unfold simEnd at h6
  by_cases hv : s.invalid > u.maxInvalid
  · rw [if_pos hv] at h6; cases h6
  rw [if_neg hv] at h6
  rw [← Outcome.ok.inj h6] at h0 ⊢
  dsimp only at h0 ⊢
  rw [h0] at h2
  have hnil : g = [] := List.eq_nil_of_length_eq_zero h2.symm
  subst hnil
  rw [sums] at h5
  rw [← Outcome.ok.inj h5, cell_zipWith (fn := fun e v => finish e ((exact : Ops ℝ).div v (.num s.counts))) he (cell_zeros he hj)]
  rw [h3]
  have : (exact : Ops ℝ).div (.num 0) (.num (((([] : List Forecast).map (·.rows)).sum : ℕ) : ℝ)) = .nan := by
    show (if _ then _ else _) = _
    simp
  rw [this]
  unfold finish
  by_cases a : e = .rmse ∨ e = .rmspe <;> by_cases b : e = .mape ∨ e = .rmspe
  all_goals simp only [if_pos, if_neg, a, b, if_true, if_false]
  all_goals rfl

end

end Su
end LDT
