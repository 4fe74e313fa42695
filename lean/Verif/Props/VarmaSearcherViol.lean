import Verif.Props.VarmaSearcherExt
/-! # C133: one VARMA model of a search: memory, and examples -/
namespace LDT
namespace Vm
open Op Mx Arr Score
open Dc (bind_ok)

section
variable {σ : Type} {m : Mat (Val ℝ)} {u : Setup} {w : Needs} {M : Memory} {d : DsTs ℝ} {inner cur cols : List ℤ} {T : ℕ}

/-- The sizes with another number of observations. -/
def withObs (z : Varma.Sizes) (a : ℤ) : Varma.Sizes := { z with obsCount := a }

/-- **C133 (violated).** The sizes are made for the observations of the first series until its last one. A model without that series can have more: then its results are
larger than their place in the work array, and if the model has the data of all periods, the estimation needs more than the whole work array (if it is the estimation
that needs most). -/
theorem C133_memory_violated (hl : Loaded m d) (hc : Chosen m inner cur cols) (hM : construct u w m.cols cur.length inner.length = .ok M)
    (hP : Planned u.sizes cur.length inner.length) (he : u.checks.estimation = true) (hq : 0 < u.sizes.numParams) {S E : ℤ} (hcw : CommonWindow m cols S E)
    (hobs : u.sizes.obsCount < E - S + 1) (h0 : 0 ≤ u.sizes.obsCount) (hen : ∀ s, Sampled m inner cur S E s → Enough u s) (o : Oracle σ) :
    estimateOne u w M o d inner cur cols T = .ub ∧ M.eStorage < estStorage (withObs u.sizes (E - S + 1)) ∧
    (S = 0 → E = m.cols - 1 → w.sim ≤ estWork w.ml u.sizes → w.forecast ≤ estWork w.ml u.sizes → 0 ≤ estWork w.ml u.sizes →
      estWork w.ml u.sizes < estWork w.ml (withObs u.sizes (E - S + 1)) → ∃ s, sample d M.work inner cur cols = .ok s ∧
      M.work < s.stop + M.eStorage + M.pStorage + M.sStorage + estWork w.ml (withObs u.sizes (E - S + 1))) := by
  obtain ⟨rfl, S', E', hw, hcw', -⟩ := window_of hl hc
  obtain ⟨rfl, rfl⟩ := hcw.unique hcw'
  obtain ⟨n1, n2, n3, n4, n5⟩ := memory_nonneg hM hP
  obtain ⟨s, h1, h2, h3⟩ := sample_of hl.wf hw hcw.inside.1 hcw.inside.2 (by omega) (fun k hk => hc.data k ((hc.mem k).2 (Or.inl hk)))
    (fun k hk => hc.data k ((hc.mem k).2 (Or.inr hk))) (size := M.work) (by omega)
  have hn : 0 < cur.length := List.length_pos_iff.2 hc.endo
  have hlt : estStorage u.sizes < estStorage (withObs u.sizes (E' - S' + 1)) := estStorage_lt hP hobs hn
  have hMe : M.eStorage = estStorage u.sizes := by
    obtain ⟨-, rfl⟩ := construct_parts hM
    exact if_pos he
  have hz : sizesOf u.sizes s = withObs u.sizes (E' - S' + 1) := by
    unfold sizesOf withObs
    rw [h2.y_shape.1, h2.y_shape.2, sampled_exo h2, ← hP.eqs, ← hP.exo]
  refine ⟨?_, by omega, fun hS hE q1 q2 q3 q4 => ⟨s, h1, ?_⟩⟩
  · have hub : estimated u w M o s = .ub := by
      unfold estimated
      dsimp only
      rw [hz]
      have hT : (withObs u.sizes (E' - S' + 1)).T = E' - S' + 1 - u.sizes.arMaxD := rfl
      have hT' : u.sizes.T = u.sizes.obsCount - u.sizes.arMaxD := rfl
      have hq' : (withObs u.sizes (E' - S' + 1)).numParams = u.sizes.numParams := rfl
      have hg : (withObs u.sizes (E' - S' + 1)).eqsCount = cur.length := hP.eqs
      have hlong := hP.long
      have hnn := estStorage_nonneg hP
      rw [if_neg (by omega), fits_ub (by omega) (by omega)]
      rfl
    unfold estimateOne
    rw [h1, Outcome.ok_bind]
    unfold inSample
    rw [if_pos he, checkBefore_iff.1.2 (hen s h2), Outcome.ok_bind, hub]
    rfl
  · obtain ⟨hf, hMM⟩ := construct_parts hM
    have hwk : M.work = M.pStorage + M.eStorage + M.sStorage + max M.eWork (max M.sWork M.pWork) + d.pData.cols * cur.length +
        if u.sizes.exoCount > 0 then d.pData.cols * inner.length else 0 := by rw [hMM]; rfl
    have e1 : M.eWork = estWork w.ml u.sizes := by rw [hMM]; exact if_pos he
    have e2 : M.sWork ≤ M.eWork := by
      rw [e1, hMM]
      show (if u.simulates then w.sim else 0) ≤ _
      split <;> assumption
    have e3 : M.pWork ≤ M.eWork := by
      rw [e1, hMM]
      show (if u.forecasts then w.forecast else 0) ≤ _
      split <;> assumption
    have e4 : (if u.sizes.exoCount > 0 then d.pData.cols * (inner.length : ℤ) else 0) = d.pData.cols * inner.length := by
      rw [hP.exo]
      by_cases c : inner.length = 0
      · rw [c]; simp
      · rw [if_pos (by omega)]
    rw [max_eq_left (max_le e2 e3), e4] at hwk
    have h3' : s.stop = d.pData.cols * cur.length + d.pData.cols * inner.length := by rw [h3, hS, hE]; ring
    omega

theorem copyRows_none {start n : ℤ} {idx : List ℤ} (h : n ≤ 0) : ∃ r, copyRows m start n idx = .ok r := by
  have hup : upTo start (start + n) = [] := by
    unfold upTo
    rw [show (start + n - start).toNat = 0 by omega]
    rfl
  unfold copyRows Mat.getSubIdx
  simp only [Bool.false_eq_true, if_false, add_zero, ne_eq, not_true_eq_false]
  unfold Mat.getSubIdx0
  simp only [Bool.false_eq_true, if_false, hup, countFrom, List.foldlM_nil]
  exact ⟨_, rfl⟩

/-- **C133 (violated).** If the series of a model have more than one period between them (one ends before another begins), nothing stops the estimation: the exogenous data are
written before the beginning of the work array. -/
theorem C133_disjoint_violated (hl : Loaded m d) (hc : Chosen m inner cur cols) {S E : ℤ} (hcw : CommonWindow m cols S E) (hSE : E + 1 < S) (hi : inner ≠ [])
    (o : Oracle σ) : estimateOne u w M o d inner cur cols T = .ub := by
  obtain ⟨rfl, S', E', hw, hcw', -⟩ := window_of hl hc
  obtain ⟨rfl, rfl⟩ := hcw.unique hcw'
  have hS : S' < d.pData.cols := by
    obtain ⟨k, -, ob, -⟩ := hcw.first
    exact (obs_in ob).2
  have hn : 0 < cur.length := List.length_pos_iff.2 hc.endo
  have hk : 0 < inner.length := List.length_pos_iff.2 hi
  have p1 : (cur.length : ℤ) * (E' - S' + 1) < 0 := mul_neg_of_pos_of_neg (by omega) (by omega)
  have p2 : 0 < (inner.length : ℤ) * (d.pData.cols - S') := mul_pos (by omega) (by omega)
  obtain ⟨y, hy⟩ := copyRows_none (m := d.pData) (start := S') (n := E' - S' + 1) (idx := cur) (by omega)
  have hs : sample d M.work inner cur cols = .ub := by
    unfold sample
    rw [hw, Outcome.ok_bind]
    dsimp only
    rw [fits_ok (Or.inl (by omega)), Outcome.ok_bind, hy, Outcome.ok_bind]
    unfold exoPart
    rw [if_pos hk]
    dsimp only
    unfold fits
    rw [if_pos ⟨p2, Or.inl p1⟩]
    rfl
  unfold estimateOne
  rw [hs]
  rfl

end

/-! ## Examples -/

/-- Estimations with AIC 0 and SIC 1; the forecasts are the last observations, with variance 1. -/
noncomputable def naive (start horizon : ℕ) : Oracle Unit where
  estimate _ _ _ := .ok ⟨.num 0, .num 1⟩
  forecast y _ := .ok (List.replicate (start + horizon) ((colsOf y).getLastD fun _ => .num 0), List.replicate (start + horizon) fun _ => .num 1)
  fit _ _ _ := fun _ _ _ _ => ((), .failed "")
  kept := ()
  crps _ _ := .throws

/-- Two series of three periods: 1, 2, 3 and 10, 20, 30. -/
def exM : Mat (Val ℝ) := ⟨2, 3, some [some 1, some 10, some 2, some 20, some 3, some 30]⟩

/-- The data set. -/
def exD : DsTs ℝ := ⟨true, true, 6, exM, [⟨0, 2⟩, ⟨0, 2⟩], false⟩

theorem exLoaded : Loaded exM exD where
  wf := ⟨by decide, by decide, by simp [exM], by rfl⟩
  periods := by decide
  few := by decide
  made := ⟨2, 3, _, by decide, by decide, rfl, rfl⟩

/-- The position of a metric when only AIC is asked for. -/
def onlyAic : Gof → Option ℤ
  | .aic => some 0
  | _ => some (-1)

/-- A search with AIC and forecasts one period ahead, for one target; first-order autoregressions with two variables. -/
noncomputable def exU : Setup where
  metrics := { metricsIn := [.aic], metricsOut := [], trainRatio := .num 0, seed := 0, indexIn := onlyAic, indexOut := fun _ => some (-1) }
  checks := { estimation := true, prediction := true }
  lower := none
  upper := none
  length1 := 1
  targets := 1
  sizes := ⟨3, 2, 0, [1], [], [1]⟩
  params := [1, 0, 0, 0, 0, 0]
  maxHorizon := 1
  usePrevious := false
  lambdas := []

/-- No further needs. -/
def exW : Needs := ⟨fun _ _ _ => 0, 0, 0⟩

theorem exIndexed : Dc.Indexed exU.metrics := by
  refine ⟨fun g => ?_, fun g => ⟨-1, rfl, ?_⟩⟩
  · cases g
    case aic => exact ⟨0, rfl, Or.inr ⟨0, rfl, rfl, fun j hj => absurd hj (Nat.not_lt_zero j)⟩⟩
    all_goals exact ⟨-1, rfl, Or.inl ⟨by simp [exU], rfl⟩⟩
  · exact Or.inl ⟨by simp [exU], rfl⟩

theorem exPlanned : Planned exU.sizes 2 0 := ⟨rfl, rfl, by decide, by simp [exU], by decide⟩

theorem exChosen : Chosen exM [] [1, 0] [1, 0] := ⟨by simp, by simp, by simp [exM], by decide⟩

theorem exWindow : CommonWindow exM [1, 0] 0 2 where
  first := ⟨1, by simp, ⟨10, rfl⟩, fun t h0 h1 => by omega⟩
  others_first := by
    intro k hk
    simp only [List.mem_cons, List.not_mem_nil, or_false] at hk
    rcases hk with rfl | rfl
    · exact ⟨0, le_rfl, 10, rfl⟩
    · exact ⟨0, le_rfl, 1, rfl⟩
  last := ⟨1, by simp, ⟨30, rfl⟩, fun t h0 h1 => by have : t < 3 := h1; omega⟩
  others_last := by
    intro k hk
    simp only [List.mem_cons, List.not_mem_nil, or_false] at hk
    rcases hk with rfl | rfl
    · exact ⟨2, le_rfl, 30, rfl⟩
    · exact ⟨2, le_rfl, 3, rfl⟩

/-- **C133 (violated).** The columns of the tables are those of the first variables of the model, whichever they are. With the variables 1 and 0, of which 0 is the
target, the mean reported for the target is the forecast of variable 1: 30 instead of 3. -/
theorem C133_target_violated : ([1, 0].filter fun a : ℤ => decide (a < (exU.targets : ℤ))) = [0] ∧ ∃ M t, construct exU exW 3 2 0 = .ok M ∧
    estimateOne exU exW M (naive 1 1) exD [] [1, 0] [1, 0] 1 = .ok t ∧ t.cells.mean 0 0 = some 30 := by
  refine ⟨rfl, memory exU exW 3 2 0, ?_⟩
  have hM : construct exU exW exM.cols ([1, 0] : List ℤ).length ([] : List ℤ).length = .ok (memory exU exW 3 2 0) := rfl
  obtain ⟨s, h1, h2, h3⟩ := C133_memory exLoaded exChosen hM exPlanned rfl exWindow (by decide) (by decide) (naive 1 1)
  have hs : sample exD (memory exU exW 3 2 0).work [] [1, 0] [1, 0] =
    .ok ⟨⟨2, 3, some [some 10, some 1, some 20, some 2, some 30, some 3]⟩, none, 6⟩ := rfl
  rw [hs] at h1
  obtain rfl := Outcome.ok.inj h1
  have hlast : ∀ c ∈ List.replicate (1 + 1) ((colsOf (⟨2, 3, some [some 10, some 1, some 20, some 2, some 30, some 3]⟩ : Mat (Val ℝ))).getLastD fun _ => .num 0),
      ∀ i < 2, c i ≠ .nan := by
    intro c hc i hi
    rw [List.eq_of_mem_replicate hc]
    have : i = 0 ∨ i = 1 := by omega
    rcases this with rfl | rfl
    · show Dbl.num (30 : ℝ) ≠ .nan
      simp
    · show Dbl.num (3 : ℝ) ≠ .nan
      simp
  obtain ⟨t, ht⟩ := C133_accepts (T := 1) exIndexed rfl hs (h3.trans (if_neg (by decide)))
    ⟨⟨fun h => absurd h (by decide), fun h => absurd h (by decide)⟩, ⟨_, rfl, rfl, rfl⟩,
      fun _ => ⟨_, _, rfl, hlast, fun l r hl => by (cases hl), by decide, by decide, by decide⟩, fun h => absurd h (by decide)⟩
  refine ⟨t, rfl, ht, ?_⟩
  obtain ⟨s', hs', R⟩ := C133_reports exIndexed ht
  rw [hs] at hs'
  obtain rfl := Outcome.ok.inj hs'
  obtain ⟨f, v, f1, -, -, f2⟩ := R.forecast rfl rfl
  obtain ⟨c, c', c1, -, c2, -⟩ := f2 0 (by decide) 0 (by decide)
  obtain ⟨rfl, rfl⟩ := Prod.mk.inj (Outcome.ok.inj f1)
  rw [c2, ← Option.some.inj (show some _ = some c from c1)]
  rfl

/-- Two series of four periods: the first one is not observed in the last period. -/
def exM2 : Mat (Val ℝ) := ⟨2, 4, some [some 1, some 10, some 2, some 20, some 3, some 30, none, some 40]⟩

/-- The data set. -/
def exD2 : DsTs ℝ := ⟨true, true, 8, exM2, [⟨0, 2⟩, ⟨0, 3⟩], false⟩

/-- First-order autoregressions with one variable, for the three observations of the first series; no forecasts. -/
noncomputable def exU2 : Setup := { exU with sizes := ⟨3, 1, 0, [1], [], [1]⟩, checks := { estimation := true }, length1 := 0 }

/-- The first-order autoregression of the second series has four observations, but memory for three. -/
theorem C133_memory_example_violated (o : Oracle Unit) : ∃ M, construct exU2 exW 4 1 0 = .ok M ∧ estimateOne exU2 exW M o exD2 [] [1] [1] 1 = .ub ∧
    ∃ s, sample exD2 M.work [] [1] [1] = .ok s ∧ M.work < s.stop + M.eStorage + M.pStorage + M.sStorage + estWork exW.ml (withObs exU2.sizes 4) := by
  have hl : Loaded exM2 exD2 := ⟨⟨by decide, by decide, by simp [exM2], by rfl⟩, by decide, by decide, 2, 4, _, by decide, by decide, rfl, rfl⟩
  have hc : Chosen exM2 [] [1] [1] := ⟨by simp, by simp, by simp [exM2], by decide⟩
  have hM : construct exU2 exW exM2.cols ([1] : List ℤ).length ([] : List ℤ).length = .ok (memory exU2 exW 4 1 0) := rfl
  have hw : CommonWindow exM2 [1] 0 3 := by
    refine ⟨⟨1, by simp, ⟨10, rfl⟩, fun t h0 h1 => by omega⟩, fun k hk => ?_, ⟨1, by simp, ⟨40, rfl⟩, fun t h0 h1 => by have : t < 4 := h1; omega⟩, fun k hk => ?_⟩
    · rw [List.mem_singleton.1 hk]; exact ⟨0, le_rfl, 10, rfl⟩
    · rw [List.mem_singleton.1 hk]; exact ⟨3, le_rfl, 40, rfl⟩
  obtain ⟨h1, -, h3⟩ := C133_memory_violated (T := 1) hl hc hM ⟨rfl, rfl, by decide, by simp [exU2], by decide⟩ rfl (by decide) hw (by decide) (by decide)
    (fun s _ => ⟨fun h => absurd h (by decide), fun h => absurd h (by decide)⟩) o
  exact ⟨_, rfl, h1, h3 rfl rfl (by decide) (by decide) (by decide) (by decide)⟩

/-- The data of nine periods. -/
def exD3 : DsTs ℝ := ⟨true, true, 9, ⟨1, 9, some [some 1, some 2, some 3, some 4, some 5, some 6, some 7, some 8, some 9]⟩, [⟨0, 8⟩], false⟩

/-- A seasonal lag of twelve periods. -/
noncomputable def exU3 : Setup := { exU2 with sizes := ⟨9, 1, 0, [12], [], [1]⟩, params := [0, 0, 0, 1, 0, 0] }

/-- **C133 (violated).** The sizes of a model with longer lags than data are negative, and they are subtracted from the size of the work array. With nine observations and a
lag of twelve periods it has seven places, in which the nine observations are written. -/
theorem C133_short_violated (o : Oracle Unit) : ∃ M, construct exU3 exW 9 1 0 = .ok M ∧ M.work = 7 ∧ estimateOne exU3 exW M o exD3 [] [0] [0] 1 = .ub :=
  ⟨_, rfl, by decide, rfl⟩

/-- Two series of seven periods: the first one ends in the second period, the second one begins in the sixth. -/
def exM4 : Mat (Val ℝ) := ⟨2, 7, some [some 1, none, some 2, none, none, none, none, none, none, none, none, some 10, none, some 20]⟩

/-- The data set. -/
def exD4 : DsTs ℝ := ⟨true, true, 14, exM4, [⟨0, 1⟩, ⟨5, 6⟩], false⟩

/-- The model of the first series with the second one as exogenous variable. -/
theorem C133_disjoint_example_violated (u : Setup) (w : Needs) (M : Memory) (o : Oracle Unit) : estimateOne u w M o exD4 [1] [0] [0, 1] 1 = .ub := by
  have hl : Loaded exM4 exD4 := ⟨⟨by decide, by decide, by simp [exM4], by rfl⟩, by decide, by decide, 2, 7, _, by decide, by decide, rfl, rfl⟩
  have hc : Chosen exM4 [1] [0] [0, 1] := ⟨by simp, by simp, by simp [exM4], by decide⟩
  have no0 : ∀ t, 1 < t → t < 7 → ¬ ObsT true exM4 0 t := by
    rintro t h0 h1 ⟨x, hx⟩
    have : t = 2 ∨ t = 3 ∨ t = 4 ∨ t = 5 ∨ t = 6 := by omega
    rcases this with rfl | rfl | rfl | rfl | rfl <;> cases (Outcome.ok.inj (show Outcome.ok none = .ok (some x) from hx))
  have no1 : ∀ t, 0 ≤ t → t < 5 → ¬ ObsT true exM4 1 t := by
    rintro t h0 h1 ⟨x, hx⟩
    have : t = 0 ∨ t = 1 ∨ t = 2 ∨ t = 3 ∨ t = 4 := by omega
    rcases this with rfl | rfl | rfl | rfl | rfl <;> cases (Outcome.ok.inj (show Outcome.ok none = .ok (some x) from hx))
  refine C133_disjoint_violated hl hc (S := 5) (E := 1) ⟨⟨1, by simp, ⟨10, rfl⟩, no1⟩, ?_, ⟨0, by simp, ⟨2, rfl⟩, no0⟩, ?_⟩ (by decide) (by simp) o
  · intro k hk
    simp only [List.mem_cons, List.not_mem_nil, or_false] at hk
    rcases hk with rfl | rfl
    · exact ⟨0, by decide, 1, rfl⟩
    · exact ⟨5, by decide, 10, rfl⟩
  · intro k hk
    simp only [List.mem_cons, List.not_mem_nil, or_false] at hk
    rcases hk with rfl | rfl
    · exact ⟨1, by decide, 2, rfl⟩
    · exact ⟨5, by decide, 10, rfl⟩

end Vm
end LDT
