import Verif.Props.ChoiceSearchLink
import Verif.Props.ChoicePrior
/-! # C121: the hypotheses are met -/
namespace LDT
namespace Dc
open Op Di Mx Arr Score

/-- Two metrics in the sample, the AIC and the Brier score, and none out of it. -/
def exMetrics : SOpt.Metrics ℝ where
  metricsIn := [.aic, .brier]
  metricsOut := []
  trainRatio := .num 0
  seed := 1
  indexIn := fun g => match g with
    | .aic => some 0
    | .brier => some 1
    | _ => some (-1)
  indexOut := fun _ => some (-1)

/-- A search over logit models of two choices. -/
noncomputable def exSearch : DcSetup where
  law := .logit
  form := .binary
  numChoices := 2
  hasWeight := false
  weightedEval := false
  costs := []
  roc := { epsilon := 0 }
  rocCosts := none
  metrics := exMetrics
  checks := { estimation := true }
  length1 := 1

theorem exMetrics_indexed : Indexed exMetrics := by
  refine ⟨fun g => ?_, fun g => ⟨-1, rfl, Or.inl ⟨by simp [exMetrics], rfl⟩⟩⟩
  cases g
  · exact ⟨0, rfl, Or.inr ⟨0, rfl, rfl, by omega⟩⟩
  · exact ⟨-1, rfl, Or.inl ⟨by simp [exMetrics], rfl⟩⟩
  · exact ⟨-1, rfl, Or.inl ⟨by simp [exMetrics], rfl⟩⟩
  · exact ⟨-1, rfl, Or.inl ⟨by simp [exMetrics], rfl⟩⟩
  · refine ⟨1, rfl, Or.inr ⟨1, rfl, rfl, fun j hj => ?_⟩⟩
    obtain rfl : j = 0 := by omega
    simp [exMetrics]

/-- The object is made. -/
theorem exSearch_made : ∃ z, dcConstruct exSearch 2 2 2 1 = .ok z ∧ construct .binary 2 1 2 false = .ok z.model := ⟨_, rfl, rfl⟩

/-- The estimation without an iteration succeeds from the start of C115. -/
theorem two_ols {S : Fns} (hS : S.Good) {E : Env 1} (hv : 1 ≤ E.vars) (hi : E.opts.iterationMax = 0) (dd : Bool) :
    ∃ r, estimateBinary S .logit exCells E dd true none = .ok r ∧ ∃ a s, r.aic = .num a ∧ r.sic = .num s := by
  have hy : ∀ i < 2, exCells.y i = 0 ∨ exCells.y i = 1 := fun i hi => by interval_cases i <;> simp [exCells]
  have hI : Independent exCells.n exCells.k0 exCells.wt exCells.x := fun c hcz l hl => by
    have h := hcz 0 (by simp [exCells]) (by simp [Data.wt, exCells])
    have hl' : l < 1 := hl
    obtain rfl : l = 0 := by omega
    simpa [index, exCells] using h
  have tot : ∀ j, j = 0 ∨ j = 1 → total exCells.n exCells.wt exCells.cat j ≠ 0 := by
    intro j hj
    show total 2 _ _ j ≠ 0
    unfold total
    rw [Finset.sum_filter, Finset.sum_range_succ, Finset.sum_range_succ, Finset.sum_range_zero]
    rcases hj with rfl | rfl <;> simp [Data.cat, Data.wt, exCells]
  obtain ⟨b0, b, hb, -⟩ := C115_binary hS .logit exCells (fun i _ => by simp [Data.wt, exCells]) (by decide) (by decide) hI
  obtain ⟨c, hc⟩ := countBinary_ok exCells hy
  obtain ⟨c0, c1⟩ := countBinary_eq exCells hy hc
  have hn : ¬ (exCells.n < 1 ∨ exCells.k0 < 1) := by decide
  have h : estimateBinary S .logit exCells E dd true none = finish S E .binary dd 2 c (fun β => .num (funBinary S .logit exCells β)) (gfunBinary S .logit exCells)
      (hfunBinary S .logit exCells) (vec 1 b) := by
    unfold estimateBinary
    rw [if_neg hn, hc]
    change (if c 0 = 0 ∨ c 1 = 0 then _ else _) = _
    rw [if_neg (by rw [c0, c1]; exact not_or.2 ⟨tot 0 (Or.inl rfl), tot 1 (Or.inr rfl)⟩)]
    unfold fromStart
    dsimp only
    rw [hb]
    rfl
  rw [h]
  unfold finish newton
  rw [if_neg (not_lt.2 hv), hi]
  exact ⟨_, rfl, _, _, rfl, rfl⟩

theorem run_of {S : Fns} {u : DcSetup} {z : DcSizes} {E : ∀ k, Env k} {sim : Mat ℝ → Outcome SimResult} {source : Mat (Val ℝ)} {storage : List (Val ℝ)}
    {junk : ℕ → ℕ → Val ℝ} {cancel : ℕ → Bool} {cols cur : List ℤ} {t : DcTables} {ds : Dataset} {m : Mat (Val ℝ)}
    {est : Option (Est (kOf u.form u.cuts (dataOf u.hasWeight (tableOf m))))} {r : Option SimResult} {q q' : DcTables}
    (R : Run S u z E sim source storage junk cancel cols cur t ds m est r q q') (hc : ∀ k, cancel k = false) :
    estimateReg S u z E sim source storage junk cancel cols cur = .ok (t, false) := by
  unfold estimateReg
  rw [R.make, Outcome.ok_bind, R.read, Outcome.ok_bind, if_neg (by simp [hc])]
  dsimp only
  rw [R.fit, Outcome.ok_bind]
  dsimp only
  rw [if_neg (by simp [hc]), R.sims, Outcome.ok_bind, R.ins, Outcome.ok_bind, if_neg (by simp)]
  dsimp only
  rw [R.out, Outcome.ok_bind, if_neg (by simp [hc]), R.coef]
  rfl

/-- A run of the search: the hypotheses of `C121_estimated`, `C121_scores_partial` and the others are met. -/
example {S : Fns} (hS : S.Good) {E : ∀ k, Env k} (hv : 1 ≤ (E 1).vars) (hi : (E 1).opts.iterationMax = 0) (junk : ℕ → ℕ → Val ℝ)
    (sim : Mat ℝ → Outcome SimResult) : exTable.Wf ∧ (∀ k ∈ [(0 : ℤ), 1], 0 ≤ k ∧ k < exTable.cols) ∧ Indexed exSearch.metrics ∧ exSearch.Proper ∧
    ∃ z, dcConstruct exSearch 2 2 2 1 = .ok z ∧
      ∃ t : DcTables, estimateReg S exSearch z E sim exTable [none, none, none, none] junk (fun _ => false) [0, 1] [1] = .ok (t, false) := by
  refine ⟨⟨by decide, by decide, rfl, le_refl _⟩, ?_, exMetrics_indexed, ⟨fun _ => rfl, fun h => by cases h⟩, ?_⟩
  · intro k hk
    simp only [List.mem_cons, List.not_mem_nil, or_false] at hk
    rcases hk with rfl | rfl <;> decide
  obtain ⟨z, hz, hm⟩ := exSearch_made
  refine ⟨z, hz, ?_⟩
  obtain ⟨e, he, a, s, ha, hs⟩ := two_ols hS hv hi false
  have bindok : ∀ {α β : Type} {x : Outcome α} {a : α} (f : α → Outcome β), x = .ok a → (x >>= f) = f a := fun f h => by rw [h]; rfl
  have hcut : cutoffs .binary z.model false 2 2 none 1 0 2 = .ok 1 :=
    C114_accepted (n0 := 2) (k1 := 1) (choices := 2) (Or.inl rfl) hm (by norm_num) (by norm_num) (by norm_num) (by norm_num) (by simp) (by simp)
  have hfit : estimated S exSearch z E (fun _ => false) (2 - 1 - 0) exCells = .ok (some (some e)) := by
    unfold estimated
    refine (if_pos rfl).trans ?_
    have h1 : checkBefore exSearch exCells.n (2 - 1 - 0) = .ok () := by
      unfold checkBefore
      rw [if_neg (by simp [exSearch]), if_neg (by simp [exSearch])]
    have h2 : checkAfter exSearch e.condition e.aic e.sic = .ok () := by
      unfold checkAfter
      rw [if_neg (by simp [exSearch]), if_neg (by rw [ha]; simp [exSearch, Dbl.lt]), if_neg (by rw [hs]; simp [exSearch, Dbl.lt])]
    rw [h1, Outcome.ok_bind]
    refine (if_neg (by simp)).trans ?_
    show (cutoffs .binary z.model false 2 2 none 1 0 2 >>= _) = _
    rw [hcut, Outcome.ok_bind]
    replace he : estimate S exSearch.law exSearch.form exSearch.cuts exCells E false true (fun _ => none) = .ok e := he
    refine (bindok _ he).trans ?_
    exact bindok _ h2
  obtain ⟨q, hq⟩ : ∃ q, inMetrics S exSearch 2 exTable.mem exCells (some e) junk (fun _ => false) tables0 = .ok (q, false) := ⟨_, rfl⟩
  obtain ⟨q', hq'⟩ : ∃ q', outMetrics exSearch none q = .ok q' := ⟨_, rfl⟩
  obtain ⟨t, ht⟩ : ∃ t, coefs exSearch (some e) [1] q' = .ok t := ⟨_, rfl⟩
  exact ⟨t, run_of (ds := ⟨true, true, 4⟩) (m := exTable) (est := some e) (r := none) ⟨rfl, rfl, hfit, rfl, hq, hq', ht⟩ fun _ => rfl⟩

end Dc
end LDT
