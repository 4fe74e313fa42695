import Verif.Props.SurSearcherSim
import Verif.Props.ChoiceSearchLink
/-! # C126: what a search over systems of regressions keeps -/
namespace LDT
namespace Su
open Mx Op Ls Score
open Dc (bind_ok)
open Arr (Val)
open Matrix

/-- `B` are the least squares coefficients of the system with the dependent variables `inner` and the regressors `cur` in the complete rows of the data, `G` is
the inverse of the moments of the regressors; the system is within the limits. -/
structure SystemModel (checks : SOpt.Checks ℝ) (source : Mat (Val ℝ)) (inner cur kept : List ℤ) (Y : Matrix (Fin kept.length) (Fin inner.length) ℝ)
    (X : Matrix (Fin kept.length) (Fin cur.length) ℝ) (B : Matrix (Fin cur.length) (Fin inner.length) ℝ)
    (G : Matrix (Fin cur.length) (Fin cur.length) ℝ) : Prop where
  sample : SystemSample source inner cur kept Y X
  enough : EnoughObs (some checks) kept.length cur.length
  estimable : Estimable true Y X
  least : ∀ B', LeastSquares Y X B' ↔ B' = B
  inverse : G * (Xᵀ * X) = 1
  accepted : ∃ a b, GreatestColumn (Xᵀ * X) a ∧ GreatestColumn G b ∧
    Accepted (some checks) (.num (a * b)) (Akaike kept.length (inner.length * cur.length) (cov (left Y X B)))
      (Schwarz kept.length (inner.length * cur.length) (cov (left Y X B))) (Determination Y (left Y X B))

section
variable {lu : List ℝ → List ℝ} {f : Fns ℝ} {u : SsSetup} {other : Outcome ExtRes} {sim : List Srch.Visit → Mat ℝ → Outcome SimResult} {source : Mat (Val ℝ)}
  {dataStorage : List (Val ℝ)} {rmem : List Srch.Visit → List ℝ} {storage work : List ℝ} {cancel : List Srch.Visit → ℕ → Bool} {message : String}
  {before after : List Srch.Visit → Bool} {c : Srch.RegCfg}

/-- The calls of the estimator by a searcher of systems of regressions, with the endogenous variables `inner`. -/
noncomputable def ssEst (lu : List ℝ → List ℝ) (f : Fns ℝ) (u : SsSetup) (other : Outcome ExtRes) (sim : List Srch.Visit → Mat ℝ → Outcome SimResult)
    (source : Mat (Val ℝ)) (dataStorage : List (Val ℝ)) (rmem : List Srch.Visit → List ℝ) (storage work : List ℝ) (cancel : List Srch.Visit → ℕ → Bool)
    (message : String) (before after : List Srch.Visit → Bool) (inner : List ℤ) : List Srch.Visit → List ℤ → List ℤ → Srch.RegOut := fun done cols targets =>
  ssOutcome (ssEstimate lu f u other (sim done) source dataStorage (rmem done) storage work (cancel done) inner cols (cols.drop inner.length) targets.length)
    message (before done) (after done)

/-- The configuration of a searcher of systems of regressions. -/
structure SsCfg (u : SsSetup) (c : Srch.RegCfg) : Prop where
  weight : c.hasWeight = false
  outer : c.innerExo = false
  endo : (c.numEndo : ℤ) = u.numEndo
  length1 : c.length1 = u.length1

theorem ss_columns (hc : SsCfg u c) (cur : List ℤ) : Srch.tableColumns c cur = c.inner ++ cur ∧ Srch.endoOf c cur = c.inner ∧ Srch.exoOf c cur = cur ∧
    Srch.wanted c cur = c.inner.filter fun a => decide (a < (c.lengthTargets : ℤ)) := by
  unfold Srch.wanted Srch.tableColumns Srch.endoOf Srch.exoOf
  rw [hc.weight, hc.outer]
  exact ⟨rfl, rfl, rfl, rfl⟩

theorem ssOutcome_returns {y : Outcome (SsTables × Bool)} {b a : Bool} (h : (ssOutcome y message b a).reply = .returns "") : ∃ t f, y = .ok (t, f) := by
  unfold ssOutcome at h
  split at h
  · exact ⟨_, _, rfl⟩
  · cases h
  · cases h

section
variable (hcfg : SsCfg u c) (he : u.checks.estimation = true) (hf : SquareRoot f) (hmono : ∀ d k, cancel d k = true → after d = true)
  {calls : List Srch.Visit} (hv : ∀ v ∈ calls, SsReady u source dataStorage storage work c.inner v.cur)
include hcfg he hf hmono hv

/-- The models that a search estimates. -/
theorem search_system {r : List ℤ × Srch.RegOut}
    (hr : r ∈ Srch.estimated c (Srch.answers c (ssEst lu f u other sim source dataStorage rmem storage work cancel message before after c.inner) [] calls)) :
    ∃ v ∈ calls, ∃ kept Y X B G, r.1 = v.cur ∧ SystemModel u.checks source c.inner v.cur kept Y X B G ∧ r.2.extra = [] ∧
      SystemCells u v.cur (Srch.wanted c v.cur).length B (fun l j => cov (left Y X B) j j * G l l)
        (Akaike kept.length (c.inner.length * v.cur.length) (cov (left Y X B)))
        (Schwarz kept.length (c.inner.length * v.cur.length) (cov (left Y X B))) ⟨r.2.metric, r.2.mean, r.2.variance⟩ := by
  unfold Srch.estimated at hr
  obtain ⟨hr, hest⟩ := List.mem_filter.1 hr
  replace hest : Srch.Estimated c r.1 r.2 := by simpa using hest
  obtain ⟨-, -, hrep, haft⟩ := hest
  obtain ⟨v, hvc, d, rfl⟩ := Dc.mem_answers calls [] r hr
  have R := hv v hvc
  obtain ⟨c1, c2, c3, c4⟩ := ss_columns hcfg v.cur
  unfold ssEst at hrep haft ⊢
  dsimp only at hrep haft ⊢
  rw [c1, List.drop_left] at hrep haft ⊢
  obtain ⟨t, fl, ht⟩ := ssOutcome_returns hrep
  rw [ht] at haft ⊢
  have hfl : fl = false := by
    cases fl with
    | false => rfl
    | true =>
      obtain ⟨k, hk⟩ := C126_cancelled ht
      have : after d = false := haft
      rw [hmono d k hk] at this
      cases this
  subst hfl
  obtain ⟨kept, Y, X, hs, n1, n2⟩ := C126_estimate (lu := lu) (f := f) (u := u) (other := other) (sim := sim d) (source := source) (dataStorage := dataStorage)
    (rmem := rmem d) (storage := storage) (work := work) (cancel := cancel d) (inner := c.inner) (cur := v.cur) (T := (Srch.wanted c v.cur).length) R he hf
  by_cases h1 : EnoughObs (some u.checks) kept.length v.cur.length ∧ Estimable true Y X
  swap
  · rw [n1 h1] at ht; cases ht
  obtain ⟨B, G, a, b, ls, hG, ha, hb, n3⟩ := n2 h1.1 h1.2
  dsimp only at n3
  obtain ⟨n3, n4⟩ := n3
  by_cases h2 : Accepted (some u.checks) (.num (a * b)) (Akaike kept.length (c.inner.length * v.cur.length) (cov (left Y X B)))
      (Schwarz kept.length (c.inner.length * v.cur.length) (cov (left Y X B))) (Determination Y (left Y X B))
  swap
  · rw [n3 h2] at ht; cases ht
  refine ⟨v, hvc, kept, Y, X, B, G, rfl, ⟨hs, h1.1, h1.2, ls, hG, a, b, ha, hb, h2⟩, rfl, ?_⟩
  exact (n4 h2).2 t ht

/-- **C126** with C119: whatever a search keeps of a model for AIC or SIC is the AIC or SIC of the least squares system of the complete rows of its columns, which
is within the limits. -/
theorem C126_search_models (i a : ℕ) {x : Srch.Est}
    (h : x ∈ (Srch.estimated c (Srch.answers c (ssEst lu f u other sim source dataStorage rmem storage work cancel message before after c.inner) [] calls)).flatMap
      (Srch.modelKept c i a)) :
    ∃ v ∈ calls, ∃ kept Y X B G, SystemModel u.checks source c.inner v.cur kept Y X B G ∧ x.endo = c.inner ∧ x.exo = v.cur ∧ (a : ℤ) ∈ c.inner ∧
      (u.metrics.indexIn .aic = some (i : ℤ) → Akaike kept.length (c.inner.length * v.cur.length) (cov (left Y X B)) = .num x.metric) ∧
      (u.metrics.indexIn .sic = some (i : ℤ) → Schwarz kept.length (c.inner.length * v.cur.length) (cov (left Y X B)) = .num x.metric) := by
  obtain ⟨r, hr, hxr⟩ := List.mem_flatMap.1 h
  obtain ⟨v, hvc, kept, Y, X, B, G, r1, hm, r2, cells⟩ := search_system hcfg he hf hmono hv hr
  unfold Srch.modelKept at hxr
  obtain ⟨j, hj, hxr⟩ := List.mem_flatMap.1 hxr
  rw [r1] at hj hxr
  obtain ⟨c1, c2, c3, c4⟩ := ss_columns hcfg v.cur
  by_cases hw : (Srch.wanted c v.cur)[j]? = some (a : ℤ)
  swap
  · rw [if_neg hw] at hxr; simp at hxr
  rw [if_pos hw] at hxr
  have hjl := List.mem_range.1 hj
  have ha : (a : ℤ) ∈ c.inner := by
    have := List.mem_of_getElem? hw
    rw [c4] at this
    exact (List.mem_filter.1 this).1
  cases hq : r.2.metric i j with
  | none => rw [hq] at hxr; simp at hxr
  | some q =>
    rw [hq] at hxr
    simp only [List.mem_cons, List.not_mem_nil, or_false] at hxr
    subst hxr
    refine ⟨v, hvc, kept, Y, X, B, G, hm, c2, c3, ha, fun hi => ?_, fun hi => ?_⟩
    · exact Dc.toVal_eq (hq.symm.trans (cells.aic i hi j hjl))
    · exact Dc.toVal_eq (hq.symm.trans (cells.sic i hi j hjl))

/-- **C126** with C119: the equation whose coefficients a search keeps for a target. If the target is the `j`-th one among the targets of the group, it
is the `j`-th equation of the group. -/
theorem C126_search_equations (i a k : ℕ) {x : Srch.Est}
    (h : x ∈ (Srch.estimated c (Srch.answers c (ssEst lu f u other sim source dataStorage rmem storage work cancel message before after c.inner) [] calls)).flatMap
      (Srch.coefKept c i a k)) (hl : 0 < u.length1) :
    ∃ v ∈ calls, ∃ kept Y X B G, SystemModel u.checks source c.inner v.cur kept Y X B G ∧ x.endo = c.inner ∧ x.exo = v.cur ∧
      ∃ (l : Fin v.cur.length) (j : Fin c.inner.length), v.cur.get l = k + u.numEndo ∧ (Srch.wanted c v.cur)[(j : ℕ)]? = some (a : ℤ) ∧
        x.mean = some (B l j) ∧ x.variance = some (cov (left Y X B) j j * G l l) := by
  obtain ⟨r, hr, hxr⟩ := List.mem_flatMap.1 h
  obtain ⟨v, hvc, kept, Y, X, B, G, r1, hm, r2, cells⟩ := search_system hcfg he hf hmono hv hr
  unfold Srch.coefKept at hxr
  obtain ⟨j, hj, hxr⟩ := List.mem_flatMap.1 hxr
  rw [r1] at hj hxr
  obtain ⟨c1, c2, c3, c4⟩ := ss_columns hcfg v.cur
  by_cases hw : (Srch.wanted c v.cur)[j]? = some (a : ℤ)
  swap
  · rw [if_neg hw] at hxr; simp at hxr
  rw [if_pos hw] at hxr
  have hjl := List.mem_range.1 hj
  have hji : j < c.inner.length := by
    refine lt_of_lt_of_le hjl ?_
    rw [c4]
    exact List.length_filter_le _ _
  cases hq : r.2.metric i j with
  | none => rw [hq] at hxr; simp at hxr
  | some q =>
    cases hk : r.2.mean k j with
    | none => rw [hq, hk] at hxr; simp at hxr
    | some mn =>
      rw [hq, hk] at hxr
      simp only [List.mem_cons, List.not_mem_nil, or_false] at hxr
      subst hxr
      have hmem : (k : ℤ) + u.numEndo ∈ v.cur := by
        by_contra hn
        have := cells.others k j (Or.inl hn)
        rw [show (⟨r.2.metric, r.2.mean, r.2.variance⟩ : SsTables).mean k j = r.2.mean k j from rfl, hk] at this
        cases this
      obtain ⟨l, hl', hlk⟩ := List.getElem_of_mem hmem
      obtain ⟨-, -, g1, g2⟩ := cells.coef hl ⟨l, hl'⟩ ⟨j, hji⟩ hjl
      have hkk : (v.cur.get ⟨l, hl'⟩ - u.numEndo).toNat = k := by
        rw [List.get_eq_getElem, hlk]; omega
      rw [hkk] at g1 g2
      refine ⟨v, hvc, kept, Y, X, B, G, hm, c2, c3, ⟨l, hl'⟩, ⟨j, hji⟩, by rw [List.get_eq_getElem, hlk], hw, ?_, g2⟩
      exact hk.symm.trans g1

/-- **C126** with C119, for groups whose targets come first (see `C126_search_violated`): whatever a search keeps of a coefficient for a target is the least
squares coefficient of the variable in the equation of that target, with its variance. -/
theorem C126_search_coefs_partial (i a k : ℕ) {x : Srch.Est}
    (h : x ∈ (Srch.estimated c (Srch.answers c (ssEst lu f u other sim source dataStorage rmem storage work cancel message before after c.inner) [] calls)).flatMap
      (Srch.coefKept c i a k)) (hl : 0 < u.length1) {rest : List ℤ}
    (hfirst : c.inner = (c.inner.filter fun a => decide (a < (c.lengthTargets : ℤ))) ++ rest) :
    ∃ v ∈ calls, ∃ kept Y X B G, SystemModel u.checks source c.inner v.cur kept Y X B G ∧ x.endo = c.inner ∧ x.exo = v.cur ∧
      ∃ (l : Fin v.cur.length) (j : Fin c.inner.length), v.cur.get l = k + u.numEndo ∧ c.inner.get j = a ∧
        x.mean = some (B l j) ∧ x.variance = some (cov (left Y X B) j j * G l l) := by
  obtain ⟨v, hvc, kept, Y, X, B, G, h1, h2, h3, l, j, h4, h5, h6, h7⟩ := C126_search_equations hcfg he hf hmono hv i a k h hl
  refine ⟨v, hvc, kept, Y, X, B, G, h1, h2, h3, l, j, h4, ?_, h6, h7⟩
  rw [(ss_columns hcfg v.cur).2.2.2] at h5
  have hjl := (List.getElem?_eq_some_iff.mp h5).1
  have : c.inner[(j : ℕ)]? = some (a : ℤ) := by
    have hg : ∀ n, n < (c.inner.filter fun a => decide (a < (c.lengthTargets : ℤ))).length →
        c.inner[n]? = (c.inner.filter fun a => decide (a < (c.lengthTargets : ℤ)))[n]? := fun n hn =>
      (congrArg (fun q : List ℤ => q[n]?) hfirst).trans (List.getElem?_append_left hn)
    exact (hg _ hjl).trans h5
  rw [List.get_eq_getElem]
  rw [List.getElem?_eq_getElem j.2] at this
  exact Option.some.inj this

/-- **C126**, violated: in a group whose targets do not come first, there is a target for which only coefficients of the equation of another variable of the group
are kept. -/
theorem C126_search_violated (hnf : ∀ rest, c.inner ≠ (c.inner.filter fun a => decide (a < (c.lengthTargets : ℤ))) ++ rest) (hd : c.inner.Nodup) (hl : 0 < u.length1)
    (hpos : ∀ a ∈ c.inner, 0 ≤ a) :
    ∃ (a : ℕ) (j : Fin c.inner.length), (a : ℤ) ∈ c.inner ∧ a < c.lengthTargets ∧ c.inner.get j ≠ a ∧ ∀ (i k : ℕ) (x : Srch.Est),
      x ∈ (Srch.estimated c (Srch.answers c (ssEst lu f u other sim source dataStorage rmem storage work cancel message before after c.inner) [] calls)).flatMap
        (Srch.coefKept c i a k) →
      ∃ v ∈ calls, ∃ kept Y X B G, SystemModel u.checks source c.inner v.cur kept Y X B G ∧ x.endo = c.inner ∧ x.exo = v.cur ∧
        ∃ l : Fin v.cur.length, v.cur.get l = k + u.numEndo ∧ x.mean = some (B l j) ∧ x.variance = some (cov (left Y X B) j j * G l l) := by
  have key : ∃ j : ℕ, ∃ a : ℤ, (c.inner.filter fun a => decide (a < (c.lengthTargets : ℤ)))[j]? = some a ∧ c.inner[j]? ≠ some a := by
    by_contra hcon
    push Not at hcon
    apply hnf (c.inner.drop (c.inner.filter fun a => decide (a < (c.lengthTargets : ℤ))).length)
    conv_lhs => rw [← List.take_append_drop (c.inner.filter fun a => decide (a < (c.lengthTargets : ℤ))).length c.inner]
    congr 1
    refine List.ext_getElem? fun n => ?_
    rw [List.getElem?_take]
    by_cases hn : n < (c.inner.filter fun a => decide (a < (c.lengthTargets : ℤ))).length
    · rw [if_pos hn, List.getElem?_eq_getElem hn]
      exact hcon n _ (List.getElem?_eq_getElem hn)
    · rw [if_neg hn, List.getElem?_eq_none (by omega)]
  obtain ⟨j, a, h1, h2⟩ := key
  have hmem := List.mem_filter.1 (List.mem_of_getElem? h1)
  have ha0 := hpos a hmem.1
  have hlt : a < c.lengthTargets := by simpa using hmem.2
  obtain ⟨n, rfl⟩ := Int.eq_ofNat_of_zero_le ha0
  have hjl := (List.getElem?_eq_some_iff.mp h1).1
  have hji : j < c.inner.length := lt_of_lt_of_le hjl (List.length_filter_le _ _)
  refine ⟨n, ⟨j, hji⟩, hmem.1, by omega, fun hh => h2 ?_, fun i k x hx => ?_⟩
  · rw [List.getElem?_eq_getElem hji]
    exact congrArg some hh
  · obtain ⟨v, hvc, kept, Y, X, B, G, q1, q2, q3, l, j', q4, q5, q6, q7⟩ := C126_search_equations hcfg he hf hmono hv i n k hx hl
    rw [(ss_columns hcfg v.cur).2.2.2] at q5
    have : j' = ⟨j, hji⟩ := by
      apply Fin.ext
      have hfd : (c.inner.filter fun a => decide (a < (c.lengthTargets : ℤ))).Nodup := hd.filter _
      have hj'l := (List.getElem?_eq_some_iff.mp q5).1
      have e1 := (List.getElem?_eq_some_iff.mp q5).2
      have e2 := (List.getElem?_eq_some_iff.mp h1).2
      exact (List.Nodup.getElem_inj_iff hfd).1 (e1.trans e2.symm)
    subst this
    exact ⟨v, hvc, kept, Y, X, B, G, q1, q2, q3, l, q4, q6, q7⟩

end
end

/-- The position of a metric when only AIC is asked for. -/
def onlyAic : Gof → Option ℤ
  | .aic => some 0
  | _ => some (-1)

/-- A search of systems with AIC, without simulations, and the coefficients of one variable. -/
noncomputable def exSetup : SsSetup where
  metrics := { metricsIn := [.aic], metricsOut := [], trainRatio := .num 0, seed := 0, indexIn := onlyAic, indexOut := fun _ => some (-1) }
  checks := { estimation := true }
  length1 := 1
  numEndo := 3
  maxIter := 0
  maxProb := 0
  lambdas := []

/-- Four observations of three variables with the means 0, 1 and 5, and a constant. -/
def exData : Mat (Val ℝ) := ⟨4, 4, some [some 1, some 1, some (-1), some (-1), some 2, some 0, some 0, some 2, some 6, some 4, some 6, some 4,
  some 1, some 1, some 1, some 1]⟩

theorem exReady : SsReady exSetup exData (List.replicate 16 none) (List.replicate 100 0) (List.replicate 200 0) [0, 2, 1] [3] where
  wf := ⟨by decide, by decide, by simp [exData], by rfl⟩
  rows := by decide
  cols := by
    intro k hk
    simp only [List.cons_append, List.nil_append, List.mem_cons, List.not_mem_nil, or_false] at hk
    show 0 ≤ k ∧ k < 4
    omega
  data := by rw [List.length_replicate]; rfl
  inner_pos := by decide
  cur_pos := by decide
  nodup := by decide
  storage := by rw [List.length_replicate]; decide
  work := by rw [List.length_replicate]; decide
  indexed := by
    refine ⟨fun g => ?_, fun g => ⟨-1, rfl, ?_⟩⟩
    · cases g
      case aic => exact ⟨0, rfl, Or.inr ⟨0, rfl, rfl, fun j hj => absurd hj (Nat.not_lt_zero j)⟩⟩
      all_goals exact ⟨-1, rfl, Or.inl ⟨by simp [exSetup], rfl⟩⟩
    · exact Or.inl ⟨by simp [exSetup], rfl⟩
  plain := rfl

/-- A concrete case of the violation: with the group (0, 2, 1) of which 0 and 1 are targets, the two columns of the tables are for the targets 0 and 1;
the mean of variable 1 is 1, but 5, the mean of variable 2, is what the second column has. -/
theorem C126_example_violated (lu : List ℝ → List ℝ) {f : Fns ℝ} (hf : SquareRoot f) (other : Outcome ExtRes) (sim : Mat ℝ → Outcome SimResult) (rmem : List ℝ) :
    ([0, 2, 1].filter fun a : ℤ => decide (a < 2)) = [0, 1] ∧
    ∃ t, ssEstimate lu f exSetup other sim exData (List.replicate 16 none) rmem (List.replicate 100 0) (List.replicate 200 0) (fun _ => false) [0, 2, 1]
      [0, 2, 1, 3] [3] 2 = .ok (t, false) ∧ t.mean 0 0 = some 0 ∧ t.mean 0 1 = some 5 := by
  refine ⟨rfl, ?_⟩
  obtain ⟨kept, Y, X, hs, -, n2⟩ := C126_estimate (lu := lu) (other := other) (sim := sim) (rmem := rmem) (cancel := fun _ => false) (T := 2) exReady rfl hf
  have hk : kept = [0, 1, 2, 3] := by
    refine List.Perm.eq_of_pairwise (fun a b _ _ h1 h2 => absurd h2 (by omega)) hs.rows.sorted (by decide)
      ((List.perm_ext_iff_of_nodup (hs.rows.sorted.imp fun h => by omega) (by decide)).2 fun i => ?_)
    rw [hs.rows.mem i]
    have hcomp : ∀ i : ℤ, 0 ≤ i → i < 4 → Complete Option.isNone exData ([0, 2, 1] ++ [3]) i := by
      intro i h0 h4 c hc
      simp only [List.cons_append, List.nil_append, List.mem_cons, List.not_mem_nil, or_false] at hc
      have : i = 0 ∨ i = 1 ∨ i = 2 ∨ i = 3 := by omega
      rcases this with rfl | rfl | rfl | rfl <;> rcases hc with rfl | rfl | rfl | rfl <;> exact ⟨_, rfl, rfl⟩
    simp only [List.mem_cons, List.not_mem_nil, or_false]
    constructor
    · rintro ⟨h0, h1, -⟩
      have : i < 4 := h1
      omega
    · intro h
      exact ⟨by omega, show i < 4 by omega, hcomp i (by omega) (by omega)⟩
  subst hk
  have hY : Y = !![1, 6, 2; 1, 4, 0; -1, 6, 0; -1, 4, 2] := by
    ext i j
    have := hs.dependent i j
    fin_cases i <;> fin_cases j <;> exact (Option.some.inj (Outcome.ok.inj this)).symm
  have hX : X = !![1; 1; 1; 1] := by
    ext i j
    have := hs.regressors i j
    fin_cases i <;> fin_cases j <;> exact (Option.some.inj (Outcome.ok.inj this)).symm
  have full : FullRank X := by
    intro b h
    have h0 := h 0
    rw [hX] at h0
    simp at h0
    funext l
    fin_cases l
    exact h0
  have hls : LeastSquares Y X !![0, 5, 1] := by
    rw [hY, hX]
    intro j b
    fin_cases j <;> simp [squares, misfit, Fin.sum_univ_four]
    · nlinarith [sq_nonneg (b 0)]
    · nlinarith [sq_nonneg (b 0 - 5)]
    · nlinarith [sq_nonneg (b 0 - 1)]
  have hE : Estimable true Y X := by
    refine ⟨by decide, full, Or.inr fun B hB => ?_, fun _ => by decide⟩
    rw [leastSquares_iff full] at hB hls
    obtain rfl : B = !![0, 5, 1] := hB.trans hls.symm
    rw [hY, hX]
    intro b h
    have h0 := h 0
    have h1 := h 1
    have h2 := h 2
    simp [left, Fin.sum_univ_three] at h0 h1 h2
    funext l
    fin_cases l <;> simp <;> linarith
  obtain ⟨B, G, a, b, ls, -, -, -, n3⟩ := n2 (fun c hc => by rw [← Option.some.inj hc]; exact ⟨fun h => absurd h (by decide), fun h => absurd h (by decide)⟩) hE
  obtain ⟨-, n4⟩ := n3
  have lt_ninf : ∀ x : Dbl ℝ, Dbl.lt x .ninf = false := fun x => by cases x <;> rfl
  have pinf_lt : ∀ x : Dbl ℝ, Dbl.lt .pinf x = false := fun x => by cases x <;> rfl
  obtain ⟨n5, n6⟩ := n4 (fun c hc => by rw [← Option.some.inj hc]; exact ⟨fun h => absurd h (by decide), pinf_lt _, pinf_lt _, lt_ninf _⟩)
  obtain ⟨t, ht⟩ := n5 rfl rfl rfl (by decide) (fun _ b hb => by
    rw [List.mem_singleton.1 hb]
    exact ⟨by decide, by decide⟩)
  have cells := n6 t ht
  obtain rfl : !![0, 5, 1] = B := (ls _).1 hls
  refine ⟨t, ht, (cells.coef Nat.one_pos 0 0 (by decide)).2.2.1, (cells.coef Nat.one_pos 0 1 (by decide)).2.2.1⟩

end Su
end LDT
