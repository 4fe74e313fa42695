import Verif.Props.ChoiceSearchMore
import Verif.Props.SearchReg
/-! # C121: what a search over discrete choice models keeps -/
namespace LDT
namespace Dc
open Op Di Mx Arr Score

section
variable {S : Fns} {u : DcSetup} {z : DcSizes} {E : ∀ k, Env k} {sim : List Srch.Visit → Mat ℝ → Outcome SimResult} {source : Mat (Val ℝ)}
  {storage : List (Val ℝ)} {junk : List Srch.Visit → ℕ → ℕ → Val ℝ} {cancel : List Srch.Visit → ℕ → Bool} {message : String} {before after : List Srch.Visit → Bool}
  {c : Srch.RegCfg}

/-- The calls of the estimator by a searcher of discrete choice models. -/
noncomputable def dcEst (S : Fns) (u : DcSetup) (z : DcSizes) (E : ∀ k, Env k) (sim : List Srch.Visit → Mat ℝ → Outcome SimResult) (source : Mat (Val ℝ))
    (storage : List (Val ℝ)) (junk : List Srch.Visit → ℕ → ℕ → Val ℝ) (cancel : List Srch.Visit → ℕ → Bool) (message : String) (before after : List Srch.Visit → Bool) :
    List Srch.Visit → List ℤ → List ℤ → Srch.RegOut := fun done cols _ =>
  regOut (estimateReg S u z E (sim done) source storage (junk done) (cancel done) cols (curOf u.hasWeight cols)) message (before done) (after done)

/-- The configuration of a searcher of discrete choice models: the dependent variable is the only endogenous variable. -/
structure DcCfg (u : DcSetup) (c : Srch.RegCfg) : Prop where
  weight : c.hasWeight = u.hasWeight
  outer : c.innerExo = false
  inner : c.inner = [0]
  endo : c.numEndo = 1

theorem columns_of (hc : DcCfg u c) (cur : List ℤ) : Srch.tableColumns c cur = (if u.hasWeight then [0, 1] ++ cur.map (· + 1) else [0] ++ cur) ∧
    curOf u.hasWeight (Srch.tableColumns c cur) = cur := by
  have h : Srch.tableColumns c cur = (if u.hasWeight then [0, 1] ++ cur.map (· + 1) else [0] ++ cur) := by
    unfold Srch.tableColumns Srch.endoOf Srch.exoOf
    rw [hc.weight, hc.outer, hc.inner, hc.endo]
    split_ifs <;> simp_all
  refine ⟨h, ?_⟩
  rw [h]
  unfold curOf
  split_ifs
  · simp [Function.comp_def]
  · simp

theorem mem_answers {est : List Srch.Visit → List ℤ → List ℤ → Srch.RegOut} : ∀ (calls done : List Srch.Visit) (r : List ℤ × Srch.RegOut),
    r ∈ Srch.answers c est done calls → ∃ v ∈ calls, ∃ d, r = (v.cur, est d (Srch.tableColumns c v.cur) (Srch.wanted c v.cur))
  | [], _, r, h => by simp [Srch.answers] at h
  | v :: vs, done, r, h => by
    rw [Srch.answers] at h
    rcases List.mem_cons.1 h with h | h
    · exact ⟨v, by simp, done, h⟩
    · obtain ⟨v', hv', d, e⟩ := mem_answers vs _ r h
      exact ⟨v', by simp [hv'], d, e⟩

theorem regOut_returns {y : Outcome (DcTables × Bool)} {b a : Bool} (h : (regOut y message b a).reply = .returns "") : ∃ t f, y = .ok (t, f) := by
  unfold regOut at h
  split at h
  · exact ⟨_, _, rfl⟩
  · cases h
  · cases h

section
variable (hcfg : DcCfg u c) (wd : source.Wf) (hx : Indexed u.metrics) (he : u.checks.estimation = true) (hu : u.Proper)
  (hcols : ((c.numEndo + c.w + c.numExo : ℕ) : ℤ) ≤ source.cols) (hst : (storage.length : ℤ) = source.rows * (1 + c.w + c.n))
  (hmono : ∀ d k, cancel d k = true → after d = true)
  {calls : List Srch.Visit} (hv : ∀ v ∈ calls, Srch.Selects c v ∧ v.cur.Nodup)

include hcfg wd hx he hu hcols hst hmono hv

/-- The models that a search estimates. -/
theorem search_model {r : List ℤ × Srch.RegOut}
    (hr : r ∈ Srch.estimated c (Srch.answers c (dcEst S u z E sim source storage junk cancel message before after) [] calls)) :
    ∃ v ∈ calls, ∃ kept D e, ∃ t : DcTables, r.1 = v.cur ∧ ModelOf S u E source (Srch.tableColumns c v.cur) kept D e ∧ D.k0 = v.cur.length ∧
      (r.2.metric = fun (i : ℕ) _ => t.metric i) ∧ (r.2.mean = fun (k : ℕ) _ => t.mean k) ∧ (r.2.variance = fun (k : ℕ) _ => t.variance k) ∧
      r.2.extra = [lawCode u.law] ∧
      (∀ i : ℕ, u.metrics.indexIn .aic = some (i : ℤ) → t.metric i = Srch.toVal e.aic) ∧
      (∀ i : ℕ, u.metrics.indexIn .sic = some (i : ℤ) → t.metric i = Srch.toVal e.sic) ∧
      (0 < u.length1 → (∀ (j : ℕ) (b : ℤ) (hj : j < kOf u.form u.cuts D), v.cur[j]? = some b →
          t.mean (b - 1).toNat = some (e.beta ⟨j, hj⟩) ∧ t.variance (b - 1).toNat = some (e.betaVar ⟨j, hj⟩ ⟨j, hj⟩)) ∧
        ∀ b : ℕ, (b : ℤ) + 1 ∉ v.cur → t.mean b = none) := by
  unfold Srch.estimated at hr
  obtain ⟨hr, hest⟩ := List.mem_filter.1 hr
  replace hest : Srch.Estimated c r.1 r.2 := by simpa using hest
  obtain ⟨-, -, hrep, haft⟩ := hest
  obtain ⟨v, hvc, d, rfl⟩ := mem_answers calls [] r hr
  obtain ⟨hsel, hnd⟩ := hv v hvc
  obtain ⟨c1, c2⟩ := columns_of hcfg v.cur
  have hlen : ((Srch.tableColumns c v.cur).length : ℤ) = 1 + c.w + c.n := by
    rw [c1, ← hsel.1]
    unfold Srch.RegCfg.w
    rw [hcfg.weight]
    split_ifs <;> simp <;> omega
  have hin : ∀ k ∈ Srch.tableColumns c v.cur, 0 ≤ k ∧ k < source.cols := by
    intro k hk
    have hn1 := hcfg.endo
    rw [c1] at hk
    unfold Srch.RegCfg.w at hcols
    rw [hcfg.weight] at hcols
    split_ifs at hk hcols with hw
    · simp only [List.cons_append, List.nil_append, List.mem_cons, List.mem_map] at hk
      rcases hk with rfl | rfl | ⟨a, ha, rfl⟩
      · omega
      · omega
      · have := hsel.2 a ha; omega
    · simp only [List.cons_append, List.nil_append, List.mem_cons] at hk
      rcases hk with rfl | hk
      · omega
      · have := hsel.2 k hk; omega
  unfold dcEst at hrep haft ⊢
  dsimp only at hrep haft ⊢
  obtain ⟨t, f, ht⟩ := regOut_returns hrep
  rw [ht] at haft ⊢
  have hf : f = false := by
    cases f with
    | false => rfl
    | true =>
      obtain ⟨k, hk⟩ := C121_cancelled ht
      have : after d = false := haft
      rw [hmono d k hk] at this
      cases this
  subst hf
  rw [c2] at ht
  obtain ⟨kept, D, e, k1, k2, k3, k4, k5, k6, k7, k8⟩ := C121_estimated wd hin (by rw [hst, hlen]) hnd hx ht he hu
  refine ⟨v, hvc, kept, D, e, t, rfl, ⟨k1, k2, k3, k4⟩, ?_, rfl, rfl, rfl, by show [t.extra] = _; rw [k8], k5, k6, k7⟩
  rw [k2.2.1, c1]
  unfold front
  split_ifs <;> simp

omit hcfg wd hx he hu hcols hst hmono hv in
theorem toVal_eq {d : Dbl ℝ} {x : ℝ} (h : some x = Srch.toVal d) : d = .num x := by
  cases d with
  | num y => rw [Option.some.inj h]
  | pinf => cases h
  | ninf => cases h
  | nan => cases h

omit he hu hcols hst hmono hv wd hx in
theorem wanted_of (cur : List ℤ) (j : ℕ) {t : ℤ} (h : (Srch.wanted c cur)[j]? = some t) : Srch.endoOf c cur = [0] ∧ Srch.exoOf c cur = cur := by
  unfold Srch.endoOf Srch.exoOf
  rw [hcfg.outer, hcfg.inner]
  simp

/-- **C121** with C119: whatever a search keeps of a model for AIC or SIC is the AIC or SIC of the model of C114 for the complete rows of its columns, which is within the limits. -/
theorem C121_search_models (i : ℕ) {x : Srch.Est}
    (h : x ∈ (Srch.estimated c (Srch.answers c (dcEst S u z E sim source storage junk cancel message before after) [] calls)).flatMap (Srch.modelKept c i 0)) :
    ∃ v ∈ calls, ∃ kept D e, ModelOf S u E source (Srch.tableColumns c v.cur) kept D e ∧ x.exo = v.cur ∧ x.endo = [0] ∧ x.extra = [lawCode u.law] ∧
      (u.metrics.indexIn .aic = some (i : ℤ) → e.aic = .num x.metric) ∧ (u.metrics.indexIn .sic = some (i : ℤ) → e.sic = .num x.metric) := by
  obtain ⟨r, hr, hxr⟩ := List.mem_flatMap.1 h
  obtain ⟨v, hvc, kept, D, e, t, r1, m, -, r2, r3, r4, r5, m1, m2, m3⟩ := search_model hcfg wd hx he hu hcols hst hmono hv hr
  unfold Srch.modelKept at hxr
  obtain ⟨j, -, hxr⟩ := List.mem_flatMap.1 hxr
  split_ifs at hxr with hw
  · obtain ⟨w1, w2⟩ := wanted_of hcfg r.1 j hw
    rw [r2] at hxr
    dsimp only at hxr
    cases hq : t.metric i with
    | none => rw [hq] at hxr; simp at hxr
    | some q =>
      rw [hq] at hxr
      dsimp only at hxr
      obtain rfl := List.mem_singleton.1 hxr
      refine ⟨v, hvc, kept, D, e, m, ?_, w1, r5, fun hi => ?_, fun hi => ?_⟩
      · show Srch.exoOf c r.1 = _; rw [w2, r1]
      · exact toVal_eq (by rw [← m1 i hi, hq])
      · exact toVal_eq (by rw [← m2 i hi, hq])
  · simp at hxr

/-- **C121** with C119: what a search keeps of coefficient `k` is the coefficient of variable `k + 1` in a model that has this variable, and its variance. -/
theorem C121_search_coefficients (hl : 0 < u.length1) (i k : ℕ) {x : Srch.Est}
    (h : x ∈ (Srch.estimated c (Srch.answers c (dcEst S u z E sim source storage junk cancel message before after) [] calls)).flatMap (Srch.coefKept c i 0 k)) :
    ∃ v ∈ calls, ∃ kept D e, ModelOf S u E source (Srch.tableColumns c v.cur) kept D e ∧ x.exo = v.cur ∧ x.endo = [0] ∧ x.extra = [lawCode u.law] ∧
      ∃ j hj, v.cur[j]? = some ((k : ℤ) + 1) ∧ x.mean = some (e.beta ⟨j, hj⟩) ∧ x.variance = some (e.betaVar ⟨j, hj⟩ ⟨j, hj⟩) := by
  obtain ⟨r, hr, hxr⟩ := List.mem_flatMap.1 h
  obtain ⟨v, hvc, kept, D, e, t, r1, m, hk0, r2, r3, r4, r5, m1, m2, m3⟩ := search_model hcfg wd hx he hu hcols hst hmono hv hr
  obtain ⟨m3, m4⟩ := m3 hl
  unfold Srch.coefKept at hxr
  obtain ⟨j, -, hxr⟩ := List.mem_flatMap.1 hxr
  split_ifs at hxr with hw
  · obtain ⟨w1, w2⟩ := wanted_of hcfg r.1 j hw
    rw [r2, r3, r4] at hxr
    dsimp only at hxr
    cases hq : t.metric i with
    | none => rw [hq] at hxr; simp at hxr
    | some q =>
      rw [hq] at hxr
      cases hm : t.mean k with
      | none => rw [hm] at hxr; simp at hxr
      | some y =>
        rw [hm] at hxr
        dsimp only at hxr
        obtain rfl := List.mem_singleton.1 hxr
        have hmem : (k : ℤ) + 1 ∈ v.cur := by
          by_contra hcon
          rw [m4 k hcon] at hm
          cases hm
        obtain ⟨j', hj'⟩ := List.mem_iff_getElem?.1 hmem
        have hlt : j' < kOf u.form u.cuts D := by
          have h1 := (List.getElem?_eq_some_iff.mp hj').1
          have e : u.cuts = (u.numChoices - 1).toNat := rfl
          cases hf : u.form with
          | binary => show j' < D.k0; omega
          | ordered => have := hu.2 hf; show j' < D.k0 + u.cuts - 1; omega
        obtain ⟨g1, g2⟩ := m3 j' _ hlt hj'
        rw [show ((k : ℤ) + 1 - 1).toNat = k by omega] at g1 g2
        refine ⟨v, hvc, kept, D, e, m, ?_, w1, r5, j', hlt, hj', ?_, g2⟩
        · show Srch.exoOf c r.1 = _; rw [w2, r1]
        · show some y = _; rw [← hm, g1]
  · simp at hxr

end
end
end Dc
end LDT
