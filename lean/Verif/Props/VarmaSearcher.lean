import Verif.Lemmas.VarmaSearcher
import Verif.Props.VarmaSim
/-! # C133: one VARMA model of a search -/
namespace LDT
namespace Vm
open Op Mx Arr Score
open Dc (bind_ok)

section
variable {m : Mat (Val ℝ)} {d : DsTs ℝ} {inner cur cols : List ℤ}

theorem obs_in {k t : ℤ} (h : ObsT true m k t) : 0 ≤ t ∧ t < m.cols := by
  obtain ⟨x, h⟩ := h
  replace h : m.get k t = .ok (some x) := h
  unfold Mat.get at h
  by_cases c : m.data.isNone = true
  · rw [if_pos c] at h; cases h
  rw [if_neg c] at h
  by_cases c' : k ≥ m.rows ∨ t ≥ m.cols ∨ k < 0 ∨ t < 0
  · rw [if_pos c'] at h; cases h
  omega

theorem CommonWindow.inside {S E : ℤ} (h : CommonWindow m cols S E) : 0 ≤ S ∧ E < m.cols := by
  obtain ⟨k, -, o, -⟩ := h.first
  obtain ⟨k', -, o', -⟩ := h.last
  exact ⟨(obs_in o).1, (obs_in o').2⟩

theorem CommonWindow.unique {S E S' E' : ℤ} (h : CommonWindow m cols S E) (h' : CommonWindow m cols S' E') : S' = S ∧ E' = E := by
  have a : ∀ {S E S' E' : ℤ}, CommonWindow m cols S E → CommonWindow m cols S' E' → S ≤ S' := by
    intro S E S' E' h h'
    obtain ⟨k, hk, -, hb⟩ := h.first
    obtain ⟨t, ht, ho⟩ := h'.others_first k hk
    have := hb t (obs_in ho).1
    by_contra hc
    exact this (by omega) ho
  have b : ∀ {S E S' E' : ℤ}, CommonWindow m cols S E → CommonWindow m cols S' E' → E' ≤ E := by
    intro S E S' E' h h'
    obtain ⟨k, hk, -, hb⟩ := h.last
    obtain ⟨t, ht, ho⟩ := h'.others_last k hk
    by_contra hc
    exact hb t (by omega) (obs_in ho).2 ho
  exact ⟨le_antisymm (a h' h) (a h h'), le_antisymm (b h h') (b h' h)⟩

theorem window_of (hl : Loaded m d) (hc : Chosen m inner cur cols) : d.pData = m ∧ ∃ S E, window d cols = .ok (S, E) ∧ CommonWindow m cols S E ∧
    ((∀ k ∈ cols, ¬ Gap true m k) → ∀ k ∈ cols, ∀ t, S ≤ t → t ≤ E → ObsT true m k t) := by
  obtain ⟨R, C, d0, hR, hC, hmk, hset⟩ := hl.made
  have hne : cols ≠ [] := by
    obtain ⟨k, hk⟩ := List.exists_mem_of_ne_nil cur hc.endo
    exact List.ne_nil_of_mem ((hc.mem k).2 (Or.inl hk))
  have hd0 : d0 = ⟨true, true, R * C, ⟨0, 0, none⟩, [], false⟩ := by
    unfold DsTs.make at hmk
    by_cases c : C ≤ 0 ∨ R ≤ 0
    · rw [if_pos c] at hmk; cases hmk
    · rw [if_neg c] at hmk
      exact (Outcome.ok.inj hmk).symm
  have hT : 0 < nTime true m := hl.periods
  obtain ⟨r1, r2⟩ := C45_ranges true d0 (by rw [hd0]) (by rw [hd0]) m hl.wf hT
  have hall : ∀ k, 0 ≤ k → k < nSer true m → ∃ t, 0 ≤ t ∧ t < nTime true m ∧ ObsT true m k t := by
    by_contra hcon
    push Not at hcon
    obtain ⟨k, h1, h2, h3⟩ := hcon
    rw [r1 ⟨k, h1, h2, fun ⟨t, a, b, e⟩ => h3 t a b e⟩] at hset
    cases hset
  obtain ⟨d', e1, e2, e3, e4, e5, hlen, hrange, -⟩ := r2 hall
  rw [hset] at e1
  obtain rfl := Outcome.ok.inj e1
  have hsel' : ∀ k ∈ cols, 0 ≤ k ∧ k < (d.ranges.length : ℤ) := by rw [hlen]; exact hc.data
  have hbig := biggest_select d.ranges cols hsel' (0, intMax)
  have hrs : ∀ r, r ∈ cols.filterMap (fun k => d.ranges[k.toNat]?) ↔ ∃ k ∈ cols, d.ranges[k.toNat]? = some r := by
    intro r; simp [List.mem_filterMap]
  have hof : ∀ r ∈ cols.filterMap (fun k => d.ranges[k.toNat]?), ∃ k ∈ cols, RangeOf true m k r := by
    intro r hr
    obtain ⟨k, hk, hkr⟩ := (hrs r).1 hr
    have := hrange k.toNat r hkr
    rw [show ((k.toNat : ℕ) : ℤ) = k by have := hc.data k hk; omega] at this
    exact ⟨k, hk, this⟩
  have hto : ∀ k ∈ cols, ∃ r ∈ cols.filterMap (fun k => d.ranges[k.toNat]?), RangeOf true m k r := by
    intro k hk
    have hk' := hsel' k hk
    have hr : d.ranges[k.toNat]? = some d.ranges[k.toNat] := List.getElem?_eq_getElem (by omega)
    refine ⟨_, (hrs _).2 ⟨k, hk, hr⟩, ?_⟩
    have := hrange k.toNat _ hr
    rwa [show ((k.toNat : ℕ) : ℤ) = k by omega] at this
  have hwin := window_of_fold (cols.filterMap (fun k => d.ranges[k.toNat]?))
    (by
      obtain ⟨k, hk⟩ := List.exists_mem_of_ne_nil cols hne
      obtain ⟨r, hr, _⟩ := hto k hk
      exact List.ne_nil_of_mem hr)
    (by
      intro r hr
      obtain ⟨k, hk, ho⟩ := hof r hr
      have h1 := ho.lt
      have h2 : nTime true m ≤ intMax := hl.few
      exact ⟨ho.start_nonneg, by omega⟩)
  generalize (cols.filterMap (fun k => d.ranges[k.toNat]?)).foldl bigStep (0, intMax) = out at hbig hwin
  obtain ⟨S, E⟩ := out
  simp only at hwin
  refine ⟨e2, S, E, ?_, ⟨?_, ?_, ?_, ?_⟩, ?_⟩
  · unfold window
    rw [if_pos (by rw [e4, hd0]), if_pos e3]
    exact hbig
  · obtain ⟨r, hr, e1⟩ := hwin.start_at
    obtain ⟨k, hk, ho⟩ := hof r hr
    refine ⟨k, hk, e1 ▸ ho.obs_start, fun t ht0 ht1 hob => ?_⟩
    have := ho.tight t ht0 (by have := ho.lt; have := ho.le; omega) hob
    omega
  · intro k hk
    obtain ⟨r, hr, ho⟩ := hto k hk
    exact ⟨r.start, (hwin.ge r hr).1, ho.obs_start⟩
  · obtain ⟨r, hr, e1⟩ := hwin.stop_at
    obtain ⟨k, hk, ho⟩ := hof r hr
    refine ⟨k, hk, e1 ▸ ho.obs_stop, fun t ht0 ht1 hob => ?_⟩
    have := ho.tight t (by have := ho.start_nonneg; have := ho.le; omega) ht1 hob
    omega
  · intro k hk
    obtain ⟨r, hr, ho⟩ := hto k hk
    exact ⟨r.stop, (hwin.ge r hr).2, ho.obs_stop⟩
  · intro hg k hk t h0 h1
    obtain ⟨r, hr, ho⟩ := hto k hk
    have hb := hwin.ge r hr
    by_contra hno
    obtain ⟨v, hv⟩ : ∃ v, m.get k t = .ok v := by
      have := hc.data k hk
      have := ho.lt
      have := ho.start_nonneg
      have hlt : r.stop < m.cols := ho.lt
      have hin : m.InR k t := ⟨by omega, by omega, by omega, by omega⟩
      obtain ⟨v, hv⟩ := get0_ok hl.wf hin
      exact ⟨v, by rw [get_eq_get0 hl.wf hin, hv]⟩
    cases v with
    | some x => exact hno ⟨x, hv⟩
    | none =>
      have o1 := ho.obs_start
      have o2 := ho.obs_stop
      have n1 : r.start ≠ t := fun e => hno (e ▸ o1)
      have n2 : r.stop ≠ t := fun e => hno (e ▸ o2)
      exact hg k hk ⟨r.start, t, r.stop, ho.start_nonneg, by omega, by omega, ho.lt, o1, o2, hv⟩

/-- **C133.** A model is estimated with the data of all periods in which all of its variables can be observed, and with its exogenous variables until the end of the
data; without gaps all of its endogenous data are observed. (If there is such a period.) -/
theorem C133_sample (hl : Loaded m d) (hc : Chosen m inner cur cols) {u : Setup} {w : Needs} {M : Memory} (hM : construct u w m.cols cur.length inner.length = .ok M)
    (hP : Planned u.sizes cur.length inner.length) :
    ∃ S E, CommonWindow m cols S E ∧ (∀ t, (∀ k ∈ cols, ObsT true m k t) → S ≤ t ∧ t ≤ E) ∧ (S ≤ E → ∃ s, sample d M.work inner cur cols = .ok s ∧ Sampled m inner cur S E s ∧
      ((∀ k ∈ cols, ¬ Gap true m k) → ∀ (a : ℕ) (t : ℤ), a < cur.length → 0 ≤ t → t < s.y.cols → ∃ x, s.y.get a t = .ok (some x))) := by
  obtain ⟨rfl, S, E, hw, hcw, hobs⟩ := window_of hl hc
  refine ⟨S, E, hcw, fun t ht => ⟨?_, ?_⟩, fun hSE => ?_⟩
  · obtain ⟨k, hk, -, hb⟩ := hcw.first
    by_contra hn
    exact hb t (obs_in (ht k hk)).1 (by omega) (ht k hk)
  · obtain ⟨k, hk, -, hb⟩ := hcw.last
    by_contra hn
    exact hb t (by omega) (obs_in (ht k hk)).2 (ht k hk)
  obtain ⟨n1, n2, n3, n4, n5⟩ := memory_nonneg hM hP
  obtain ⟨s, h1, h2, -⟩ := sample_of hl.wf hw hcw.inside.1 hcw.inside.2 hSE (fun k hk => hc.data k ((hc.mem k).2 (Or.inl hk)))
    (fun k hk => hc.data k ((hc.mem k).2 (Or.inr hk))) (size := M.work) (by omega)
  refine ⟨s, h1, h2, fun hg a t ha h0 ht => ?_⟩
  obtain ⟨k, hk⟩ : ∃ k, cur[a]? = some k := ⟨_, List.getElem?_eq_getElem ha⟩
  rw [h2.y_shape.2] at ht
  rw [h2.y a k t hk h0 (by omega)]
  exact hobs hg k ((hc.mem k).2 (Or.inl (List.mem_of_getElem? hk))) (S + t) (by omega) (by omega)

/-- The model is long enough. -/
theorem estimated_of {σ : Type} {u : Setup} {w : Needs} {M : Memory} {o : Oracle σ} {s : Sample} {S E : ℤ}
    (hM : construct u w m.cols cur.length inner.length = .ok M) (hP : Planned u.sizes cur.length inner.length) (he : u.checks.estimation = true)
    (h2 : Sampled m inner cur S E s) (h3 : s.stop = cur.length * (E - S + 1) + inner.length * (m.cols - S)) (h0 : 0 ≤ S) (hSE : S ≤ E) (hE : E < m.cols)
    (ho : E - S + 1 ≤ u.sizes.obsCount) :
    estimated u w M o s = if E - S + 1 - u.sizes.arMaxD < 1 ∨ (cur.length : ℤ) < 1 ∨ u.sizes.numParams < 1 then .throws
      else o.estimate (limit u.checks.checkCNAll u) s.y s.x := by
  obtain ⟨n1, n2, n3, n4, n5⟩ := memory_nonneg hM hP
  obtain ⟨z, hz'⟩ : ∃ z : Varma.Sizes, z = ⟨E - S + 1, u.sizes.eqsCount, u.sizes.exoCount, u.sizes.arLags, u.sizes.maLags, u.sizes.diffPoly⟩ := ⟨_, rfl⟩
  have hz : sizesOf u.sizes s = z := by
    unfold sizesOf
    rw [h2.y_shape.1, h2.y_shape.2, sampled_exo h2, ← hP.eqs, ← hP.exo, hz']
  have hMe : M.eStorage = estStorage u.sizes ∧ M.eWork = estWork w.ml u.sizes := by
    obtain ⟨-, rfl⟩ := construct_parts hM
    exact ⟨if_pos he, if_pos he⟩
  have b1 : (cur.length : ℤ) * (E - S + 1) ≤ m.cols * cur.length := by
    rw [mul_comm]; exact mul_le_mul_of_nonneg_right (by omega) (by omega)
  have b2 : (inner.length : ℤ) * (m.cols - S) ≤ m.cols * inner.length := by
    rw [mul_comm]; exact mul_le_mul_of_nonneg_right (by omega) (by omega)
  have p1 : 0 ≤ (cur.length : ℤ) * (E - S + 1) := mul_nonneg (by omega) (by omega)
  have p2 : 0 ≤ (inner.length : ℤ) * (m.cols - S) := mul_nonneg (by omega) (by omega)
  have m1 : estStorage z ≤ estStorage u.sizes := by rw [hz']; exact estStorage_mono hP ho
  have m2 : estWork w.ml z ≤ estWork w.ml u.sizes := by rw [hz']; exact estWork_mono w.ml hP ho
  unfold estimated
  dsimp only
  rw [hz]
  have hT : z.T = E - S + 1 - u.sizes.arMaxD := by rw [hz']; rfl
  have hq : z.numParams = u.sizes.numParams := by rw [hz']; rfl
  have hg : z.eqsCount = cur.length := by rw [hz']; exact hP.eqs
  rw [hT, hq, hg]
  by_cases c : E - S + 1 - u.sizes.arMaxD < 1 ∨ (cur.length : ℤ) < 1 ∨ u.sizes.numParams < 1
  · rw [if_pos c, if_pos c]
  rw [if_neg c, if_neg c, fits_ok (Or.inr ⟨by omega, by omega⟩), Outcome.ok_bind, fits_ok (Or.inr ⟨by omega, by omega⟩), Outcome.ok_bind]

/-- **C133.** If a model has no more observations than its sizes were made for, the memory is enough: the estimation gets its data and the limit for the condition
number (if that is to be checked). A model with too few observations for its lags, or without parameters, is refused. -/
theorem C133_memory (hl : Loaded m d) (hc : Chosen m inner cur cols) {u : Setup} {w : Needs} {M : Memory} (hM : construct u w m.cols cur.length inner.length = .ok M)
    (hP : Planned u.sizes cur.length inner.length) (he : u.checks.estimation = true) {S E : ℤ} (hcw : CommonWindow m cols S E) (hSE : S ≤ E)
    (ho : E - S + 1 ≤ u.sizes.obsCount) {σ : Type} (o : Oracle σ) :
    ∃ s, sample d M.work inner cur cols = .ok s ∧ Sampled m inner cur S E s ∧
      estimated u w M o s = if E - S + 1 ≤ u.sizes.arMaxD ∨ u.sizes.numParams = 0 then .throws else o.estimate (limit u.checks.checkCNAll u) s.y s.x := by
  obtain ⟨rfl, S', E', hw, hcw', -⟩ := window_of hl hc
  obtain ⟨rfl, rfl⟩ := hcw.unique hcw'
  obtain ⟨n1, n2, n3, n4, n5⟩ := memory_nonneg hM hP
  obtain ⟨s, h1, h2, h3⟩ := sample_of hl.wf hw hcw.inside.1 hcw.inside.2 hSE (fun k hk => hc.data k ((hc.mem k).2 (Or.inl hk)))
    (fun k hk => hc.data k ((hc.mem k).2 (Or.inr hk))) (size := M.work) (by omega)
  refine ⟨s, h1, h2, ?_⟩
  rw [estimated_of hM hP he h2 h3 hcw.inside.1 hSE hcw.inside.2 ho]
  have hn : 0 < cur.length := List.length_pos_iff.2 hc.endo
  have hq := hP.f_nonneg.2.2
  by_cases c : E' - S' + 1 ≤ u.sizes.arMaxD ∨ u.sizes.numParams = 0
  · rw [if_pos c, if_pos (by omega)]
  · rw [if_neg c, if_neg (by omega)]

end

section
variable {σ : Type} {u : Setup} {w : Needs} {M : Memory} {o : Oracle σ} {d : DsTs ℝ} {inner cur cols : List ℤ} {T : ℕ}

theorem Indexed.asSystem (hx : Dc.Indexed u.metrics) : Dc.Indexed u.asSystem.metrics := hx

theorem estimated_ok {s : Sample} {e : Fitted} (h : estimated u w M o s = .ok e) : o.estimate (limit u.checks.checkCNAll u) s.y s.x = .ok e := by
  unfold estimated at h
  dsimp only at h
  by_cases c : (sizesOf u.sizes s).T < 1 ∨ (sizesOf u.sizes s).eqsCount < 1 ∨ (sizesOf u.sizes s).numParams < 1
  · rw [if_pos c] at h; cases h
  rw [if_neg c] at h
  obtain ⟨_, -, h⟩ := bind_ok h
  obtain ⟨_, -, h⟩ := bind_ok h
  exact h

theorem predicted_ok {s : Sample} {f : Vs.Cols × Vs.Cols} (h : predicted u o s cur = .ok f) : o.forecast s.y s.x = .ok f ∧
    (∀ c ∈ f.1, ∀ i < cur.length, c i ≠ .nan) ∧ ∀ l r, u.lower = some l → u.upper = some r → Readable u l r f.1 cur ∧ InBounds u l r f.1 cur := by
  unfold predicted at h
  obtain ⟨g, h1, h⟩ := bind_ok h
  by_cases c : anyNaN cur.length g.1 = true
  · rw [if_pos c] at h; cases h
  rw [if_neg c] at h
  obtain ⟨_, h2, h⟩ := bind_ok h
  obtain rfl := Outcome.ok.inj h
  refine ⟨h1, anyNaN_false (by simpa using c), fun l r hl hr => ?_⟩
  unfold checkBounds at h2
  rw [hl, hr] at h2
  exact bounds_iff.1.1 h2

/-- What the parts of one call leave. -/
theorem estimate_parts {t : Tables} (h : estimateOne u w M o d inner cur cols T = .ok t) : ∃ s a t1 t2, sample d M.work inner cur cols = .ok s ∧
    inSample u w M o s cur T Su.ssTables0 = .ok a ∧ outOfSample u o s T a.1 = .ok t1 ∧ setForecasts u T a.2 t1 = .ok t2 ∧ t = ⟨t2, u.params⟩ := by
  unfold estimateOne at h
  obtain ⟨s, h1, h⟩ := bind_ok h
  obtain ⟨a, h2, h⟩ := bind_ok h
  obtain ⟨t1, h3, h⟩ := bind_ok h
  obtain ⟨t2, h4, h⟩ := bind_ok h
  exact ⟨s, a, t1, t2, h1, h2, h3, h4, (Outcome.ok.inj h).symm⟩

theorem inSample_on {s : Sample} {a : Su.SsTables × (Vs.Cols × Vs.Cols)} (he : u.checks.estimation = true) (h : inSample u w M o s cur T Su.ssTables0 = .ok a) :
    ∃ e, checkBefore u s = .ok () ∧ estimated u w M o s = .ok e ∧ checkAfter u e = .ok () ∧ predictedIf u o s cur = .ok a.2 ∧
      Su.ssCrit u.asSystem T e.aic e.sic Su.ssTables0 = .ok a.1 := by
  unfold inSample at h
  rw [if_pos he] at h
  obtain ⟨_, h1, h⟩ := bind_ok h
  obtain ⟨e, h2, h⟩ := bind_ok h
  obtain ⟨_, h3, h⟩ := bind_ok h
  obtain ⟨f, h4, h⟩ := bind_ok h
  obtain ⟨t, h5, h⟩ := bind_ok h
  obtain rfl := Outcome.ok.inj h
  exact ⟨e, h1, h2, h3, h4, h5⟩

theorem inSample_off {s : Sample} {a : Su.SsTables × (Vs.Cols × Vs.Cols)} (he : u.checks.estimation = false) (h : inSample u w M o s cur T Su.ssTables0 = .ok a) :
    a = (Su.ssTables0, ([], [])) := by
  unfold inSample at h
  rw [if_neg (by rw [he]; simp)] at h
  exact (Outcome.ok.inj h).symm

/-- The in-sample part writes only the rows of the criteria. -/
theorem inSample_keeps (hx : Dc.Indexed u.metrics) {s : Sample} {a : Su.SsTables × (Vs.Cols × Vs.Cols)} (h : inSample u w M o s cur T Su.ssTables0 = .ok a) :
    (∀ i j, a.1.mean i j = none) ∧
    ∀ i j : ℕ, u.metrics.indexIn .aic ≠ some (i : ℤ) → u.metrics.indexIn .sic ≠ some (i : ℤ) → a.1.metric i j = Su.ssTables0.metric i j := by
  by_cases he : u.checks.estimation = true
  · obtain ⟨e, -, -, -, -, h5⟩ := inSample_on he h
    obtain ⟨k1, k2, -, -, k3⟩ := Su.ssCrit_ok (u := u.asSystem) hx h5
    exact ⟨fun i j => by rw [k1]; rfl, k3⟩
  · rw [inSample_off (by simpa using he) h]
    exact ⟨fun _ _ => rfl, fun _ _ _ _ => rfl⟩

theorem outScores_nodup : outScores.Nodup := by decide

theorem outOfSample_ok (hx : Dc.Indexed u.metrics) {s : Sample} {t t' : Su.SsTables} (h : outOfSample u o s T t = .ok t') :
    t'.mean = t.mean ∧ t'.variance = t.variance ∧ (∀ i j : ℕ, i < u.metrics.metricsIn.length → t'.metric i j = t.metric i j) ∧
    (u.simulates = true → ∃ r, simulated u o s = .ok r ∧ r.valid ≠ 0 ∧ ∀ e, Vs.Implemented e → ∀ i : ℕ, u.metrics.indexOut e = some (i : ℤ) →
      ∃ v, r.results[i]? = some v ∧ T ≤ v.length ∧ ∀ j < T, t'.metric (u.metrics.metricsIn.length + i) j = Srch.toVal (v.getD j .nan)) := by
  unfold outOfSample at h
  by_cases c : u.simulates = true
  · rw [if_pos c] at h
    obtain ⟨r, h1, h⟩ := bind_ok h
    by_cases c' : r.valid = 0
    · rw [if_pos c'] at h; cases h
    rw [if_neg c'] at h
    obtain ⟨k1, k2, k3, k4⟩ := Su.ssOut_ok (u := u.asSystem) hx _ _ _ outScores_nodup h
    refine ⟨k1, k2, fun i j hi => k4 i j fun e _ k _ hk => ?_, fun _ => ⟨r, h1, c', fun e he i hi => k3 e ?_ i hi⟩⟩
    · have : i = u.metrics.metricsIn.length + k := hk
      omega
    · unfold Vs.Implemented at he
      unfold outScores
      simp only [List.mem_cons, List.not_mem_nil, or_false] at he ⊢
      tauto
  · rw [if_neg c] at h
    obtain rfl := Outcome.ok.inj h
    exact ⟨rfl, rfl, fun _ _ _ => rfl, fun h => absurd h c⟩

theorem setForecasts_ok {f : Vs.Cols × Vs.Cols} {t t' : Su.SsTables} (h : setForecasts u T f t = .ok t') : t'.metric = t.metric ∧
    (∀ i j : ℕ, u.length1 ≤ i ∨ T ≤ j ∨ u.forecasts = false → t'.mean i j = t.mean i j ∧ t'.variance i j = t.variance i j) ∧
    (u.forecasts = true → ∀ i < u.length1, ∀ j < T, ∃ m v, f.1[((i : ℤ) + u.sizes.arMaxD).toNat]? = some m ∧ f.2[((i : ℤ) + u.sizes.arMaxD).toNat]? = some v ∧
      t'.mean i j = Srch.toVal (m j) ∧ t'.variance i j = Srch.toVal (v j)) := by
  unfold setForecasts at h
  by_cases c : u.forecasts = true ∧ u.length1 > 0
  · rw [if_pos c] at h
    obtain ⟨h1, h2, h3⟩ := forecastLoop_ok _ _ _ h
    refine ⟨h1, fun i j hij => h2 i j fun hm => ?_, fun _ i hi j hj => h3 i j (mem_targetHorizons.2 ⟨hj, hi⟩)⟩
    obtain ⟨a, b⟩ := mem_targetHorizons.1 hm
    rcases hij with hij | hij | hij
    · omega
    · omega
    · rw [c.1] at hij; cases hij
  · rw [if_neg c] at h
    obtain rfl := Outcome.ok.inj h
    refine ⟨rfl, fun _ _ _ => ⟨rfl, rfl⟩, fun hf i hi => absurd ⟨hf, by omega⟩ c⟩

theorem index_lt (hx : Dc.Indexed u.metrics) {g : Gof} {i : ℕ} (h : u.metrics.indexIn g = some (i : ℤ)) : i < u.metrics.metricsIn.length := by
  have := Dc.position_lt (Dc.indexed_in hx h)
  omega

/-- **C133.** What is reported about a model: AIC and SIC of the estimation, the scores of the simulations, the forecasts and their variances. There is no report if
there are too few observations, if a criterion is beyond its limit, if a forecast is not a number or out of its bounds, or if no simulation was possible. -/
theorem C133_reports (hx : Dc.Indexed u.metrics) {t : Tables} (h : estimateOne u w M o d inner cur cols T = .ok t) :
    ∃ s, sample d M.work inner cur cols = .ok s ∧ Reported u o s cur T t := by
  obtain ⟨s, a, t1, t2, h1, h2, h3, h4, rfl⟩ := estimate_parts h
  obtain ⟨o1, o2, o3, o4⟩ := outOfSample_ok hx h3
  obtain ⟨f1, f2, f3⟩ := setForecasts_ok h4
  refine ⟨s, h1, ⟨fun he => ?_, fun he hp => ?_, fun hs hm => ?_, fun i j hij => ?_, rfl⟩⟩
  · obtain ⟨e, k1, k2, k3, k4, k5⟩ := inSample_on he h2
    obtain ⟨-, -, c1, c2, -⟩ := Su.ssCrit_ok (u := u.asSystem) hx k5
    obtain ⟨b1, b2⟩ := checkAfter_ok k3
    refine ⟨checkBefore_iff.1.1 k1, e, estimated_ok k2, b1, b2, fun i hi j hj => ?_, fun i hi j hj => ?_⟩
    · show t2.metric i j = _
      rw [f1, o3 i j (index_lt hx hi)]
      exact c1 i hi j hj
    · show t2.metric i j = _
      rw [f1, o3 i j (index_lt hx hi)]
      exact c2 i hi j hj
  · obtain ⟨e, k1, k2, k3, k4, k5⟩ := inSample_on he h2
    unfold predictedIf at k4
    rw [if_pos hp] at k4
    obtain ⟨q1, q2, q3⟩ := predicted_ok k4
    refine ⟨a.2.1, a.2.2, q1, q2, q3, f3 ?_⟩
    unfold Setup.forecasts
    rw [he, hp]; rfl
  · obtain ⟨r, r1, r2, r3⟩ := o4 (by
      unfold Setup.simulates
      rw [Bool.and_eq_true, decide_eq_true_eq, decide_eq_true_eq]
      exact ⟨hs, List.length_pos_iff.2 hm⟩)
    refine ⟨r, r1, Nat.pos_of_ne_zero r2, fun e he i hi j hj => ?_⟩
    obtain ⟨v, v1, v2, v3⟩ := r3 e he i hi
    refine ⟨v.getD j .nan, ?_, ?_⟩
    · unfold Su.cell
      rw [v1]
      show v[j]? = _
      rw [List.getD_eq_getElem?_getD, List.getElem?_eq_getElem (by omega)]
      rfl
    · show t2.metric _ j = _
      rw [f1]
      exact v3 j hj
  · show t2.mean i j = none
    rw [(f2 i j hij).1, o1]
    exact (inSample_keeps hx h2).1 i j

/-- **C133.** Each of these reasons is enough to refuse the model. -/
theorem C133_refused {s : Sample} (hs : sample d M.work inner cur cols = .ok s)
    (hm : Enough u s → estimated u w M o s = o.estimate (limit u.checks.checkCNAll u) s.y s.x) (h : Refused u o s cur) :
    estimateOne u w M o d inner cur cols T = .throws := by
  have key : inSample u w M o s cur T Su.ssTables0 = .throws → estimateOne u w M o d inner cur cols T = .throws := fun hh => by
    unfold estimateOne
    rw [hs, Outcome.ok_bind, hh]
    rfl
  apply key
  have before : ∀ (he : u.checks.estimation = true), (Enough u s → (do
      let e ← o.estimate (limit u.checks.checkCNAll u) s.y s.x
      let _ ← checkAfter u e
      let f ← predictedIf u o s cur
      let t ← Su.ssCrit u.asSystem T e.aic e.sic Su.ssTables0
      pure (t, f)) = .throws) → inSample u w M o s cur T Su.ssTables0 = .throws := fun he hh => by
    unfold inSample
    rw [if_pos he]
    by_cases c : Enough u s
    · rw [checkBefore_iff.1.2 c, Outcome.ok_bind, hm c]
      exact hh c
    · rw [checkBefore_iff.2 c]
      rfl
  have pred : ∀ (he : u.checks.estimation = true) (hp : u.checks.prediction = true) {e : Fitted}
      (h2 : o.estimate (limit u.checks.checkCNAll u) s.y s.x = .ok e), predicted u o s cur = .throws → inSample u w M o s cur T Su.ssTables0 = .throws :=
    fun he hp e h2 hh => before he fun _ => by
      rw [h2, Outcome.ok_bind]
      by_cases c : u.checks.maxAic.lt e.aic = true ∨ u.checks.maxSic.lt e.sic = true
      · rw [checkAfter_throws c]
        rfl
      · have : checkAfter u e = .ok () := by
          unfold checkAfter
          rw [if_neg fun hh => c (Or.inl hh), if_neg fun hh => c (Or.inr hh)]
        rw [this, Outcome.ok_bind]
        unfold predictedIf
        rw [if_pos hp, hh]
        rfl
  cases h with
  | few h h1 => exact before h fun hh => absurd hh h1
  | estimation h h1 => exact before h fun _ => by rw [h1]; rfl
  | criterion h h1 h2 => exact before h fun _ => by rw [h1, Outcome.ok_bind, checkAfter_throws h2]; rfl
  | forecast h h1 h2 h3 => exact pred h h1 h2 (by unfold predicted; rw [h3]; rfl)
  | nan h h1 h2 h3 h4 h5 h6 => exact pred h h1 h2 (by
      unfold predicted
      rw [h3, Outcome.ok_bind, if_pos (anyNaN_true h4 h5 h6)])
  | @bounds h h1 _ h2 f _ h3 _ _ h4 h5 h6 h7 => exact pred h h1 h2 (by
      unfold predicted
      rw [h3, Outcome.ok_bind]
      by_cases c : anyNaN cur.length f = true
      · rw [if_pos c]
      · rw [if_neg c]
        unfold checkBounds
        rw [h4, h5]
        dsimp only
        rw [bounds_iff.2 h6 h7]
        rfl)

end

end Vm
end LDT
