import Verif.Props.VarmaSim
import Verif.Props.DatasetTs
/-! # C132: out-of-sample scores of a VARMA model, continued -/
namespace LDT
namespace Vs
open Mx Op Score
open Dc (bind_ok)
open Su (backD sqrtD lambda lambdasOk Results cell requiresVariance finish scored)
open Arr (Val)

/-- What is kept of a simulation: each comparison, once for each metric. (Without variances there is no deviation.) -/
noncomputable def kept (u : Setup) (data : Cols) (final : ℤ) (s : ℤ × Fit) : List Detail :=
  (List.range u.metrics.length).flatMap fun c => (within u s.1).flatMap fun h => (List.range u.eqs).map fun j =>
    let x := point u data final j s h
    ⟨s.1, c, h, j, x.last, x.actual, x.forecast, (exact : Ops ℝ).sub x.actual x.forecast, if u.doVar then x.std else .nan⟩

section
variable {crps : Dbl ℝ → Dbl ℝ → Outcome (Dbl ℝ)} {u : Setup} {data : Cols} {σ : Type} {fit : Estimator σ}

theorem details_skip {se H : ℤ} {c : ℕ} {last : ℕ → Dbl ℝ} {cols : List Column} : ∀ (hs : List ℤ) (k : ℤ), (∀ h ∈ hs, h > H) →
    details u se c H last cols hs k = .ok []
  | [], k, _ => by rw [details]
  | h :: r, k, hh => by
    rw [details, if_pos (hh h List.mem_cons_self)]
    exact details_skip r k fun x hx => hh x (List.mem_cons_of_mem _ hx)

theorem details_list {se H : ℤ} {c : ℕ} {last : ℕ → Dbl ℝ} {F : ℤ → List Detail} : ∀ (hs : List ℤ) (pre ts : List Column), hs.Pairwise (· < ·) →
    List.Forall₂ (fun h (t : Column) => h ≤ H →
      (List.range u.eqs).map (fun i => (⟨se, c, h, i, last i, t.act i, t.forc i, t.err i, t.std i⟩ : Detail)) = F h) hs ts →
    details u se c H last (pre ++ ts) hs pre.length = .ok ((hs.filter fun h => h ≤ H).flatMap F)
  | [], pre, ts, _, _ => by rw [details]; rfl
  | h :: r, pre, ts, hp, hT => by
    obtain ⟨hp1, hp2⟩ := List.pairwise_cons.1 hp
    by_cases hh : h > H
    · have hnil : (h :: r).filter (fun h => decide (h ≤ H)) = [] := by
        rw [List.filter_eq_nil_iff]
        intro x hx
        rcases List.mem_cons.1 hx with rfl | hx
        · simpa using hh
        · have := hp1 x hx
          simp only [decide_eq_true_eq, not_le]; omega
      rw [hnil, details_skip]
      · rfl
      intro x hx
      rcases List.mem_cons.1 hx with rfl | hx
      · exact hh
      · have := hp1 x hx; omega
    · have hle : h ≤ H := by omega
      rw [List.filter_cons_of_pos (by simpa using hle)]
      cases hT with
      | @cons _ t _ ts' t1 t2 =>
        have k2 := details_list r (pre ++ [t]) ts' hp2 t2
        rw [List.append_assoc, List.singleton_append, List.length_append, List.length_singleton] at k2
        push_cast at k2
        rw [details, if_neg hh, read_mid, Outcome.ok_bind, k2, Outcome.ok_bind, t1 hle, List.flatMap_cons]
        rfl

theorem column_detail {p : Fit} {final se H h : ℤ} {k : Column} {c : ℕ} (hh : h ≤ H) (hk : column u data p (final - se) H h = .ok k) {l : ℕ → Dbl ℝ}
    (hl : Mx.read data (final - se) = .ok l) (j : ℕ) :
    (⟨se, c, h, j, backD (lambda u.lambdas j) (l j), (k.back u).act j, (k.back u).forc j, (k.back u).err j, (k.back u).std j⟩ : Detail) =
      ⟨se, c, h, j, (point u data final j (se, p) h).last, (point u data final j (se, p) h).actual, (point u data final j (se, p) h).forecast,
        (exact : Ops ℝ).sub (point u data final j (se, p) h).actual (point u data final j (se, p) h).forecast,
        if u.doVar then (point u data final j (se, p) h).std else .nan⟩ := by
  unfold column at hk
  rw [if_pos hh] at hk
  obtain ⟨a, h1, hk⟩ := bind_ok hk
  obtain ⟨f, h2, hk⟩ := bind_ok hk
  obtain ⟨v, h3, hk⟩ := bind_ok hk
  obtain rfl := Outcome.ok.inj hk
  have e1 : (point u data final j (se, p) h).last = backD (lambda u.lambdas j) (l j) := by
    show backD _ (at_ data (final - se) j) = _
    rw [read_at hl]
  have e2 : (point u data final j (se, p) h).actual = backD (lambda u.lambdas j) (a j) := by
    show backD _ (at_ data (final - se + h) j) = _
    rw [read_at h1]
  have e3 : (point u data final j (se, p) h).forecast = backD (lambda u.lambdas j) (f j) := by
    show backD _ (at_ p.forecast (p.start - 1 + h) j) = _
    rw [read_at h2]
  rw [e1, e2, e3]
  have e5 : (Column.back u ⟨a, f, v⟩).std j = if u.doVar then (point u data final j (se, p) h).std else .nan := by
    show (if u.doVar then backD (lambda u.lambdas j) (sqrtD (v j)) else v j) = _
    unfold variances at h3
    by_cases hd : u.doVar = true
    · rw [if_pos hd] at h3
      rw [if_pos hd, if_pos hd]
      show _ = backD _ (sqrtD (at_ p.variance (p.start - 1 + h) j))
      rw [read_at h3]
    · rw [if_neg hd] at h3
      rw [if_neg hd, if_neg hd, ← Outcome.ok.inj h3]
  rw [e5]
  rfl

theorem allDetails_list (hu : Ascending u) {p : Fit} {final se : ℤ} {last : ℕ → Dbl ℝ} {cols : List Column}
    (hf : Filled u data p (final - se) (min se u.hMax) last cols) : ∀ (cs : List ℕ), allDetails u se (min se u.hMax) last cols cs =
      .ok (cs.flatMap fun c => (within u se).flatMap fun h => (List.range u.eqs).map fun j =>
        ⟨se, c, h, j, (point u data final j (se, p) h).last, (point u data final j (se, p) h).actual, (point u data final j (se, p) h).forecast,
          (exact : Ops ℝ).sub (point u data final j (se, p) h).actual (point u data final j (se, p) h).forecast,
          if u.doVar then (point u data final j (se, p) h).std else .nan⟩)
  | [] => by rw [allDetails]; rfl
  | c :: cs => by
    obtain ⟨l, ks, f1, rfl, f3, rfl⟩ := hf
    have h1 := details_list (u := u) (se := se) (H := min se u.hMax) (c := c) (last := fun i => backD (lambda u.lambdas i) (l i))
      (F := fun h => (List.range u.eqs).map fun j =>
        ⟨se, c, h, j, (point u data final j (se, p) h).last, (point u data final j (se, p) h).actual, (point u data final j (se, p) h).forecast,
          (exact : Ops ℝ).sub (point u data final j (se, p) h).actual (point u data final j (se, p) h).forecast,
          if u.doVar then (point u data final j (se, p) h).std else .nan⟩) u.horizons [] (ks.map fun k => k.back u) hu.2 (by
        rw [List.forall₂_map_right_iff]
        exact f3.imp fun h k hk hle => List.map_congr_left fun j _ => column_detail hle hk f1 j)
    rw [List.nil_append, List.length_nil, show ((0 : ℕ) : ℤ) = 0 from rfl, filter_min hu.2] at h1
    rw [allDetails, h1, Outcome.ok_bind, allDetails_list hu ⟨l, ks, f1, rfl, f3, rfl⟩ cs, Outcome.ok_bind, List.flatMap_cons]
    rfl

theorem loopE_step {stop : ℤ} {keep : Bool} (hu : Ascending u) {n : ℕ} (hn : (n : ℤ) + 1 ≤ stop) (s : StE σ) (h : u.hMin ≤ n + 1) :
    loopE crps u data stop keep fit (n + 1) s =
      match (fit s.kept (n + 1) (min (n + 1) u.hMax) (u.usePrevious && s.success)).2 with
      | .failed m => loopE crps u data stop keep fit n
          { s with kept := (fit s.kept (n + 1) (min (n + 1) u.hMax) (u.usePrevious && s.success)).1, errors := addError s.errors m }
      | .ub => .ub
      | .diverges => .diverges
      | .done p =>
        (simulate crps u data p (stop - (n + 1)) (min (n + 1) u.hMax) s.results).bind fun t =>
          (keptDetails keep u (n + 1) (min (n + 1) u.hMax) t.2.1 t.2.2).bind fun d =>
          loopE crps u data stop keep fit n ⟨(fit s.kept (n + 1) (min (n + 1) u.hMax) (u.usePrevious && s.success)).1, true, t.1,
            s.counter + (within u (n + 1)).length, s.valid + 1, s.details ++ d, s.errors⟩ := by
  rw [loopE]
  dsimp only
  rw [if_neg (show ¬ (stop - ((n : ℤ) + 1) < 0) by omega), if_neg (show ¬ (min ((n : ℤ) + 1) u.hMax < u.hMin) by rw [stops_iff hu]; omega),
    if_neg (compared_ne hu h), compared_eq hu]
  rfl

theorem loopE_stop {stop : ℤ} {keep : Bool} (hu : Ascending u) {n : ℕ} (s : StE σ) (h : n = 0 ∨ (n : ℤ) < u.hMin) :
    loopE crps u data stop keep fit n s = .ok s := by
  cases n with
  | zero => rw [loopE]
  | succ n =>
    have h' : ((n : ℤ) + 1) < u.hMin := not_le.1 (not_stop h)
    rw [loopE]
    dsimp only
    by_cases h1 : stop - ((n : ℤ) + 1) < 0
    · rw [if_pos h1]
    · rw [if_neg h1, if_pos ((stops_iff hu _).2 h')]

theorem addError_count (errors : String → ℕ) (m x : String) (f : List String) :
    addError errors m x + (if x = "" then 0 else f.count x) = errors x + (if x = "" then 0 else (m :: f).count x) := by
  unfold addError
  by_cases hm : m = ""
  · rw [if_pos hm]
    by_cases hx : x = ""
    · rw [if_pos hx, if_pos hx]
    · rw [if_neg hx, if_neg hx, List.count_cons_of_ne (by rw [hm]; exact fun h => hx h.symm)]
  · rw [if_neg hm]
    by_cases hx : x = m
    · subst hx
      rw [if_pos rfl, if_neg hm, if_neg hm, List.count_cons_self]; omega
    · rw [if_neg hx]
      by_cases hx0 : x = ""
      · rw [if_pos hx0, if_pos hx0]
      · rw [if_neg hx0, if_neg hx0, List.count_cons_of_ne (fun h => hx h.symm)]

theorem loopE_ran {stop : ℤ} {keep : Bool} (hu : Ascending u) : ∀ (n : ℕ) (_ : n = 0 ∨ (n : ℤ) ≤ stop) (s s' : StE σ),
    loopE crps u data stop keep fit n s = .ok s' →
    ∃ g f, Ran u fit n s.kept s.success g f ∧ s'.valid = s.valid + g.length ∧ s'.counter = s.counter + comparisons u g ∧
      (∀ m, s'.errors m = s.errors m + if m = "" then 0 else f.count m) ∧ sums crps u data stop g s.results = .ok s'.results ∧
      s'.details = s.details ++ if keep then g.flatMap (kept u data stop) else []
  | 0, _, s, s', h => by
    rw [loopE_stop hu s (Or.inl rfl)] at h
    obtain rfl := Outcome.ok.inj h
    exact ⟨[], [], .stop (Or.inl rfl), rfl, rfl, by simp, by rw [sums], by cases keep <;> simp⟩
  | n + 1, hn, s, s', h => by
    have hn' : (n : ℤ) + 1 ≤ stop := by
      have := hn.resolve_left (by omega)
      push_cast at this
      omega
    by_cases hm : u.hMin ≤ n + 1
    · rw [loopE_step hu hn' s hm] at h
      cases hf : fit s.kept (n + 1) (min (n + 1) u.hMax) (u.usePrevious && s.success) with
      | mk q r =>
        rw [hf] at h
        cases r with
        | failed m =>
          obtain ⟨g, f, k1, k2, k3, k4, k5, k6⟩ := loopE_ran hu n (Or.inr (by omega)) _ s' h
          refine ⟨g, m :: f, .failed hm hf k1, k2, k3, fun x => ?_, k5, k6⟩
          rw [k4]
          exact addError_count s.errors m x f
        | ub => cases h
        | diverges => cases h
        | done p =>
          dsimp only at h
          obtain ⟨t, h1, h⟩ := bind_ok h
          obtain ⟨d, h2, h⟩ := bind_ok h
          obtain ⟨g, f, k1, k2, k3, k4, k5, k6⟩ := loopE_ran hu n (Or.inr (by omega)) _ s' h
          refine ⟨_ :: g, f, .done hm hf k1, ?_, ?_, k4, ?_, ?_⟩
          · rw [k2, List.length_cons]; dsimp only; omega
          · rw [k3]
            unfold comparisons
            rw [List.map_cons, List.sum_cons]
            dsimp only
            push_cast
            omega
          · rw [sums]
            push_cast
            rw [h1]
            exact k5
          · rw [k6]
            dsimp only
            unfold keptDetails at h2
            cases keep with
            | false =>
              rw [if_neg (by simp)] at h2
              rw [if_neg (by simp), if_neg (by simp), ← Outcome.ok.inj h2, List.append_nil]
            | true =>
              rw [if_pos rfl] at h2
              rw [if_pos rfl, if_pos rfl]
              obtain ⟨-, f1, -⟩ := simulate_parts h1
              have h2' : allDetails u ((n : ℤ) + 1) (min ((n : ℤ) + 1) u.hMax) t.2.1 t.2.2 (List.range u.metrics.length) = .ok d := h2
              rw [allDetails_list hu f1] at h2'
              rw [← Outcome.ok.inj h2', List.flatMap_cons, List.append_assoc]
              unfold kept
              push_cast
              rfl
    · have hs : (n + 1) = 0 ∨ ((n + 1 : ℕ) : ℤ) < u.hMin := Or.inr (by push_cast; omega)
      rw [loopE_stop hu s hs] at h
      obtain rfl := Outcome.ok.inj h
      exact ⟨[], [], .stop hs, rfl, rfl, by simp, by rw [sums], by cases keep <;> simp⟩


/-! ## The sample -/

/-- **C132.** The sample of the extended version is the largest window in which all variables are observed: some variable has no observation before it and some
variable none after it. -/
theorem C132_window {m : Mat (Val ℝ)} {work : List (Val ℝ)} (w : m.Wf) (hmax : m.rows ≤ intMax) {S E : ℤ} (h : window m work = .ok (S, E)) :
    0 ≤ S ∧ S ≤ E ∧ E < m.rows ∧ (∀ k t, 0 ≤ k → k < m.cols → S ≤ t → t ≤ E → ObsT false m k t) ∧
      (∃ k, 0 ≤ k ∧ k < m.cols ∧ ∀ t, 0 ≤ t → t < S → ¬ ObsT false m k t) ∧
      (∃ k, 0 ≤ k ∧ k < m.cols ∧ ∀ t, E < t → t < m.rows → ¬ ObsT false m k t) := by
  unfold window at h
  obtain ⟨d0, h1, h⟩ := bind_ok h
  obtain ⟨d, h2, h⟩ := bind_ok h
  obtain ⟨o, h3, h⟩ := bind_ok h
  by_cases hg : d.hasMissing = true
  · rw [if_pos hg] at h; cases h
  rw [if_neg hg] at h
  by_cases hse : o.1 > o.2.1
  · rw [if_pos hse] at h; cases h
  rw [if_neg hse] at h
  have hSE := Outcome.ok.inj h
  unfold DsTs.make at h1
  by_cases hd : m.cols ≤ 0 ∨ m.rows ≤ 0
  · rw [if_pos hd] at h1; cases h1
  rw [if_neg hd] at h1
  obtain rfl := Outcome.ok.inj h1
  have hT : 0 < nTime false m := by unfold nTime; rw [if_neg (by simp)]; omega
  have hnT : nTime false m = m.rows := rfl
  have hnS : nSer false m = m.cols := rfl
  obtain ⟨c1, c2⟩ := C45_ranges false (⟨true, false, m.rows * m.cols, ⟨0, 0, none⟩, [], false⟩ : DsTs ℝ) rfl rfl m w hT
  by_cases hall : ∀ k, 0 ≤ k → k < nSer false m → ∃ t, 0 ≤ t ∧ t < nTime false m ∧ ObsT false m k t
  swap
  · exfalso
    rw [c1 (by
      push Not at hall
      obtain ⟨k, h0, h1, h2⟩ := hall
      exact ⟨k, h0, h1, by push Not; exact h2⟩)] at h2
    cases h2
  obtain ⟨d', e', hp, hhn, hsl, -, hlen, hrange, hmiss⟩ := c2 hall
  rw [e'] at h2
  obtain rfl := Outcome.ok.inj h2
  have hno : ∀ k, 0 ≤ k → k < m.cols → ¬ Gap false m k := fun k k0 k1 hgap => hg (hmiss.2 ⟨k, k0, k1, hgap⟩)
  have hbig : (o.1, o.2.1) = d'.ranges.foldl bigStep (0, intMax) := by
    unfold DsTs.update at h3
    rw [if_neg (by rw [hsl]; simp), if_pos hhn] at h3
    obtain ⟨se, h4, h3⟩ := bind_ok h3
    have h4' : Outcome.ok (d'.ranges.foldl bigStep (0, intMax)) = .ok se := h4
    rw [if_neg (by simp)] at h3
    obtain ⟨out, h5, h3⟩ := bind_ok h3
    rw [← Outcome.ok.inj h3, Outcome.ok.inj h4']
  have hne : d'.ranges ≠ [] := by
    intro hnil
    rw [hnil, List.length_nil] at hlen
    rw [hnS] at hlen
    have : m.cols ≤ 0 := by rw [← hlen]; simp
    omega
  have hof : ∀ r ∈ d'.ranges, ∃ k : ℤ, 0 ≤ k ∧ k < m.cols ∧ RangeOf false m k r := by
    intro r hr
    obtain ⟨k, hk⟩ := List.getElem?_of_mem hr
    have hlt := lt_length_of_some hk
    exact ⟨k, by omega, by rw [← hnS, ← hlen]; omega, hrange k r hk⟩
  have hto : ∀ k : ℤ, 0 ≤ k → k < m.cols → ∃ r ∈ d'.ranges, RangeOf false m k r := by
    intro k k0 k1
    have hlt : k.toNat < d'.ranges.length := by rw [← hnS, ← hlen] at k1; omega
    refine ⟨d'.ranges[k.toNat], List.getElem_mem hlt, ?_⟩
    have := hrange k.toNat _ (List.getElem?_eq_getElem hlt)
    rwa [show ((k.toNat : ℕ) : ℤ) = k by omega] at this
  have hw := window_of_fold d'.ranges hne fun r hr => by
    obtain ⟨k, -, -, hk⟩ := hof r hr
    have := hk.start_nonneg
    have := hk.lt
    rw [hnT] at this
    omega
  rw [← hbig, hSE] at hw
  have hSEle : S ≤ E := by
    have e1 := congrArg Prod.fst hSE
    have e2 := congrArg Prod.snd hSE
    dsimp only at e1 e2
    omega
  obtain ⟨r1, hr1, hS⟩ := hw.start_at
  obtain ⟨r2, hr2, hE⟩ := hw.stop_at
  obtain ⟨k1, a1, b1, R1⟩ := hof r1 hr1
  obtain ⟨k2, a2, b2, R2⟩ := hof r2 hr2
  dsimp only at hS hE
  have hS0 : 0 ≤ S := by rw [← hS]; exact R1.start_nonneg
  have hEr : E < m.rows := by rw [← hE]; exact R2.lt
  refine ⟨hS0, hSEle, hEr, ?_, ⟨k1, a1, b1, fun t t0 t1 ho => ?_⟩, ⟨k2, a2, b2, fun t t0 t1 ho => ?_⟩⟩
  · intro k t k0 k1' ts te
    obtain ⟨r, hr, R⟩ := hto k k0 k1'
    obtain ⟨g1, g2⟩ := hw.ge r hr
    by_cases hs1 : t = r.start
    · rw [hs1]; exact R.obs_start
    by_cases hs2 : t = r.stop
    · rw [hs2]; exact R.obs_stop
    obtain ⟨s, es, hs⟩ := seriesAt_ok false m w k k0 k1'
    have hlen' := hs.len
    rw [hnT] at hlen'
    have hlt : t.toNat < s.length := by omega
    have hv := (hs.val t.toNat _).1 (List.getElem?_eq_getElem hlt)
    rw [show ((t.toNat : ℕ) : ℤ) = t by omega] at hv
    cases hx : s[t.toNat] with
    | some x => exact ⟨x, by rw [hv.2, hx]⟩
    | none =>
      exfalso
      refine hno k k0 k1' ⟨r.start, t, r.stop, R.start_nonneg, by omega, by omega, R.lt, R.obs_start, R.obs_stop, ?_⟩
      rw [hv.2, hx]
  · have := (R1.tight t t0 (by rw [hnT]; omega) ho).1
    omega
  · have := (R2.tight t (by omega) (by rw [hnT]; omega) ho).2
    omega

/-! ## The results -/

variable {T : ℤ} {m : Mat (Val ℝ)} {work : List (Val ℝ)} {keep : Bool} {q : σ}

theorem calculateE_parts (hu : Ascending u) (w : m.Wf) (hmax : m.rows ≤ intMax) {r : ResultE} (h : calculateE crps u T m work keep fit q = .ok r) :
    u.count ≠ 0 ∧ u.count < T ∧ ∃ S E, window m work = .ok (S, E) ∧ u.count < E - S + 1 ∧ ∃ g f t, Ran u fit u.count.toNat q false g f ∧
      r.valid = g.length ∧ (∀ x, r.errors x = if x = "" then 0 else f.count x) ∧ sums crps u (table m) E g (zeros u) = .ok t ∧
      r.details = (if keep then g.flatMap (kept u (table m) E) else []) ∧ r.results = averages u (comparisons u g) t := by
  unfold calculateE at h
  obtain ⟨u', h1, h⟩ := bind_ok h
  obtain ⟨e0, h2, h3, -⟩ := make_ok h1
  subst u'
  obtain ⟨⟨S, E⟩, h4, h⟩ := bind_ok h
  dsimp only at h
  by_cases hd : E - S + 1 - u.count ≤ 0
  · rw [if_pos hd] at h; cases h
  rw [if_neg hd] at h
  by_cases he : m.cols < u.eqs
  · rw [if_pos he] at h; cases h
  rw [if_neg he] at h
  obtain ⟨s, h5, h⟩ := bind_ok h
  obtain ⟨w1, w2, w3, -⟩ := C132_window w hmax h4
  obtain ⟨g, f, k1, k2, k3, k4, k5, k6⟩ := loopE_ran hu _ (Or.inr (by omega)) _ _ h5
  obtain rfl := Outcome.ok.inj h
  dsimp only at k1 k2 k3 k4 k5 k6
  refine ⟨h2, h3, S, E, h4, by omega, g, f, s.results, k1, by simpa using k2, fun x => by simpa using k4 x, k5, by simpa using k6, ?_⟩
  dsimp only
  rw [k3, zero_add]

/-- **C132.** The extended version: what is counted, and the messages of the simulations that failed. (Nothing is thrown when all fail.) -/
theorem C132_extended (hu : Ascending u) (w : m.Wf) (hmax : m.rows ≤ intMax) {r : ResultE} (h : calculateE crps u T m work keep fit q = .ok r) :
    u.count ≠ 0 ∧ u.count < T ∧ ∃ S E, window m work = .ok (S, E) ∧ u.count ≤ E - S ∧ ∃ g f, Ran u fit u.count.toNat q false g f ∧
      r.valid = g.length ∧ (∀ x, x ≠ "" → r.errors x = f.count x) := by
  obtain ⟨h1, h2, S, E, h3, h4, g, f, t, k1, k2, k3, -⟩ := calculateE_parts hu w hmax h
  exact ⟨h1, h2, S, E, h3, by omega, g, f, k1, k2, fun x hx => by rw [k3 x, if_neg hx]⟩

/-- **C132.** The details, if they are kept, are all comparisons, once for each metric. -/
theorem C132_extended_details (hu : Ascending u) (w : m.Wf) (hmax : m.rows ≤ intMax) {r : ResultE} (h : calculateE crps u T m work keep fit q = .ok r)
    {S E : ℤ} (hw : window m work = .ok (S, E)) {g f} (hg : Ran u fit u.count.toNat q false g f) :
    r.details = if keep then g.flatMap (kept u (table m) E) else [] := by
  obtain ⟨h1, h2, S', E', h3, h4, g', f', t, k1, k2, k3, k4, k5, k6⟩ := calculateE_parts hu w hmax h
  rw [hw] at h3
  cases h3
  obtain ⟨rfl, rfl⟩ := hg.unique k1
  exact k5

/-- **C132.** The scores of the extended version: those of the mean loss over all comparisons, the last period being the last of the sample. -/
theorem C132_extended_scores (hu : Ascending u) (w : m.Wf) (hmax : m.rows ≤ intMax) {r : ResultE} (h : calculateE crps u T m work keep fit q = .ok r)
    {S E : ℤ} (hw : window m work = .ok (S, E)) {g f} (hg : Ran u fit u.count.toNat q false g f) (hne : g ≠ []) {i j : ℕ} {e : Sco}
    (he : u.metrics[i]? = some e) (hi : Implemented e) (hj : j < u.eqs) {C : List Comparison}
    (hC : List.Forall₂ (fun x k => Point.Is x (e = .crps) k) (points u (table m) E j g) C) {c : ℝ → ℝ → ℝ}
    (hc : e = .crps → ∀ k ∈ C, crps (.num (k.actual - k.forecast)) (.num k.std) = .ok (.num (c (k.actual - k.forecast) k.std)))
    (hy : e = .mape ∨ e = .rmspe → ∀ k ∈ C, 0 < k.actual) :
    cell r.results i j = some (.num (scored e (mean (C.map (loss c e))))) := by
  obtain ⟨h1, h2, S', E', h3, h4, g', f', t, k1, k2, k3, k4, k5, k6⟩ := calculateE_parts hu w hmax h
  rw [hw] at h3
  cases h3
  obtain ⟨rfl, rfl⟩ := hg.unique k1
  rw [k6]
  exact scores_num hu k4 ((comparisons_pos hu hg).2 hne) he hi hj hC hc hy

/-- **C132.** If every simulation fails the scores are NaN. -/
theorem C132_extended_none (hu : Ascending u) (w : m.Wf) (hmax : m.rows ≤ intMax) {r : ResultE} (h : calculateE crps u T m work keep fit q = .ok r)
    (h0 : r.valid = 0) {i j : ℕ} {e : Sco} (he : u.metrics[i]? = some e) (hj : j < u.eqs) : cell r.results i j = some .nan := by
  obtain ⟨h1, h2, S', E', h3, h4, g, f, t, k1, k2, k3, k4, k5, k6⟩ := calculateE_parts hu w hmax h
  have hnil : g = [] := List.eq_nil_of_length_eq_zero (by omega)
  subst hnil
  rw [sums] at k4
  rw [k6, ← Outcome.ok.inj k4, cell_averages he (cell_zeros he hj)]
  have : (exact : Ops ℝ).div (.num 0) (.num (comparisons u ([] : List (ℤ × Fit)) : ℝ)) = .nan := by
    show (if _ then _ else _) = _
    simp [comparisons]
  rw [this, finish_nan]

/-- **C132.** With the scores of normal distributions: the mean of the continuous ranked probability scores of the forecasts. -/
theorem C132_crps {S : Di.Fns} (hS : S.Good) (hu : Ascending u) {maxInvalid : ℤ} {r : Result}
    (h : calculate (Crps.crpsError S) u T data fit maxInvalid q = .ok r) {g f}
    (hg : Ran u fit u.count.toNat q false g f) {i j : ℕ} (he : u.metrics[i]? = some .crps) (hj : j < u.eqs)
    {C : List Comparison} (hC : List.Forall₂ (fun x k => Point.Is x True k) (points u data ((data.length : ℤ) - 1) j g) C) (h0 : ∀ k ∈ C, 0 ≤ k.std) :
    ∃ V : List ℝ, List.Forall₂ (fun k v => Crps.IsScore (Crps.normal k.forecast k.std) k.actual v) C V ∧ cell r.results i j = some (.num (mean V)) := by
  classical
  let c : ℝ → ℝ → ℝ := fun e s => if hh : 0 ≤ s then (Crps.crpsError_num hS e hh).choose else 0
  have hc : ∀ e s, 0 ≤ s → Crps.crpsError S (.num e) (.num s) = .ok (.num (c e s)) ∧ Crps.IsScore (Crps.normal 0 s) e (c e s) := fun e s hh => by
    show _ = Outcome.ok (Dbl.num (if hh : 0 ≤ s then _ else _)) ∧ Crps.IsScore _ _ (if hh : 0 ≤ s then _ else _)
    rw [dif_pos hh]
    exact (Crps.crpsError_num hS e hh).choose_spec
  have := C132_scores (C := C) (c := c) hu h hg he (by simp [Implemented]) hj (hC.imp fun x k hx => ⟨hx.1, hx.2.1, hx.2.2.1, fun _ => hx.2.2.2 trivial⟩)
    (fun _ k hk => (hc _ _ (h0 k hk)).1) (fun hh => by rcases hh with hh | hh <;> cases hh)
  refine ⟨C.map (loss c .crps), ?_, this⟩
  rw [List.forall₂_map_right_iff, List.forall₂_same]
  intro k hk
  exact Crps.score_shift (hc _ _ (h0 k hk)).2

end

/-! ## Example -/

/-- The series of the example of `calculate`, with a missing first period. -/
noncomputable def sheet : Mat (Val ℝ) := ⟨5, 1, some [none, some 1, some 2, some 4, some 8]⟩

/-- Forecasts that are the last observation; the first simulation fails. -/
noncomputable def shy : Estimator Unit := fun _ se H _ =>
  if se = 2 then ((), .failed "singular") else ((), .done ⟨1, List.replicate (H.toNat + 1) (fun _ => .num 4), []⟩)

/-- One simulation fails, the other compares 8 with 4. -/
example (crps : Dbl ℝ → Dbl ℝ → Outcome (Dbl ℝ)) : ∃ r, calculateE crps (plan [1, 2]) 5 sheet (List.replicate 5 none) true shy () = .ok r ∧
    r.valid = 1 ∧ r.errors "singular" = 1 ∧ r.details.length = 1 :=
  ⟨_, rfl, rfl, rfl, rfl⟩

end Vs
end LDT
