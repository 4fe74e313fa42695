import Verif.Lemmas.SurTables
/-! # C126: a model of a search over systems of regressions -/
namespace LDT
namespace Su
open Mx Op Ls Score
open Dc (bind_ok)
open Arr (Val)
open Matrix

/-- **C126.** The memory that the constructor asks for holds everything that a call lays over it: the sample, the storage of the model, and the work array of
the model or the storage and work array of the simulations. -/
theorem C126_memory (u : SsSetup) {rows : ℤ} {m k : ℕ} {z : SsSizes} (h : ssConstruct u rows m k = .ok z) :
    0 < rows ∧ 0 < m + k ∧ z.data = rows * (m + k) ∧ ∀ l ∈ ssBlocks z, l.sum ≤ z.work := by
  unfold ssConstruct at h
  dsimp only at h
  obtain ⟨ds, h1, h⟩ := bind_ok h
  obtain rfl := Outcome.ok.inj h
  unfold Dataset.make at h1
  split_ifs at h1 with hneg
  obtain rfl := Outcome.ok.inj h1
  have hss : 0 ≤ (if u.simulates = true then (m : ℤ) * (u.metrics.metricsOut.length : ℤ) else 0) := by split_ifs <;> positivity
  refine ⟨by omega, by omega, by dsimp only; ring, fun l hl => ?_⟩
  unfold ssBlocks at hl
  simp only [List.mem_cons, List.not_mem_nil, or_false] at hl
  rcases hl with rfl | rfl
  · simp only [List.sum_cons, List.sum_nil]
    have := le_max_left (if u.checks.estimation = true then extWork u.model rows m k 0 else 0) (if u.simulates = true then simWork u.sim rows m k else 0)
    linarith
  · simp only [List.sum_cons, List.sum_nil]
    have := le_max_right (if u.checks.estimation = true then extWork u.model rows m k 0 else 0) (if u.simulates = true then simWork u.sim rows m k else 0)
    linarith

section
variable {lu : List ℝ → List ℝ} {f : Fns ℝ} {u : SsSetup} {other : Outcome ExtRes} {sim : Mat ℝ → Outcome SimResult} {source : Mat (Val ℝ)}
  {dataStorage : List (Val ℝ)} {rmem storage work : List ℝ} {cancel : ℕ → Bool} {inner cur : List ℤ} {T : ℕ} {t : SsTables}

/-- What is needed for a call: columns of the data, memory, the positions of the metrics; without a search for significant coefficients. -/
structure SsReady (u : SsSetup) (source : Mat (Val ℝ)) (dataStorage : List (Val ℝ)) (storage work : List ℝ) (inner cur : List ℤ) : Prop where
  wf : source.Wf
  rows : 0 < source.rows
  cols : ∀ k ∈ inner ++ cur, 0 ≤ k ∧ k < source.cols
  data : (dataStorage.length : ℤ) = source.rows * (inner ++ cur).length
  inner_pos : 0 < inner.length
  cur_pos : 0 < cur.length
  nodup : cur.Nodup
  storage : extStorage u.model source.rows inner.length cur.length 0 ≤ storage.length
  work : extWork u.model source.rows inner.length cur.length 0 ≤ work.length
  indexed : Dc.Indexed u.metrics
  plain : u.maxIter = 0

/-- The steps of a call that is not cancelled. -/
theorem ss_parts {cols : List ℤ}
    (h : ssEstimate lu f u other sim source dataStorage rmem storage work cancel inner cols cur T = .ok (t, false)) :
    ∃ ds m est t1 t2, Dataset.make source.rows cols.length true true = .ok ds ∧ ds.calculate Option.isNone source (some cols) dataStorage = .ok m ∧
      ssEstimated lu f u other source.rows inner.length cur.length m rmem storage work = .ok est ∧ ssInIf u T est ssTables0 = .ok t1 ∧
      ssOutIf u T (sim (Dc.tableOf m)) t1 = .ok t2 ∧ ssCoefs u T est cur t2 = .ok t := by
  unfold ssEstimate at h
  obtain ⟨ds, h1, h⟩ := bind_ok h
  obtain ⟨m, h2, h⟩ := bind_ok h
  obtain ⟨est, h3, h⟩ := bind_ok h
  obtain ⟨t1, h4, h⟩ := bind_ok h
  by_cases c0 : cancel 0 = true
  · rw [if_pos c0] at h; cases h
  rw [if_neg c0] at h
  obtain ⟨t2, h5, h⟩ := bind_ok h
  by_cases c1 : cancel 1 = true
  · rw [if_pos c1] at h; cases h
  rw [if_neg c1] at h
  obtain ⟨t3, h6, h⟩ := bind_ok h
  have : t3 = t := congrArg Prod.fst (Outcome.ok.inj h)
  subst this
  exact ⟨ds, m, est, t1, t2, h1, h2, h3, h4, h5, h6⟩

/-- The call throws if the estimation does. -/
theorem ss_throws {cols : List ℤ} {ds : Dataset} {m : Mat (Val ℝ)} (h1 : Dataset.make source.rows cols.length true true = .ok ds)
    (h2 : ds.calculate Option.isNone source (some cols) dataStorage = .ok m)
    (h3 : ssEstimated lu f u other source.rows inner.length cur.length m rmem storage work = .throws) :
    ssEstimate lu f u other sim source dataStorage rmem storage work cancel inner cols cur T = .throws := by
  unfold ssEstimate
  rw [h1, Outcome.ok_bind, h2, Outcome.ok_bind, h3]
  rfl

/-- The rows of the metrics of the simulations do not touch the others. -/
theorem ssOutIf_ok (hx : Dc.Indexed u.metrics) {r : Outcome SimResult} {t1 t2 : SsTables} (h : ssOutIf u T r t1 = .ok t2) :
    t2.mean = t1.mean ∧ t2.variance = t1.variance ∧ (∀ i < u.metrics.metricsIn.length, ∀ j, t2.metric i j = t1.metric i j) ∧
    (u.simulates = true → ∃ q, r = .ok q ∧ ∀ e, Implemented e → ∀ i : ℕ, u.metrics.indexOut e = some (i : ℤ) → ∀ j < T,
      ∃ x, cell q.results i j = some x ∧ t2.metric (u.metrics.metricsIn.length + i) j = Srch.toVal x) ∧
    ∀ i j : ℕ, (∀ e, Implemented e → u.metrics.indexOut e ≠ some (i : ℤ)) →
      t2.metric (u.metrics.metricsIn.length + i) j = t1.metric (u.metrics.metricsIn.length + i) j := by
  unfold ssOutIf at h
  by_cases hs : u.simulates = true
  · rw [if_pos hs] at h
    obtain ⟨q, h1, h⟩ := bind_ok h
    obtain ⟨a1, a2, a3, a4⟩ := ssOut_ok hx ssScores t1 t2 (by decide) h
    refine ⟨a1, a2, fun i hi j => a4 i j fun e _ k _ => by omega, fun _ => ⟨q, h1, fun e he i hi j hj => ?_⟩, fun i j hi => a4 _ j fun e he k hk => ?_⟩
    · obtain ⟨v, b1, b2, b3⟩ := a3 e he i hi
      have hv : v[j]? = some (v[j]'(by omega)) := List.getElem?_eq_getElem _
      refine ⟨v[j]'(by omega), ?_, ?_⟩
      · unfold cell
        rw [b1]
        exact hv
      · rw [b3 j hj, List.getD_eq_getElem?_getD, hv]
        rfl
    · intro hh
      have : i = k := by omega
      subst this
      exact hi e he hk
  · rw [if_neg hs] at h
    obtain rfl := Outcome.ok.inj h
    exact ⟨rfl, rfl, fun _ _ _ => rfl, fun hh => absurd hh hs, fun _ _ _ => rfl⟩

/-- The cells of the tables for the coefficients `B` with the variances `V` and the criteria `A` and `C`; `T` columns. -/
structure SystemCells (u : SsSetup) (cur : List ℤ) (T : ℕ) {m : ℕ} (B V : Matrix (Fin cur.length) (Fin m) ℝ) (A C : Dbl ℝ) (t : SsTables) : Prop where
  aic : ∀ i : ℕ, u.metrics.indexIn .aic = some (i : ℤ) → ∀ j < T, t.metric i j = Srch.toVal A
  sic : ∀ i : ℕ, u.metrics.indexIn .sic = some (i : ℤ) → ∀ j < T, t.metric i j = Srch.toVal C
  coef : 0 < u.length1 → ∀ (l : Fin cur.length) (j : Fin m), (j : ℕ) < T → u.numEndo ≤ cur.get l ∧ cur.get l < u.numEndo + u.length1 ∧
    t.mean (cur.get l - u.numEndo).toNat j = some (B l j) ∧ t.variance (cur.get l - u.numEndo).toNat j = some (V l j)
  others : ∀ (k j : ℕ), (k : ℤ) + u.numEndo ∉ cur ∨ u.length1 = 0 → t.mean k j = none

theorem get_get0 {α : Type} {m : Mat α} {i j : ℤ} {v : α} (h : m.get i j = .ok v) : m.get0 i j = .ok v := by
  unfold Mat.get at h
  split_ifs at h
  exact h

/-- **C126.** A model of the search, without a search for significant coefficients: the sample are the complete rows of its columns. The call throws if there are
not enough observations, if the system cannot be estimated, or if a criterion is beyond its limit. Otherwise, if it is not cancelled and the
simulations succeed, AIC and SIC are those of the least squares system, and so are the coefficients and variances of the selected variables in each
column; the other variables have no coefficient. -/
theorem C126_estimate (R : SsReady u source dataStorage storage work inner cur) (he : u.checks.estimation = true) (hf : SquareRoot f) :
    ∃ kept Y X, SystemSample source inner cur kept Y X ∧
    (¬ (EnoughObs (some u.checks) kept.length cur.length ∧ Estimable true Y X) →
      ssEstimate lu f u other sim source dataStorage rmem storage work cancel inner (inner ++ cur) cur T = .throws) ∧
    (EnoughObs (some u.checks) kept.length cur.length → Estimable true Y X → ∃ B G a b,
      (∀ B', LeastSquares Y X B' ↔ B' = B) ∧ G * (Xᵀ * X) = 1 ∧ GreatestColumn (Xᵀ * X) a ∧ GreatestColumn G b ∧
      let S := cov (left Y X B)
      let A := Akaike kept.length (inner.length * cur.length) S
      let C := Schwarz kept.length (inner.length * cur.length) S
      let D := Determination Y (left Y X B)
      (¬ Accepted (some u.checks) (.num (a * b)) A C D →
        ssEstimate lu f u other sim source dataStorage rmem storage work cancel inner (inner ++ cur) cur T = .throws) ∧
      (Accepted (some u.checks) (.num (a * b)) A C D →
        (u.simulates = false → cancel 0 = false → cancel 1 = false → T ≤ inner.length →
          (0 < u.length1 → ∀ b ∈ cur, u.numEndo ≤ b ∧ b < u.numEndo + u.length1) →
          ∃ t, ssEstimate lu f u other sim source dataStorage rmem storage work cancel inner (inner ++ cur) cur T = .ok (t, false)) ∧
        ∀ t, ssEstimate lu f u other sim source dataStorage rmem storage work cancel inner (inner ++ cur) cur T = .ok (t, false) →
          SystemCells u cur T B (fun l j => S j j * G l l) A C t)) := by
  have hlen : 0 < (inner ++ cur).length := by rw [List.length_append]; have := R.inner_pos; omega
  obtain ⟨ds, m, kept, d1, d2, k1, k3, k4, k5⟩ := read_sample R.wf R.cols R.data R.rows hlen
  obtain ⟨Y, X, hs⟩ := system_exists k1
  have hR : u.R ((cur.length : ℤ) * inner.length) rmem = none := by unfold SsSetup.R; rw [R.plain]; rfl
  have hopt : u.model = ⟨false, false, true, 0, false⟩ := by unfold SsSetup.model; rw [R.plain]; rfl
  have hfit : ssEstimated lu f u other source.rows inner.length cur.length m rmem storage work =
      (do let e ← extended lu f u.model source.rows inner.length cur.length 0 other m inner.length none u.maxProb none (some u.checks) storage work
          pure (some e)) := by
    unfold ssEstimated
    rw [if_pos he, hR]
  refine ⟨kept, Y, X, hs, ?_⟩
  rcases Nat.eq_zero_or_pos kept.length with h0 | h0
  · have hx : extended lu f u.model source.rows inner.length cur.length 0 other m inner.length none u.maxProb none (some u.checks) storage work = .throws :=
      extended_empty (k := cur.length) (by rw [k3, h0]; rfl) (by rw [k4, List.length_append]; push_cast; rfl) rfl R.plain
    refine ⟨fun _ => ss_throws d1 d2 (by rw [hfit, hx]; rfl), fun _ hes => ?_⟩
    have := hes.1
    omega
  have hmade : Made u.model source.rows inner.length cur.length 0 m inner.length cur.length none storage work :=
    ⟨read_wf k1 k3 k4 k5 h0 hlen, by rw [k3]; omega, by rw [k3]; exact kept_le R.wf k1, R.inner_pos, R.cur_pos, le_refl _, le_refl _,
      le_refl _, R.storage, R.work⟩
  obtain ⟨c1, c2⟩ := estimate_rows lu f (other := other) (maxProb := u.maxProb) (checks := some u.checks) (n := 0) (Z := fun i _ => i.elim0) hmade (by rw [hopt]) (by rw [hopt])
    (by rw [hopt]) (read_system k3 k4 k5 hs) (show NewRows none _ from rfl)
  have hd : u.model.details = true := by rw [hopt]
  rw [hd] at c1 c2
  refine ⟨fun hn => ss_throws d1 d2 (by rw [hfit, c1 hn]; rfl), fun ho hes => ?_⟩
  obtain ⟨B, G, a, b, ls, hG, ha, hb, c3⟩ := c2 ho hes
  refine ⟨B, G, a, b, ls, hG, ha, hb, ?_⟩
  obtain ⟨c4, c5⟩ := c3
  refine ⟨fun hn => ss_throws d1 d2 (by rw [hfit, c4 hn]; rfl), fun hac => ?_⟩
  obtain ⟨r, hr, hheld, -, haic, hsic, -⟩ := c5 hac
  have hest : ssEstimated lu f u other source.rows inner.length cur.length m rmem storage work = .ok (some r) := by rw [hfit, hr]; rfl
  have hrep := hheld.report
  rw [if_pos rfl] at hrep
  obtain ⟨d, g, hdet, hrp, -, -⟩ := hrep
  have hbeta : ∀ (l : Fin cur.length) (j : Fin inner.length), r.res.est.beta.get0 ((l : ℕ) : ℤ) ((j : ℕ) : ℤ) = .ok (B l j) := fun l j =>
    get_get0 (get_isM hheld.fitted.beta l j)
  have hstd : ∀ (l : Fin cur.length) (j : Fin inner.length), ∃ s, d.std.get0 ((l : ℕ) : ℤ) ((j : ℕ) : ℤ) = .ok s ∧
      square s = some (cov (left Y X B) j j * G l l) := fun l j => by
    obtain ⟨s, t, p, q1, -, -, q2⟩ := hrp l j
    refine ⟨s, get_get0 q1, ?_⟩
    obtain ⟨w, w1, w2⟩ := hf (cov (left Y X B) j j * G l l) (mul_nonneg (cov_diag _ _) (inverse_diag hG l))
    cases q2 with
    | regular s h1 h2 => rw [w1] at h1; rw [← Option.some.inj h1]; exact congrArg some w2
    | certain h1 h2 => rw [w1] at h1; rw [← Option.some.inj h1]; exact congrArg some w2
    | nothing h1 h2 => rw [w1] at h1; rw [← Option.some.inj h1]; exact congrArg some w2
    | undefined h1 => rw [w1] at h1; cases h1
  refine ⟨fun hsim cc0 cc1 hT hin => ?_, fun t ht => ?_⟩
  · obtain ⟨t1, h1⟩ := ssIn_exists (T := T) (e := r) (t := ssTables0) R.indexed
    have h2 : ssOutIf u T (sim (Dc.tableOf m)) t1 = .ok t1 := by unfold ssOutIf; rw [hsim]; rfl
    obtain ⟨t2, h3⟩ : ∃ t2, ssCoefs u T (some r) cur t1 = .ok t2 := by
      unfold ssCoefs
      dsimp only
      by_cases hl : u.length1 > 0
      · rw [if_pos hl, hdet]
        refine coefColumns_exists (fun b hb => by have := hin hl b hb; omega) _ _ fun j hj l hl => ?_
        have hj' := List.mem_range.1 hj
        obtain ⟨s, q, -⟩ := hstd ⟨l, hl⟩ ⟨j, by omega⟩
        exact ⟨_, s, hbeta ⟨l, hl⟩ ⟨j, by omega⟩, q⟩
      · rw [if_neg hl]; exact ⟨_, rfl⟩
    refine ⟨t2, ?_⟩
    unfold ssEstimate
    rw [d1, Outcome.ok_bind, d2, Outcome.ok_bind, hest, Outcome.ok_bind]
    show (ssIn u T r ssTables0 >>= _) = _
    rw [h1, Outcome.ok_bind, cc0, if_neg (by simp), h2, Outcome.ok_bind, cc1, if_neg (by simp), h3]
    rfl
  · obtain ⟨ds', m', est, t1, t2, p1, p2, p3, p4, p5, p6⟩ := ss_parts ht
    rw [d1] at p1
    obtain rfl := Outcome.ok.inj p1
    rw [d2] at p2
    obtain rfl := Outcome.ok.inj p2
    rw [hest] at p3
    obtain rfl := Outcome.ok.inj p3
    obtain ⟨i1, i2, i3, i4, i5⟩ := ssIn_ok R.indexed (show ssIn u T r ssTables0 = .ok t1 from p4)
    obtain ⟨o1, o2, o3, o4, o5⟩ := ssOutIf_ok R.indexed p5
    unfold ssCoefs at p6
    dsimp only at p6
    rw [hdet] at p6
    have hm0 : t2.mean = fun _ _ => none := by rw [o1, i1]; rfl
    have hin : ∀ {g : Gof} {i : ℕ}, u.metrics.indexIn g = some (i : ℤ) → i < u.metrics.metricsIn.length := fun hi => by
      exact_mod_cast Dc.position_lt (Dc.indexed_in R.indexed hi)
    by_cases hl : u.length1 > 0
    · rw [if_pos hl] at p6
      obtain ⟨w1, w2, w3⟩ := coefColumns_ok R.nodup (List.range T) t2 t List.nodup_range p6
      refine ⟨fun i hi j hj => ?_, fun i hi j hj => ?_, fun _ l j hj => ?_, fun k j hk => ?_⟩
      · rw [w1, o3 i (hin hi), i3 i hi j hj, haic]; rfl
      · rw [w1, o3 i (hin hi), i4 i hi j hj, hsic]; rfl
      · obtain ⟨q0, q1, v, s, q2, q3, q4, q5⟩ := w2 j (List.mem_range.2 hj) l (cur.get l) (by rw [List.getElem?_eq_getElem l.2]; rfl)
        rw [hbeta l j] at q2
        obtain rfl := Outcome.ok.inj q2
        obtain ⟨s', e1, e2⟩ := hstd l j
        rw [q3] at e1
        obtain rfl := Outcome.ok.inj e1
        exact ⟨by omega, by omega, q4, q5.trans e2⟩
      · rcases hk with hk | hk
        · rw [(w3 k j (Or.inl hk)).1, hm0]
        · omega
    · rw [if_neg hl] at p6
      obtain rfl := Outcome.ok.inj p6
      refine ⟨fun i hi j hj => ?_, fun i hi j hj => ?_, fun h => absurd h hl, fun k j _ => by rw [hm0]⟩
      · rw [o3 i (hin hi), i3 i hi j hj, haic]; rfl
      · rw [o3 i (hin hi), i4 i hi j hj, hsic]; rfl

end
end Su
end LDT
