import Verif.Props.VarmaForecast
/-! # VARMA forecasts (C57) -/
namespace LDT
namespace Varma
open Mx Poly
variable {K : Type}

/-- The regressors of forecast column `i`. -/
theorem xtprime_spec [Zero K] {z : Sizes} (hz : z.Proper) {xt f resid : Mat K} {exo : Option (Mat K)}
    {i xInd residInd : Int} (wx : xt.Wf) (hxr : xt.rows = z.numParamsEq) (hxc : xt.cols = 1)
    (wf : f.Wf) (hfr : f.rows = z.eqsCount) (hi : z.arMax ≤ i) (hif : i < f.cols)
    (wr : resid.Wf) (hrr : resid.rows = z.eqsCount) (hma : ∀ l ∈ z.maLags, 0 ≤ residInd + i - l)
    (hex : z.exoCount ≠ 0 → ∃ e, exo = some e ∧ e.Wf ∧ e.rows = z.exoCount ∧ 0 ≤ xInd + i ∧ xInd + i < e.cols) :
    ∃ xt', xtprime z xt f resid exo i xInd residInd = .ok xt' ∧ SameShape xt xt' ∧ xt'.Wf ∧
      (∀ (c : Nat) l s, z.arLags[c]? = some l → 0 ≤ s → s < z.eqsCount →
        xt'.val (c * z.eqsCount + s) 0 = f.val s (i - l)) ∧
      (∀ k, 0 ≤ k → k < z.exoCount → xt'.val (z.arLength * z.eqsCount + k) 0 = exoVal exo k (xInd + i)) ∧
      (∀ (c : Nat) l s, z.maLags[c]? = some l → 0 ≤ s → s < z.eqsCount →
        xt'.val (z.maStart + c * z.eqsCount + s) 0 =
          if residInd + i - l < resid.cols then resid.val s (residInd + i - l) else 0) := by
  have hg := hz.eqs_pos
  have hx := hz.exo_nonneg
  obtain ⟨hA, hms, hM, hnp, hmsd⟩ := hz.cols
  have hM' : 0 ≤ (z.maLags.length : Int) * z.eqsCount := hM
  unfold xtprime
  obtain ⟨cells, ec, lc, cc⟩ := fill_spec xt.mem (xt.rows * xt.cols) 0 wx.size
  rw [ec, Outcome.ok_bind]
  have w0 : ({ xt with data := some cells } : Mat K).Wf :=
    ⟨wx.rows_nonneg, wx.cols_nonneg, rfl, by simpa [Mat.mem, lc] using wx.size⟩
  have s0 : SameShape xt ({ xt with data := some cells } : Mat K) := by
    refine ⟨rfl, rfl, ?_, lc, fun k hk => ?_⟩
    · rw [wx.alloc]; rfl
    · have h := cc k
      rw [if_neg (by omega)] at h
      change cells[k]? = _
      by_cases hk2 : k < cells.length
      · rw [List.getElem?_eq_getElem hk2, List.getElem?_eq_getElem (by omega)]
        simp only [coef] at h
        rw [List.getElem?_eq_getElem hk2, List.getElem?_eq_getElem (by omega)] at h
        simpa using h
      · rw [List.getElem?_eq_none (by omega), List.getElem?_eq_none (by omega)]
  have v0 : ∀ r, 0 ≤ r → r < xt.rows → ({ xt with data := some cells } : Mat K).val r 0 = 0 := by
    intro r h0 h1
    unfold Mat.val
    change coef cells _ = 0
    rw [cc, if_pos]
    simp only
    rw [hxc]; omega
  generalize ({ xt with data := some cells } : Mat K) = xt0 at *
  obtain ⟨x1, e1, s1, w1, c1, c1'⟩ := xtAr_spec (g := z.eqsCount) (fRow := i) wf (by omega) (by omega) z.arLags 0 xt0 w0 le_rfl
    (by rw [s0.rows, hxr]; unfold Sizes.arLength at *; omega) (by rw [s0.cols, hxc])
    (fun l h => by have := hz.ar_lag l h; omega)
  rw [e1, Outcome.ok_bind]
  simp only [zero_add] at c1 c1'
  have mid : ∃ x2, xtExo exo z.exoCount (z.arLength * z.eqsCount) (xInd + i) x1 = .ok x2 ∧ SameShape x1 x2 ∧ x2.Wf ∧
      (∀ k, 0 ≤ k → k < z.exoCount → x2.val (z.arLength * z.eqsCount + k) 0 = exoVal exo k (xInd + i)) ∧
      (∀ r, 0 ≤ r → r < xt.rows → (r < z.arLength * z.eqsCount ∨ z.maStart ≤ r) → x2.val r 0 = x1.val r 0) := by
    unfold xtExo
    by_cases h : z.exoCount > 0
    · rw [if_pos h]
      obtain ⟨e, rfl, we, her, h0, h1⟩ := hex (by omega)
      obtain ⟨x2, e2, s2, w2, c2⟩ := setSub0_val w1 we (rs := z.arLength * z.eqsCount) (cs := 0) (srs := 0)
        (scs := xInd + i) (rc := z.exoCount) (cc := 1) hA le_rfl le_rfl h0 hx (by omega)
        (by rw [s1.rows, s0.rows]; omega) (by rw [s1.cols, s0.cols]; omega) (by omega) (by omega)
      refine ⟨x2, e2, s2, w2, fun k hk0 hk => ?_, fun r hr0 hr hrr => ?_⟩
      · rw [c2 _ _ ⟨by omega, by rw [s1.rows, s0.rows]; omega, le_rfl, by rw [s1.cols, s0.cols]; omega⟩,
          if_pos (by omega)]
        unfold exoVal
        congr 1 <;> ring
      · rw [c2 _ _ ⟨by omega, by rw [s1.rows, s0.rows]; omega, le_rfl, by rw [s1.cols, s0.cols]; omega⟩,
          if_neg (by omega)]
    · rw [if_neg h]
      exact ⟨x1, rfl, SameShape.refl _, w1, fun k h0 h1 => by omega, fun _ _ _ _ => rfl⟩
  obtain ⟨x2, e2, s2, w2, c2, c2'⟩ := mid
  rw [e2, Outcome.ok_bind]
  obtain ⟨x3, e3, s3, w3, c3, c3'⟩ := xtMa_spec (g := z.eqsCount) (fRow := i) (residInd := residInd) wr (by omega) (by omega)
    z.maLags (z.arLength * z.eqsCount + z.exoCount) x2 w2 (by omega)
    (by rw [s2.rows, s1.rows, s0.rows, hxr, hnp, hmsd]) (by rw [s2.cols, s1.cols, s0.cols, hxc]) hma
  refine ⟨x3, e3, ((s0.trans s1).trans s2).trans s3, w3, ?_, ?_, ?_⟩
  · intro c l s hc hs0 hs
    have hcl := lt_length_of_some hc
    have hb := band_lt (n := z.arLength) (by omega : 0 ≤ z.eqsCount)
      (by unfold Sizes.arLength; omega : (c : Int) + 1 ≤ z.arLength) hs hs0 (by omega)
    rw [c3' _ (by omega) (by rw [s2.rows, s1.rows, s0.rows]; omega) (by omega), c2' _ (by omega) (by omega) (by omega),
      c1 c l s hc hs0 hs]
  · intro k hk0 hk
    rw [c3' _ (by omega) (by rw [s2.rows, s1.rows, s0.rows]; omega) (by omega), c2 k hk0 hk]
  · intro c l s hc hs0 hs
    have hcl := lt_length_of_some hc
    have hb := band_lt (n := z.maLags.length) (by omega : 0 ≤ z.eqsCount)
      (by omega : (c : Int) + 1 ≤ z.maLags.length) hs hs0 (by omega)
    have := c3 c l s hc hs0 hs
    rw [← hmsd] at this
    rw [this]
    congr 1
    rw [c2' _ (by omega) (by omega) (by omega), c1' _ (by omega) (by rw [s0.rows]; omega)
      (by unfold Sizes.arLength at *; omega), v0 _ (by omega) (by omega)]


/-- The loop over the pre-sample columns. -/
theorem head_spec [Zero K] {e : Estimate K} {undiff f0 : Mat K} (hz : e.z.Proper) (wu : undiff.Wf)
    (hur : undiff.rows = e.z.eqsCount) (huc : undiff.cols = e.z.obsCount) (wy : e.y.Wf) (hyr : e.y.rows = e.z.eqsCount)
    (hyc : e.y.cols = e.z.T - e.sampleEnd) (hse : 0 ≤ e.sampleEnd) (hri : 0 ≤ e.z.T - e.sampleEnd - e.z.arMaxD)
    (wf : f0.Wf) (hfr : f0.rows = e.z.eqsCount) (hfc : e.z.arMaxD ≤ f0.cols) :
    ∃ f, (upTo 0 e.z.arMaxD).foldlM (headColumn e undiff) f0 = .ok f ∧ SameShape f0 f ∧ f.Wf ∧
      ∀ r i, 0 ≤ r → r < e.z.eqsCount → 0 ≤ i → i < e.z.arMaxD →
        f.val r i = if i < e.z.diffDegree then undiff.val r (e.z.obsCount - e.sampleEnd - e.z.arMaxD + i)
          else e.y.val r (e.z.T - e.sampleEnd - e.z.arMaxD + i) := by
  have hg := hz.eqs_pos
  have hdeg := hz.degree_eq
  have ham := hz.arMax_nonneg
  have hTd : e.z.T = e.z.obsCount - e.z.arMaxD := rfl
  have hd : e.z.arMaxD = e.z.arMax + e.z.diffDegree := rfl
  obtain ⟨f, ef, sf, wf', cf⟩ := loop_inv (a := 0) (b := e.z.arMaxD) (by omega) (headColumn e undiff)
    (fun k f => SameShape f0 f ∧ f.Wf ∧ ∀ r i, 0 ≤ r → r < e.z.eqsCount → 0 ≤ i → i < k →
        f.val r i = if i < e.z.diffDegree then undiff.val r (e.z.obsCount - e.sampleEnd - e.z.arMaxD + i)
          else e.y.val r (e.z.T - e.sampleEnd - e.z.arMaxD + i)) (s := f0)
    ⟨SameShape.refl _, wf, fun r i _ _ h0 h1 => by omega⟩ (by
      intro k hk0 hk f ⟨s1, w1, c1⟩
      unfold headColumn
      by_cases h : k < e.z.diffDegree
      · rw [if_pos h]
        obtain ⟨f2, e2, s2, w2, c2⟩ := setSub0_val w1 wu (rs := 0) (cs := k) (srs := 0)
          (scs := undiff.cols - e.sampleEnd - e.z.arMaxD + k) (rc := e.z.eqsCount) (cc := 1) le_rfl hk0 le_rfl (by omega)
          (by omega) (by omega) (by rw [s1.rows]; omega) (by rw [s1.cols]; omega) (by omega) (by omega)
        refine ⟨f2, e2, s1.trans s2, w2, fun r i hr0 hr hi0 hi => ?_⟩
        rw [c2 r i (s1.inR.2 ⟨hr0, by omega, hi0, by omega⟩)]
        by_cases hik : i = k
        · rw [if_pos (by omega), if_pos (by omega), huc, hik]; congr 1 <;> ring
        · rw [if_neg (by omega), c1 r i hr0 hr hi0 (by omega)]
      · rw [if_neg h]
        obtain ⟨f2, e2, s2, w2, c2⟩ := setSub0_val w1 wy (rs := 0) (cs := k) (srs := 0)
          (scs := e.z.T - e.sampleEnd - e.z.arMaxD + k) (rc := e.z.eqsCount) (cc := 1) le_rfl hk0 le_rfl (by omega)
          (by omega) (by omega) (by rw [s1.rows]; omega) (by rw [s1.cols]; omega) (by omega) (by omega)
        refine ⟨f2, e2, s1.trans s2, w2, fun r i hr0 hr hi0 hi => ?_⟩
        rw [c2 r i (s1.inR.2 ⟨hr0, by omega, hi0, by omega⟩)]
        by_cases hik : i = k
        · rw [if_pos (by omega), if_neg (by omega), hik]; congr 1 <;> ring
        · rw [if_neg (by omega), c1 r i hr0 hr hi0 (by omega)])
  exact ⟨f, ef, sf, wf', cf⟩

theorem modelRhs_congr [Ring K] {z : Sizes} (hz : z.Proper) {B : Mat K} {ar ar' : Int → Int → K} {exo exo' : Int → K}
    {ma ma' : Int → Int → K} {r : Int}
    (h1 : ∀ s l, 0 ≤ s → s < z.eqsCount → l ∈ z.arLags → ar s l = ar' s l)
    (h2 : ∀ x, 0 ≤ x → x < z.exoCount → exo x = exo' x)
    (h3 : ∀ s l, 0 ≤ s → s < z.eqsCount → l ∈ z.maLags → ma s l = ma' s l) :
    modelRhs z B ar exo ma r = modelRhs z B ar' exo' ma' r := by
  have hg := hz.eqs_pos
  unfold modelRhs
  congr 1
  · congr 1
    · refine Finset.sum_congr rfl (fun c hc => Finset.sum_congr rfl (fun s hs => ?_))
      have hc' := Finset.mem_range.1 hc
      have hs' := Finset.mem_range.1 hs
      rw [List.getElem?_eq_getElem hc', Option.getD_some, h1 _ _ (by omega) (by omega) (List.getElem_mem hc')]
    · refine Finset.sum_congr rfl (fun k hk => ?_)
      have hk' := Finset.mem_range.1 hk
      rw [h2 _ (by omega) (by omega)]
  · refine Finset.sum_congr rfl (fun c hc => Finset.sum_congr rfl (fun s hs => ?_))
    have hc' := Finset.mem_range.1 hc
    have hs' := Finset.mem_range.1 hs
    rw [List.getElem?_eq_getElem hc', Option.getD_some, h3 _ _ (by omega) (by omega) (List.getElem_mem hc')]

/-- The loop over the forecast columns (still in differences). -/
theorem tail_spec [Ring K] {e : Estimate K} {exo : Option (Mat K)} {f0 xt0 : Mat K} {xInd residInd : Int}
    (hz : e.z.Proper) (wx : xt0.Wf) (hxr : xt0.rows = e.z.numParamsEq) (hxc : xt0.cols = 1)
    (wf : f0.Wf) (hfr : f0.rows = e.z.eqsCount) (hfc : e.z.arMaxD ≤ f0.cols)
    (wr : e.resid.Wf) (hrr : e.resid.rows = e.z.eqsCount)
    (wc : e.coef.Wf) (hcr : e.coef.rows = e.z.eqsCount) (hcc : e.coef.cols = e.z.numParamsEq)
    (hma : ∀ l ∈ e.z.maLags, 0 ≤ residInd + e.z.arMaxD - l)
    (hex : e.z.exoCount ≠ 0 → ∃ x, exo = some x ∧ x.Wf ∧ x.rows = e.z.exoCount ∧ 0 ≤ xInd + e.z.arMaxD ∧
      xInd + f0.cols ≤ x.cols) :
    ∃ xt f, (upTo e.z.arMaxD f0.cols).foldlM (forecastColumn e exo xInd residInd) (xt0, f0) = .ok (xt, f) ∧
      SameShape f0 f ∧ f.Wf ∧
      (∀ r i, 0 ≤ r → r < e.z.eqsCount → 0 ≤ i → i < e.z.arMaxD → f.val r i = f0.val r i) ∧
      ∀ r i, 0 ≤ r → r < e.z.eqsCount → e.z.arMaxD ≤ i → i < f0.cols →
        f.val r i = modelRhs e.z e.coef (fun s l => f.val s (i - l)) (fun x => exoVal exo x (xInd + i))
          (fun s l => if residInd + i - l < e.resid.cols then e.resid.val s (residInd + i - l) else 0) r := by
  have hg := hz.eqs_pos
  have hdeg := hz.degree_eq
  have ham := hz.arMax_nonneg
  have hd : e.z.arMaxD = e.z.arMax + e.z.diffDegree := rfl
  obtain ⟨hA, hms, hM, hnp, hmsd⟩ := hz.cols
  have hM' : 0 ≤ (e.z.maLags.length : Int) * e.z.eqsCount := hM
  obtain ⟨⟨xt, f⟩, ef, sx, wx', sf, wf', cf, cf'⟩ := loop_inv (a := e.z.arMaxD) (b := f0.cols) (by omega)
    (forecastColumn e exo xInd residInd)
    (fun k st => SameShape xt0 st.1 ∧ st.1.Wf ∧ SameShape f0 st.2 ∧ st.2.Wf ∧
      (∀ r i, 0 ≤ r → r < e.z.eqsCount → 0 ≤ i → i < e.z.arMaxD → st.2.val r i = f0.val r i) ∧
      ∀ r i, 0 ≤ r → r < e.z.eqsCount → e.z.arMaxD ≤ i → i < k →
        st.2.val r i = modelRhs e.z e.coef (fun s l => st.2.val s (i - l)) (fun x => exoVal exo x (xInd + i))
          (fun s l => if residInd + i - l < e.resid.cols then e.resid.val s (residInd + i - l) else 0) r)
    (s := (xt0, f0))
    ⟨SameShape.refl _, wx, SameShape.refl _, wf, fun _ _ _ _ _ _ => rfl, fun r i _ _ h0 h1 => by omega⟩ (by
      intro k hk0 hk ⟨xt, f⟩ ⟨sx, wx', sf, wf', cf, cf'⟩
      simp only at sx wx' sf wf' cf cf' ⊢
      unfold forecastColumn
      obtain ⟨x1, e1, s1, w1, a1, a2, a3⟩ := xtprime_spec (i := k) (xInd := xInd) (residInd := residInd) (exo := exo)
        hz wx' (by rw [sx.rows, hxr]) (by rw [sx.cols, hxc]) wf' (by rw [sf.rows, hfr]) (by omega)
        (by rw [sf.cols]; omega) wr hrr (fun l h => by have := hma l h; omega)
        (fun h => by
          obtain ⟨x, q1, q2, q3, q4, q5⟩ := hex h
          exact ⟨x, q1, q2, q3, by omega, by omega⟩)
      rw [e1, Outcome.ok_bind]
      have hsum : ∀ r, ∑ c ∈ Finset.range e.z.numParamsEq.toNat, e.coef.val r c * x1.val c 0
          = modelRhs e.z e.coef (fun s l => f.val s (k - l)) (fun x => exoVal exo x (xInd + k))
          (fun s l => if residInd + k - l < e.resid.cols then e.resid.val s (residInd + k - l) else 0) r :=
        fun r => sum_modelRhs hz e.coef (fun c => x1.val c 0) _ _ _ r a1 a2 a3
      obtain ⟨f2, e2, s2, w2, c2⟩ := loop_inv (a := 0) (b := e.z.eqsCount) (by omega)
        (fun f r => do
          let v ← dotVec e.coef (fun c => x1.get0 c 0) e.z.numParamsEq r
          f.set0 r k v)
        (fun q f' => SameShape f f' ∧ f'.Wf ∧ ∀ r i, f.InR r i → f'.val r i =
          if i = k ∧ r < q then ∑ c ∈ Finset.range e.z.numParamsEq.toNat, e.coef.val r c * x1.val c 0
          else f.val r i) (s := f) ⟨SameShape.refl _, wf', fun r i h => by
            rw [if_neg]; have := h.1; omega⟩ (by
          intro q hq0 hq f' ⟨s3, w3, c3⟩
          rw [dotVec_spec (xv := fun c => x1.val c 0) wc (by omega) hq0 (by omega) (by omega)
            (fun c h0 h1 => get0_val w1 (s1.inR.2 (sx.inR.2 ⟨h0, by omega, by omega, by omega⟩))), Outcome.ok_bind]
          have hin : f.InR q k := sf.inR.2 ⟨hq0, by omega, by omega, by omega⟩
          obtain ⟨f3, e', s', w', c'⟩ := set0_val w3 (s3.inR.2 hin)
            (∑ c ∈ Finset.range e.z.numParamsEq.toNat, e.coef.val q c * x1.val c 0)
          refine ⟨f3, e', s3.trans s', w', fun r t h => ?_⟩
          rw [c' r t (s3.inR.2 h), c3 r t h]
          by_cases hh : r = q ∧ t = k
          · rw [if_pos hh, if_pos (by omega), hh.1]
          · rw [if_neg hh]
            split_ifs <;> first | rfl | omega)
      rw [e2, Outcome.ok_bind]
      have hold : ∀ s j, 0 ≤ s → s < e.z.eqsCount → 0 ≤ j → j < k → f2.val s j = f.val s j := by
        intro s j h0 h1 h2 h3
        rw [c2 s j (sf.inR.2 ⟨h0, by omega, h2, by omega⟩), if_neg (by omega)]
      refine ⟨(x1, f2), rfl, sx.trans s1, w1, sf.trans s2, w2, ?_, ?_⟩
      · intro r i hr0 hr hi0 hi
        simp only
        rw [hold r i hr0 hr hi0 (by omega), cf r i hr0 hr hi0 hi]
      · intro r i hr0 hr hi0 hi
        simp only
        have key : f2.val r i = modelRhs e.z e.coef (fun s l => f.val s (i - l)) (fun x => exoVal exo x (xInd + i))
          (fun s l => if residInd + i - l < e.resid.cols then e.resid.val s (residInd + i - l) else 0) r := by
          by_cases hik : i = k
          · subst hik
            rw [c2 r i (sf.inR.2 ⟨hr0, by omega, by omega, by omega⟩), if_pos (by omega), hsum]
          · rw [hold r i hr0 hr (by omega) (by omega), cf' r i hr0 hr hi0 (by omega)]
        rw [key]
        refine modelRhs_congr hz (fun s l h0 h1 hl => ?_) (fun _ _ _ => rfl) (fun _ _ _ _ _ => rfl)
        have := hz.ar_lag l hl
        rw [hold s _ h0 h1 (by omega) (by omega)])
  exact ⟨xt, f, ef, sf, wf', cf, cf'⟩

/-- A difference polynomial with leading coefficient one: the value is what the differences and the earlier values
say. -/
theorem diffAt_head [Ring K] {poly : List Int} (h1 : poly.head? = some 1) (m : Mat K) (r t : Int) :
    diffAt poly m r t = m.val r t
      + ∑ f ∈ Finset.range (poly.length - 1), (((poly[f + 1]?).getD 0 : Int) : K) * m.val r (t - (f + 1)) := by
  unfold diffAt
  obtain ⟨n, hn⟩ : ∃ n, poly.length = n + 1 := ⟨poly.length - 1, by
    have : poly ≠ [] := by intro h; rw [h] at h1; simp at h1
    have : poly.length ≠ 0 := by simpa using this
    omega⟩
  rw [hn, Finset.sum_range_succ', ← List.head?_eq_getElem?, h1, add_comm]
  simp

/-- Forecasts solve the model: with the sample of the estimation (its left-hand side `y` being the differenced data),
the first `ArMax_d` columns of the result are the last observations before the forecast origin, and every later
column satisfies the model equation in differences, with the residuals of the sample where they exist and zero for
the future ones. -/
theorem C57_forecast [Ring K] {e : Estimate K} {exo : Option (Mat K)} {data : Mat K} {storage work : List K}
    {maxHorizon horizon h : Int} {exoIsNew : Bool}
    (hz : e.z.Proper) (wd : data.Wf) (hdr : data.rows = e.z.eqsCount) (hdc : data.cols = e.z.obsCount)
    (wy : e.y.Wf) (hyr : e.y.rows = e.z.eqsCount) (hyc : e.y.cols = e.z.T - e.sampleEnd)
    (hy : ∀ r t, e.y.InR r t → e.y.val r t = diffAt e.z.diffPoly data r (t + e.z.arMaxD))
    (wr : e.resid.Wf) (hrr : e.resid.rows = e.z.eqsCount)
    (wc : e.coef.Wf) (hcr : e.coef.rows = e.z.eqsCount) (hcc : e.coef.cols = e.z.numParamsEq)
    (hse : 0 ≤ e.sampleEnd) (hri : 0 ≤ e.z.T - e.sampleEnd - e.z.arMaxD)
    (hma : ∀ l ∈ e.z.maLags, l ≤ e.z.T - e.sampleEnd)
    (hh : h = if horizon = -1 then maxHorizon else horizon) (hh0 : 0 ≤ h) (hhm : h ≤ maxHorizon)
    (hst : e.z.eqsCount * (h + e.z.arMaxD) ≤ storage.length) (hwk : e.z.numParamsEq ≤ work.length)
    (hex : e.z.exoCount ≠ 0 → ∃ x, exo = some x ∧ x.Wf ∧ x.rows = e.z.exoCount ∧
      (if exoIsNew then h else e.z.T - e.sampleEnd + (h + e.z.arMaxD)) ≤ x.cols) :
    ∃ F, forecastMean e exo data storage work maxHorizon horizon exoIsNew = .ok F ∧ F.Wf ∧
      F.rows = e.z.eqsCount ∧ F.cols = h + e.z.arMaxD ∧
      (∀ r i, 0 ≤ r → r < e.z.eqsCount → 0 ≤ i → i < e.z.arMaxD →
        F.val r i = data.val r (e.z.obsCount - e.sampleEnd - e.z.arMaxD + i)) ∧
      (∀ r i, 0 ≤ r → r < e.z.eqsCount → e.z.arMaxD ≤ i → i < h + e.z.arMaxD →
        diffAt e.z.diffPoly F r i = modelRhs e.z e.coef
          (fun s l => diffAt e.z.diffPoly F s (i - l))
          (fun x => exoVal exo x (if exoIsNew then i - e.z.arMaxD else e.z.T - e.sampleEnd + i))
          (fun s l => if e.z.T - e.sampleEnd - e.z.arMaxD + i - l < e.resid.cols then
            e.resid.val s (e.z.T - e.sampleEnd - e.z.arMaxD + i - l) else 0) r) := by
  have hg := hz.eqs_pos
  have hdeg := hz.degree_eq
  have ham := hz.arMax_nonneg
  have hTd : e.z.T = e.z.obsCount - e.z.arMaxD := rfl
  have hd : e.z.arMaxD = e.z.arMax + e.z.diffDegree := rfl
  obtain ⟨hA, hms, hM, hnp, hmsd⟩ := hz.cols
  have hM' : 0 ≤ (e.z.maLags.length : Int) * e.z.eqsCount := hM
  unfold forecastMean
  simp only
  rw [← hh]
  have hchk : forecastChecks e exo maxHorizon h exoIsNew = true := by
    unfold forecastChecks
    cases exoIsNew with
    | true => simp [hhm]
    | false =>
      by_cases hx : e.z.exoCount = 0
      · simp [hhm, hx]; omega
      · obtain ⟨x, rfl, _, _, h4⟩ := hex hx
        simp at h4
        simp [hhm, hx]; omega
  rw [hchk, if_neg (by simp)]
  have w0 : ({ rows := e.z.eqsCount, cols := h + e.z.arMaxD, data := some storage } : Mat K).Wf :=
    ⟨by simp; omega, by simp; omega, rfl, by simpa [Mat.mem] using hst⟩
  obtain ⟨f1, e1, s1, w1, c1⟩ := head_spec (undiff := data) hz wd hdr hdc wy hyr hyc hse hri w0 rfl
    (by simp; omega)
  rw [e1, Outcome.ok_bind]
  have wx0 : ({ rows := e.z.numParamsEq, cols := 1, data := some work } : Mat K).Wf :=
    ⟨by simp; omega, by simp, rfl, by simpa [Mat.mem] using hwk⟩
  have hf1c : f1.cols = h + e.z.arMaxD := s1.cols
  obtain ⟨xt, f2, e2, s2, w2, c2, c2'⟩ := tail_spec (exo := exo)
    (xInd := if exoIsNew then -e.z.arMaxD else e.z.T - e.sampleEnd)
    (residInd := e.z.T - e.sampleEnd - e.z.arMaxD) hz wx0 rfl rfl w1
    (by rw [s1.rows]) (by omega) wr hrr wc hcr hcc
    (fun l hl => by have := hma l hl; omega)
    (fun hx => by
      obtain ⟨x, q1, q2, q3, q4⟩ := hex hx
      refine ⟨x, q1, q2, q3, ?_, ?_⟩
      · cases exoIsNew <;> simp <;> omega
      · rw [hf1c]; cases exoIsNew <;> simp at q4 ⊢ <;> omega)
  rw [hf1c] at e2
  rw [e2, Outcome.ok_bind]
  simp only
  have fin : ∃ F, (if e.z.hasDiff = true then undifference e.z.diffPoly f2 else pure f2) = .ok F ∧ F.Wf ∧
      F.rows = e.z.eqsCount ∧ F.cols = h + e.z.arMaxD ∧
      (∀ r i, 0 ≤ r → r < e.z.eqsCount → 0 ≤ i → i < e.z.diffDegree → F.val r i = f2.val r i) ∧
      (∀ r i, 0 ≤ r → r < e.z.eqsCount → e.z.diffDegree ≤ i → i < h + e.z.arMaxD →
        diffAt e.z.diffPoly F r i = f2.val r i) := by
    by_cases hdf : e.z.hasDiff = true
    · rw [if_pos hdf]
      obtain ⟨F, eF, sF, wF, a1, a2⟩ := C52_undifference hz.poly_one w2
      have hin : ∀ r i, 0 ≤ r → r < e.z.eqsCount → 0 ≤ i → i < h + e.z.arMaxD → f2.InR r i := by
        intro r i h0 h1 h2 h3
        exact ⟨h0, by rw [s2.rows, s1.rows]; exact h1, h2, by rw [s2.cols, s1.cols]; exact h3⟩
      refine ⟨F, eF, wF, by rw [sF.rows, s2.rows, s1.rows], by rw [sF.cols, s2.cols, s1.cols], ?_, ?_⟩
      · intro r i h0 h1 h2 h3
        exact a1 r i (hin r i h0 h1 h2 (by omega)) (by omega)
      · intro r i h0 h1 h2 h3
        exact a2 r i (hin r i h0 h1 (by omega) h3) (by omega)
    · rw [if_neg hdf]
      have hl : e.z.diffPoly.length = 1 := by
        unfold Sizes.hasDiff at hdf
        have : e.z.diffPoly.length ≠ 0 := by simpa using hz.poly_ne
        simp at hdf; omega
      refine ⟨f2, rfl, w2, by rw [s2.rows, s1.rows], by rw [s2.cols, s1.cols], fun _ _ _ _ _ _ => rfl, ?_⟩
      intro r i _ _ _ _
      rw [diffAt_head hz.poly_one, hl]; simp
  obtain ⟨F, eF, wF, Fr, Fc, F1, F2⟩ := fin
  refine ⟨F, eF, wF, Fr, Fc, ?_, ?_⟩
  · intro r i h0 h1 h2 h3
    obtain ⟨n, rfl⟩ : ∃ n : Nat, i = n := ⟨i.toNat, by omega⟩
    induction n using Nat.strong_induction_on with
    | _ n ih =>
      by_cases hnd : (n : Int) < e.z.diffDegree
      · rw [F1 r n h0 h1 h2 hnd, c2 r n h0 h1 h2 h3, c1 r n h0 h1 h2 h3, if_pos hnd]
      · have q1 := F2 r n h0 h1 (by omega) (by omega)
        rw [c2 r n h0 h1 h2 h3, c1 r n h0 h1 h2 h3, if_neg hnd,
          hy _ _ ⟨h0, by omega, by omega, by omega⟩, diffAt_head hz.poly_one, diffAt_head hz.poly_one] at q1
        have hsum : ∑ f ∈ Finset.range (e.z.diffPoly.length - 1),
              (((e.z.diffPoly[f + 1]?).getD 0 : Int) : K) * F.val r (n - (f + 1))
            = ∑ f ∈ Finset.range (e.z.diffPoly.length - 1), (((e.z.diffPoly[f + 1]?).getD 0 : Int) : K) *
              data.val r (e.z.T - e.sampleEnd - e.z.arMaxD + n + e.z.arMaxD - (f + 1)) := by
          refine Finset.sum_congr rfl (fun f hf => ?_)
          have hf' := Finset.mem_range.1 hf
          have := ih (n - (f + 1)) (by omega) (by omega) (by omega)
          rw [show (n : Int) - ((f : Int) + 1) = ((n - (f + 1) : Nat) : Int) by omega, this]
          congr 2
          omega
        rw [hsum] at q1
        have := add_right_cancel q1
        rw [this]
        congr 1
        omega
  · intro r i h0 h1 h2 h3
    rw [F2 r i h0 h1 (by omega) h3, c2' r i h0 h1 h2 (by rw [hf1c]; exact h3)]
    refine modelRhs_congr hz (fun s l hs0 hs hl => ?_) (fun x _ _ => ?_) (fun _ _ _ _ _ => rfl)
    · have := hz.ar_lag l hl
      rw [F2 s _ hs0 hs (by omega) (by omega)]
    · congr 1
      cases exoIsNew <;> simp; omega

end Varma
end LDT
