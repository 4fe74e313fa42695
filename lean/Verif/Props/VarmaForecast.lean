import Verif.Lemmas.VarmaForecast
import Verif.Props.VarmaSizes
/-! # VARMA regressors, residuals and forecasts (C55–C57) -/
namespace LDT
namespace Varma
open Mx Poly
variable {K : Type}

/-- Sizes as the constructor makes them when the orders are below the season: see `proper_of_makeSizes`. -/
structure Sizes.Proper (z : Sizes) : Prop where
  poly_one : z.diffPoly.head? = some 1
  eqs_pos : 1 ≤ z.eqsCount
  exo_nonneg : 0 ≤ z.exoCount
  ar_lag : ∀ l ∈ z.arLags, 1 ≤ l ∧ l ≤ z.arMax
  ma_lag : ∀ l ∈ z.maLags, 1 ≤ l
  ma_sorted : z.maLags.Pairwise (· ≤ ·)

theorem Sizes.Proper.arMax_nonneg {z : Sizes} (h : z.Proper) : 0 ≤ z.arMax := by
  unfold Sizes.arMax
  cases hl : z.arLags.getLast? with
  | none => simp
  | some l =>
    have := (h.ar_lag l (List.mem_of_getLast? hl)).1
    simp; omega

theorem Sizes.Proper.poly_ne {z : Sizes} (h : z.Proper) : z.diffPoly ≠ [] := by
  intro h'; have := h.poly_one; rw [h'] at this; simp at this

theorem Sizes.Proper.degree_eq {z : Sizes} (h : z.Proper) :
    z.diffDegree = (z.diffPoly.length : Int) - 1 ∧ 0 ≤ z.diffDegree := by
  have hl : z.diffPoly.length ≠ 0 := by simpa using h.poly_ne
  unfold Sizes.diffDegree
  rw [if_neg hl]; omega

theorem regressors_spec [Zero K] {z : Sizes} {T : Int} {dataD : Mat K} {exo : Option (Mat K)} {X : Mat K}
    (hz : z.Proper) (wd : dataD.Wf) (hgd : z.eqsCount = dataD.rows) (hT : 0 ≤ T) (wX : X.Wf) (hXr : X.rows = T)
    (hXc : z.maStart ≤ X.cols) (hd : z.arMax + T ≤ dataD.cols)
    (hex : z.exoCount ≠ 0 → ∃ e, exo = some e ∧ e.Wf ∧ e.rows = z.exoCount ∧ z.arMaxD + T ≤ e.cols) :
    ∃ X', regressors z T dataD exo X = .ok X' ∧ SameShape X X' ∧ X'.Wf ∧
      (∀ (c : Nat) l t r, z.arLags[c]? = some l → 0 ≤ t → t < T → 0 ≤ r → r < z.eqsCount →
        X'.val t (c * z.eqsCount + r) = dataD.val r (t + (z.arMax - l))) ∧
      (∀ e t x, exo = some e → 0 ≤ t → t < T → 0 ≤ x → x < z.exoCount →
        X'.val t (z.arLength * z.eqsCount + x) = e.val x (z.arMaxD + t)) ∧
      (∀ t j, X.InR t j → z.maStart ≤ j → X'.val t j = X.val t j) := by
  have hg := hz.eqs_pos
  have hx := hz.exo_nonneg
  have hdeg := hz.degree_eq
  have ham := hz.arMax_nonneg
  have hL : 0 ≤ z.arLength * z.eqsCount := mul_nonneg (by unfold Sizes.arLength; omega) (by omega)
  obtain ⟨X1, e1, s1, w1, c1, c1'⟩ := lagColumns_spec (z := z) wd (by omega) (by omega) hT z.arLags 0 X wX le_rfl
    (by unfold Sizes.maStart Sizes.arLength at hXc; omega) (by omega)
    (fun l h => by have := hz.ar_lag l h; omega)
  simp only [zero_add] at c1 c1'
  unfold regressors
  rw [e1, Outcome.ok_bind]
  by_cases hx0 : z.exoCount ≠ 0
  · rw [if_pos hx0]
    obtain ⟨e, rfl, we, her, hec⟩ := hex hx0
    obtain ⟨X2, e2, s2, w2, c2⟩ := setSubT0_val w1 we (rs := 0) (cs := z.arLength * z.eqsCount) (srs := 0)
      (scs := z.arMaxD) (rc := T) (cc := z.exoCount) le_rfl hL le_rfl (by unfold Sizes.arMaxD; omega) hT hx
      (by rw [s1.rows]; omega) (by rw [s1.cols]; unfold Sizes.maStart at hXc; omega) (by omega) (by omega)
    refine ⟨X2, e2, s1.trans s2, w2, ?_, ?_, ?_⟩
    · intro c l t r hc h0 h1 hr0 hr
      have hcl := lt_length_of_some hc
      have hb := band_lt (n := z.arLength) (by omega : 0 ≤ z.eqsCount)
        (by unfold Sizes.arLength; omega : (c : Int) + 1 ≤ z.arLength) hr hr0 (by omega)
      rw [c2 t _ ⟨h0, by rw [s1.rows]; omega, by omega, by rw [s1.cols]; unfold Sizes.maStart at hXc; omega⟩,
        if_neg (by omega), c1 c l t r hc h0 h1 hr0 hr]
    · intro e' t x he h0 h1 hx0' hx1
      cases he
      rw [c2 t _ ⟨h0, by rw [s1.rows]; omega, by omega, by rw [s1.cols]; unfold Sizes.maStart at hXc; omega⟩,
        if_pos (by omega)]
      congr 1 <;> ring
    · intro t j hin hj
      unfold Sizes.maStart at hj
      rw [c2 t j (s1.inR.2 hin), if_neg (by omega), c1' t j hin (by unfold Sizes.arLength at hj hL; omega)]
  · rw [if_neg hx0]
    refine ⟨X1, rfl, s1, w1, c1, fun e t x _ _ _ h0 h1 => by omega, fun t j hin hj => ?_⟩
    unfold Sizes.maStart Sizes.arLength at hj
    exact c1' t j hin (by omega)

/-- `differenced`: column `t` holds the differences at time `t + degree`. -/
theorem differenced_spec [Ring K] {z : Sizes} {data : Mat K} {work : List K} (hz : z.Proper) (wd : data.Wf)
    (hgd : z.eqsCount = data.rows) (hn : z.diffDegree ≤ data.cols)
    (hw : z.hasDiff = true → z.eqsCount * (data.cols - z.diffDegree) ≤ work.length) :
    ∃ d, differenced z data work = .ok d ∧ d.Wf ∧ d.rows = z.eqsCount ∧ d.cols = data.cols - z.diffDegree ∧
      ∀ r t, d.InR r t → d.val r t = diffAt z.diffPoly data r (t + z.diffDegree) := by
  have hg := hz.eqs_pos
  have hdeg := hz.degree_eq
  unfold differenced
  by_cases h : z.hasDiff = true
  · rw [if_pos h]
    have w0 : ({ rows := z.eqsCount, cols := data.cols - z.diffPoly.length + 1, data := some work } : Mat K).Wf :=
      ⟨by simpa using (by omega), by simp; omega, rfl, by
        have := hw h
        simpa [Mat.mem, show data.cols - (z.diffPoly.length : Int) + 1 = data.cols - z.diffDegree by omega] using this⟩
    obtain ⟨d, e, s, w, c⟩ := C52_difference hz.poly_ne wd w0 (by simpa using hgd)
      (by simp; omega)
    refine ⟨d, e, w, s.rows, by rw [s.cols]; simp; omega, fun r t hin => ?_⟩
    have := c r t hin
    rw [get_val w hin] at this
    rw [Outcome.ok.inj this, hdeg.1]; rfl
  · rw [if_neg h]
    have hl : z.diffPoly.length = 1 := by
      unfold Sizes.hasDiff at h
      have : z.diffPoly.length ≠ 0 := by simpa using hz.poly_ne
      simp at h; omega
    refine ⟨data, rfl, wd, hgd.symm, by omega, fun r t hin => ?_⟩
    have h0 : (z.diffPoly[0]?) = some 1 := by rw [← List.head?_eq_getElem?, hz.poly_one]
    unfold diffAt
    rw [hl, Finset.sum_range_one, h0, hdeg.1, hl]
    simp

/-- The estimation sample: with `Δ` the difference operator, row `t` of the regression has the differenced data of
time `t + ArMax_d` on the left, and on the right lag `l` of them in the columns of that lag, and the exogenous data
of the same time; the MA columns start at zero. -/
theorem C55_sample [Ring K] {z : Sizes} {data : Mat K} {exo : Option (Mat K)} {sampleEnd : Int}
    {work ymem xmem : List K} (hz : z.Proper) (wd : data.Wf) (hgd : z.eqsCount = data.rows)
    (hobs : z.obsCount = data.cols) (hse : 0 ≤ sampleEnd) (hT : 1 ≤ z.T - sampleEnd) (hq : 1 ≤ z.numParams)
    (hw : z.hasDiff = true → z.eqsCount * (data.cols - z.diffDegree) ≤ work.length)
    (hy : z.eqsCount * (z.T - sampleEnd) ≤ ymem.length)
    (hx : (z.T - sampleEnd) * z.numParamsEq ≤ xmem.length)
    (hex : z.exoCount ≠ 0 → ∃ e, exo = some e ∧ e.Wf ∧ e.rows = z.exoCount ∧ z.obsCount ≤ e.cols) :
    ∃ y X, prepare z data exo sampleEnd work ymem xmem = .ok (y, X) ∧ y.Wf ∧ X.Wf ∧
      y.rows = z.eqsCount ∧ y.cols = z.T - sampleEnd ∧ X.rows = z.T - sampleEnd ∧ X.cols = z.numParamsEq ∧
      ∀ t, 0 ≤ t → t < z.T - sampleEnd →
        (∀ r, 0 ≤ r → r < z.eqsCount → y.val r t = diffAt z.diffPoly data r (t + z.arMaxD)) ∧
        (∀ (c : Nat) l r, z.arLags[c]? = some l → 0 ≤ r → r < z.eqsCount →
          X.val t (c * z.eqsCount + r) = diffAt z.diffPoly data r (t + z.arMaxD - l)) ∧
        (∀ e x, exo = some e → 0 ≤ x → x < z.exoCount →
          X.val t (z.arLength * z.eqsCount + x) = e.val x (t + z.arMaxD)) ∧
        (∀ j, z.maStart ≤ j → j < z.numParamsEq → X.val t j = 0) := by
  have hg := hz.eqs_pos
  have hdeg := hz.degree_eq
  have ham := hz.arMax_nonneg
  have hxn := hz.exo_nonneg
  have hTd : z.T = z.obsCount - z.arMax - z.diffDegree := by unfold Sizes.T Sizes.arMaxD; ring
  have hms0 : 0 ≤ z.arLength * z.eqsCount := mul_nonneg (by unfold Sizes.arLength; omega) (by omega)
  have hms : z.maStart ≤ z.numParamsEq ∧ 0 ≤ z.maStart := by
    have h2 : 0 ≤ z.maLength * z.eqsCount := mul_nonneg (by unfold Sizes.maLength; omega) (by omega)
    unfold Sizes.numParamsEq Sizes.maStart; omega
  unfold prepare
  simp only
  rw [if_neg (by omega)]
  obtain ⟨cells, ec, lc, cc⟩ := fill_spec xmem ((z.T - sampleEnd) * z.numParamsEq) 0 hx
  rw [ec, Outcome.ok_bind]
  obtain ⟨d, ed, wdd, dr, dc, cd⟩ := differenced_spec (work := work) hz wd hgd (by omega) hw
  rw [ed, Outcome.ok_bind]
  generalize hTT : z.T - sampleEnd = T at *
  have wy0 : ({ rows := z.eqsCount, cols := T, data := some ymem } : Mat K).Wf :=
    ⟨by simp; omega, by simp; omega, rfl, by simpa [Mat.mem] using hy⟩
  obtain ⟨y, ey, sy, wy, cy⟩ := setSub0_val wy0 wdd (rs := 0) (cs := 0) (srs := 0) (scs := z.arMax)
    (rc := z.eqsCount) (cc := T) le_rfl le_rfl le_rfl ham (by omega) (by omega) (by simp) (by simp) (by omega)
    (by omega)
  have ey' : estimationY z T d { rows := z.eqsCount, cols := T, data := some ymem } = .ok y := ey
  rw [ey', Outcome.ok_bind]
  have wX0 : ({ rows := T, cols := z.numParamsEq, data := some cells } : Mat K).Wf :=
    ⟨by simp; omega, by simp; omega, rfl, by simpa [Mat.mem, lc] using hx⟩
  have v0 : ∀ i j, ({ rows := T, cols := z.numParamsEq, data := some cells } : Mat K).InR i j →
      ({ rows := T, cols := z.numParamsEq, data := some cells } : Mat K).val i j = 0 := by
    intro i j hin
    unfold Mat.val
    have hb := wX0.idx hin
    have hb2 := idx_bounds hin.1 hin.2.1 hin.2.2.1 hin.2.2.2
    simp only at hb hb2
    change coef cells _ = 0
    rw [cc, if_pos]
    simp only
    omega
  have hyv : ∀ t, 0 ≤ t → t < T → ∀ r, 0 ≤ r → r < z.eqsCount → y.val r t = diffAt z.diffPoly data r (t + z.arMaxD) := by
    intro t h0 h1 r hr0 hr
    rw [cy r t ⟨hr0, hr, h0, h1⟩, if_pos (by omega), cd _ _ ⟨by omega, by omega, by omega, by omega⟩]
    congr 1
    · ring
    · unfold Sizes.arMaxD; ring
  by_cases hae : (z.hasAr || z.exoCount != 0) = true
  · rw [if_pos hae]
    obtain ⟨X, eX, sX, wX, a1, a2, a3⟩ := regressors_spec (exo := exo) (T := T) hz wdd (by omega) (by omega) wX0 rfl hms.1
      (by omega) (fun h => by
        obtain ⟨e, he, we, her, hec⟩ := hex h
        exact ⟨e, he, we, her, by unfold Sizes.arMaxD; omega⟩)
    rw [eX, Outcome.ok_bind]
    refine ⟨y, X, rfl, wy, wX, sy.rows, sy.cols, sX.rows, sX.cols, fun t h0 h1 => ⟨hyv t h0 h1, ?_, ?_, ?_⟩⟩
    · intro c l r hc hr0 hr
      have hl := hz.ar_lag l (mem_of_some hc)
      rw [a1 c l t r hc h0 h1 hr0 hr, cd _ _ ⟨by omega, by omega, by omega, by omega⟩]
      congr 1
      unfold Sizes.arMaxD; ring
    · intro e x he hx0 hx1
      rw [a2 e t x he h0 h1 hx0 hx1, add_comm]
    · intro j hj hj'
      have hin : ({ rows := T, cols := z.numParamsEq, data := some cells } : Mat K).InR t j :=
        ⟨h0, h1, by omega, hj'⟩
      rw [a3 t j hin hj, v0 t j hin]
  · rw [if_neg hae]
    simp only [Bool.or_eq_true, bne_iff_ne, not_or, not_not] at hae
    have hal : z.arLags = [] := by
      have h := hae.1
      unfold Sizes.hasAr Sizes.arLength at h
      simpa using h
    refine ⟨y, _, rfl, wy, wX0, sy.rows, sy.cols, rfl, rfl, fun t h0 h1 => ⟨hyv t h0 h1, ?_, ?_, ?_⟩⟩
    · intro c l r hc; rw [hal] at hc; simp at hc
    · intro e x _ hx0 hx1; omega
    · intro j hj hj'
      exact v0 t j ⟨h0, h1, by omega, hj'⟩

/-- A product of a coefficient row with a vector laid out like the columns of the model. -/
theorem sum_modelRhs [Ring K] {z : Sizes} (hz : z.Proper) (B : Mat K) (x : Int → K) (ar : Int → Int → K)
    (exo : Int → K) (ma : Int → Int → K) (r : Int)
    (h1 : ∀ (c : Nat) l s, z.arLags[c]? = some l → 0 ≤ s → s < z.eqsCount → x (c * z.eqsCount + s) = ar s l)
    (h2 : ∀ k, 0 ≤ k → k < z.exoCount → x (z.arLength * z.eqsCount + k) = exo k)
    (h3 : ∀ (c : Nat) l s, z.maLags[c]? = some l → 0 ≤ s → s < z.eqsCount →
      x (z.maStart + c * z.eqsCount + s) = ma s l) :
    ∑ c ∈ Finset.range z.numParamsEq.toNat, B.val r c * x c = modelRhs z B ar exo ma r := by
  have hg := hz.eqs_pos
  have hx := hz.exo_nonneg
  obtain ⟨g, hgn⟩ : ∃ g : Nat, z.eqsCount = g := ⟨z.eqsCount.toNat, by omega⟩
  obtain ⟨e, hen⟩ : ∃ e : Nat, z.exoCount = e := ⟨z.exoCount.toNat, by omega⟩
  have hnp : z.numParamsEq.toNat = (z.arLags.length * g + e) + z.maLags.length * g := by
    unfold Sizes.numParamsEq Sizes.maStart Sizes.arLength Sizes.maLength
    rw [hgn, hen]
    have : (z.arLags.length : Int) * g + e + z.maLags.length * g
        = ((z.arLags.length * g + e + z.maLags.length * g : Nat) : Int) := by push_cast; ring
    rw [this, Int.toNat_natCast]
  unfold modelRhs
  rw [hnp, Finset.sum_range_add, Finset.sum_range_add, sum_bands, sum_bands, hgn, hen]
  simp only [Int.toNat_natCast]
  congr 1
  · congr 1
    · refine Finset.sum_congr rfl (fun c hc => Finset.sum_congr rfl (fun s hs => ?_))
      have hc' := Finset.mem_range.1 hc
      have hs' := Finset.mem_range.1 hs
      have := h1 c _ s (List.getElem?_eq_getElem hc') (by omega) (by omega)
      rw [hgn] at this
      push_cast
      rw [this, List.getElem?_eq_getElem hc']; rfl
    · refine Finset.sum_congr rfl (fun k hk => ?_)
      have hk' := Finset.mem_range.1 hk
      have := h2 k (by omega) (by omega)
      unfold Sizes.arLength at this
      rw [hgn] at this
      push_cast
      rw [this]
  · refine Finset.sum_congr rfl (fun c hc => Finset.sum_congr rfl (fun s hs => ?_))
    have hc' := Finset.mem_range.1 hc
    have hs' := Finset.mem_range.1 hs
    have := h3 c _ s (List.getElem?_eq_getElem hc') (by omega) (by omega)
    unfold Sizes.maStart Sizes.arLength at this
    rw [hgn, hen] at this
    push_cast
    rw [show (z.arLags.length : Int) * g + e + (c * g + s) = z.arLags.length * g + e + c * g + s by ring, this,
      List.getElem?_eq_getElem hc']; rfl

theorem Sizes.Proper.cols {z : Sizes} (hz : z.Proper) :
    0 ≤ z.arLength * z.eqsCount ∧ 0 ≤ z.maStart ∧ 0 ≤ z.maLength * z.eqsCount ∧
    z.numParamsEq = z.maStart + z.maLags.length * z.eqsCount ∧ z.maStart = z.arLength * z.eqsCount + z.exoCount := by
  have hg := hz.eqs_pos
  have hx := hz.exo_nonneg
  have h1 : 0 ≤ z.arLength * z.eqsCount := mul_nonneg (by unfold Sizes.arLength; omega) (by omega)
  have h2 : 0 ≤ z.maLength * z.eqsCount := mul_nonneg (by unfold Sizes.maLength; omega) (by omega)
  refine ⟨h1, ?_, h2, rfl, rfl⟩
  unfold Sizes.maStart; omega

theorem mlResid_spec [Ring K] {z : Sizes} {n : Int} {Pi y X resid : Mat K} (hz : z.Proper) (hn : 0 ≤ n)
    (wP : Pi.Wf) (hPr : Pi.rows = z.eqsCount) (hPc : Pi.cols = z.numParamsEq)
    (wy : y.Wf) (hyr : y.rows = z.eqsCount) (hyc : y.cols = n)
    (wX : X.Wf) (hXr : X.rows = n) (hXc : X.cols = z.numParamsEq)
    (wr : resid.Wf) (hrr : resid.rows = z.eqsCount) (hrc : resid.cols = n) :
    ∃ X' re, mlResid z n Pi y X resid = .ok (X', re) ∧ re.Wf ∧ SameShape resid re ∧
      ∀ t r, 0 ≤ t → t < n → 0 ≤ r → r < z.eqsCount →
        re.val r t = y.val r t - ∑ c ∈ Finset.range z.numParamsEq.toNat, Pi.val r c * X'.val t c ∧
        (∀ j, 0 ≤ j → j < z.maStart → X'.val t j = X.val t j) ∧
        (∀ (c : Nat) l s, z.maLags[c]? = some l → 0 ≤ s → s < z.eqsCount →
          X'.val t (z.maStart + c * z.eqsCount + s) =
            if l ≤ t then re.val s (t - l) else X.val t (z.maStart + c * z.eqsCount + s)) := by
  have hg := hz.eqs_pos
  obtain ⟨hA, hms, hM, hnp, hmsd⟩ := hz.cols
  have hM' : 0 ≤ (z.maLags.length : Int) * z.eqsCount := hM
  unfold mlResid
  obtain ⟨⟨X', re⟩, e, sX, sr, wX', wr', i1, i2, i3⟩ := loop_inv (a := 0) (b := n) hn (residStep z n Pi y)
    (fun i st => SameShape X st.1 ∧ SameShape resid st.2 ∧ st.1.Wf ∧ st.2.Wf ∧
      (∀ t j, 0 ≤ t → t < n → 0 ≤ j → j < z.maStart → st.1.val t j = X.val t j) ∧
      (∀ (c : Nat) l s t, z.maLags[c]? = some l → 0 ≤ s → s < z.eqsCount → 0 ≤ t → t < n →
        st.1.val t (z.maStart + c * z.eqsCount + s) =
          if l ≤ t ∧ t - l < i then st.2.val s (t - l) else X.val t (z.maStart + c * z.eqsCount + s)) ∧
      (∀ t r, 0 ≤ t → t < i → 0 ≤ r → r < z.eqsCount →
        st.2.val r t = y.val r t - ∑ c ∈ Finset.range z.numParamsEq.toNat, Pi.val r c * st.1.val t c))
    (s := (X, resid))
    ⟨SameShape.refl _, SameShape.refl _, wX, wr, fun _ _ _ _ _ _ => rfl,
      fun c l s t _ _ _ _ _ => by rw [if_neg (by omega)], fun t r h0 h1 => by omega⟩ (by
      intro i hi0 hi st ⟨sX, sr, wX', wr', i1, i2, i3⟩
      unfold residStep
      obtain ⟨re, er, s2, w2, c2⟩ := loop_inv (a := 0) (b := z.eqsCount) (by omega)
        (fun re j => do
          let d ← dotVec Pi (st.1.get0 i) z.numParamsEq j
          let v ← y.get0 j i
          re.set0 j i (v - d))
        (fun k re => SameShape st.2 re ∧ re.Wf ∧ ∀ r t, st.2.InR r t → re.val r t =
          if t = i ∧ r < k then y.val r i - ∑ c ∈ Finset.range z.numParamsEq.toNat, Pi.val r c * st.1.val i c
          else st.2.val r t) (s := st.2) ⟨SameShape.refl _, wr', fun r t h => by
            rw [if_neg]; have := h.1; omega⟩ (by
          intro k hk0 hk re ⟨s3, w3, c3⟩
          rw [dotVec_spec (xv := fun c => st.1.val i c) wP (by omega) hk0 (by omega) (by omega)
            (fun c h0 h1 => get0_val wX' (sX.inR.2 ⟨hi0, by omega, h0, by omega⟩)), Outcome.ok_bind,
            get0_val wy ⟨hk0, by omega, hi0, by omega⟩, Outcome.ok_bind]
          have hin : st.2.InR k i := sr.inR.2 ⟨hk0, by omega, hi0, by omega⟩
          obtain ⟨re', e', s', w', c'⟩ := set0_val w3 (s3.inR.2 hin)
            (y.val k i - ∑ c ∈ Finset.range z.numParamsEq.toNat, Pi.val k c * st.1.val i c)
          refine ⟨re', e', s3.trans s', w', fun r t h => ?_⟩
          rw [c' r t (s3.inR.2 h), c3 r t h]
          by_cases hh : r = k ∧ t = i
          · rw [if_pos hh, if_pos (by omega), hh.1]
          · rw [if_neg hh]
            split_ifs <;> first | rfl | omega)
      rw [er, Outcome.ok_bind]
      obtain ⟨X2, e4, s4, w4, c4, c4'⟩ := updateX_spec (n := n) (i := i) (g := z.eqsCount) w2 (by omega)
        (by rw [s2.rows, sr.rows]; omega) hi0 (by rw [s2.cols, sr.cols]; omega) z.maLags z.maStart st.1 wX' hms
        (by rw [sX.cols]; omega) (by rw [sX.rows]; omega) hz.ma_sorted
        (fun l h => by have := hz.ma_lag l h; omega)
      rw [e4, Outcome.ok_bind]
      have hre : ∀ r t, 0 ≤ r → r < z.eqsCount → 0 ≤ t → t < n → re.val r t =
          if t = i then y.val r i - ∑ c ∈ Finset.range z.numParamsEq.toNat, Pi.val r c * st.1.val i c
          else st.2.val r t := by
        intro r t h0 h1 h2 h3
        rw [c2 r t (sr.inR.2 ⟨h0, by omega, h2, by omega⟩)]
        congr 1
        apply propext; omega
      have hX2 : ∀ t c, 0 ≤ t → t ≤ i → 0 ≤ c → c < z.numParamsEq → X2.val t c = st.1.val t c := by
        intro t c ht0 ht hc0 hc
        by_cases hcm : c < z.maStart
        · exact c4' t c (sX.inR.2 ⟨ht0, by omega, hc0, by omega⟩) (Or.inl hcm)
        · have hq0 : 0 ≤ (c - z.maStart) / z.eqsCount := Int.ediv_nonneg (by omega) (by omega)
          have hqr := Int.mul_ediv_add_emod (c - z.maStart) z.eqsCount
          have hr0 := Int.emod_nonneg (c - z.maStart) (by omega : z.eqsCount ≠ 0)
          have hr1 := Int.emod_lt_of_pos (c - z.maStart) (by omega : 0 < z.eqsCount)
          obtain ⟨q, hq⟩ : ∃ q : Nat, (c - z.maStart) / z.eqsCount = q := ⟨_, (Int.toNat_of_nonneg hq0).symm⟩
          have hql : q < z.maLags.length := by
            by_contra hcon
            have h5 : (z.maLags.length : Int) * z.eqsCount ≤ q * z.eqsCount :=
              mul_le_mul_of_nonneg_right (by omega) (by omega)
            rw [hq, mul_comm] at hqr
            omega
          rw [hq] at hqr
          have heq : c = z.maStart + q * z.eqsCount + (c - z.maStart) % z.eqsCount := by
            rw [mul_comm (q : Int)]; omega
          have hlag := hz.ma_lag _ (List.getElem_mem hql)
          have := c4 q _ t ((c - z.maStart) % z.eqsCount) (List.getElem?_eq_getElem hql) ht0 (by omega) hr0 hr1
          rw [← heq] at this
          rw [this, if_neg (by omega)]
      refine ⟨(X2, re), rfl, sX.trans s4, sr.trans s2, w4, w2, ?_, ?_, ?_⟩
      · intro t j h0 h1 hj0 hj
        rw [c4' t j (sX.inR.2 ⟨h0, by omega, hj0, by omega⟩) (Or.inl hj), i1 t j h0 h1 hj0 hj]
      · intro c l s t hc hs0 hs ht0 ht
        have hlag := hz.ma_lag l (mem_of_some hc)
        simp only
        rw [c4 c l t s hc ht0 ht hs0 hs]
        by_cases h1 : t = i + l
        · rw [if_pos h1, if_pos (by omega), show t - l = i by omega]
        · rw [if_neg h1, i2 c l s t hc hs0 hs ht0 ht]
          by_cases h2 : l ≤ t ∧ t - l < i
          · rw [if_pos h2, if_pos (by omega), hre s (t - l) hs0 hs (by omega) (by omega), if_neg (by omega)]
          · rw [if_neg h2, if_neg (by omega)]
      · intro t r h0 h1 hr0 hr
        simp only
        have hsum : ∑ c ∈ Finset.range z.numParamsEq.toNat, Pi.val r c * X2.val t c
            = ∑ c ∈ Finset.range z.numParamsEq.toNat, Pi.val r c * st.1.val t c := by
          refine Finset.sum_congr rfl (fun c hc => ?_)
          rw [hX2 t c h0 (by omega) (by omega) (by have := Finset.mem_range.1 hc; omega)]
        rw [hsum, hre r t hr0 hr h0 (by omega)]
        by_cases hti : t = i
        · rw [if_pos hti, hti]
        · rw [if_neg hti, i3 t r h0 (by omega) hr0 hr])
  refine ⟨X', re, e, wr', sr, fun t r h0 h1 hr0 hr => ⟨i3 t r h0 h1 hr0 hr, fun j hj0 hj => i1 t j h0 h1 hj0 hj, ?_⟩⟩
  intro c l s hc hs0 hs
  have hlag := hz.ma_lag l (mem_of_some hc)
  have := i2 c l s t hc hs0 hs h0 h1
  simp only at this
  rw [this]
  congr 1
  apply propext; omega

/-- The residuals solve the model equation: with `Δ` the difference operator, at every time of the sample and in
every equation the residual is `Δ`data minus the right-hand side of the model at the lagged `Δ`data, the exogenous
data of that time and the lagged residuals (zero before the sample). -/
theorem C56_residuals [Ring K] {z : Sizes} {data : Mat K} {exo : Option (Mat K)} {sampleEnd : Int}
    {work ymem xmem : List K} (hz : z.Proper) (wd : data.Wf) (hgd : z.eqsCount = data.rows)
    (hobs : z.obsCount = data.cols) (hse : 0 ≤ sampleEnd) (hT : 1 ≤ z.T - sampleEnd) (hq : 1 ≤ z.numParams)
    (hw : z.hasDiff = true → z.eqsCount * (data.cols - z.diffDegree) ≤ work.length)
    (hy : z.eqsCount * (z.T - sampleEnd) ≤ ymem.length)
    (hx : (z.T - sampleEnd) * z.numParamsEq ≤ xmem.length)
    (hex : z.exoCount ≠ 0 → ∃ e, exo = some e ∧ e.Wf ∧ e.rows = z.exoCount ∧ z.obsCount ≤ e.cols)
    {Pi resid : Mat K} (wP : Pi.Wf) (hPr : Pi.rows = z.eqsCount) (hPc : Pi.cols = z.numParamsEq)
    (wr : resid.Wf) (hrr : resid.rows = z.eqsCount) (hrc : resid.cols = z.T - sampleEnd) :
    ∃ yX Xre, prepare z data exo sampleEnd work ymem xmem = .ok yX ∧
      mlResid z (z.T - sampleEnd) Pi yX.1 yX.2 resid = .ok Xre ∧ Xre.2.Wf ∧
      Xre.2.rows = z.eqsCount ∧ Xre.2.cols = z.T - sampleEnd ∧
      ∀ t r, 0 ≤ t → t < z.T - sampleEnd → 0 ≤ r → r < z.eqsCount →
        Xre.2.val r t = diffAt z.diffPoly data r (t + z.arMaxD) - modelRhs z Pi
          (fun s l => diffAt z.diffPoly data s (t + z.arMaxD - l))
          (fun x => exoVal exo x (t + z.arMaxD))
          (fun s l => if l ≤ t then Xre.2.val s (t - l) else 0) r := by
  obtain ⟨y, X, e, wy, wX, yr, yc, Xr, Xc, cv⟩ := C55_sample hz wd hgd hobs hse hT hq hw hy hx hex
  obtain ⟨hA, hms, hM, hnp, hmsd⟩ := hz.cols
  obtain ⟨X', re, e2, w2, s2, c2⟩ := mlResid_spec (n := z.T - sampleEnd) hz (by omega) wP hPr hPc wy yr yc wX Xr Xc wr hrr hrc
  refine ⟨(y, X), (X', re), e, e2, w2, by rw [s2.rows, hrr], by rw [s2.cols, hrc], fun t r h0 h1 hr0 hr => ?_⟩
  obtain ⟨a1, a2, a3⟩ := c2 t r h0 h1 hr0 hr
  obtain ⟨b1, b2, b3, b4⟩ := cv t h0 h1
  simp only
  rw [a1, b1 r hr0 hr]
  congr 1
  have hg := hz.eqs_pos
  have hxn := hz.exo_nonneg
  apply sum_modelRhs hz
  · intro c l s hc hs0 hs
    have hcl := lt_length_of_some hc
    have hb := band_lt (n := z.arLength) (by omega : 0 ≤ z.eqsCount)
      (by unfold Sizes.arLength; omega : (c : Int) + 1 ≤ z.arLength) hs hs0 (by omega)
    rw [a2 _ (by omega) (by omega), b2 c l s hc hs0 hs]
  · intro k hk0 hk
    obtain ⟨e, he, -⟩ := hex (by omega)
    rw [a2 _ (by omega) (by omega), b3 e k he hk0 hk, he]; rfl
  · intro c l s hc hs0 hs
    have hcl := lt_length_of_some hc
    have hb := band_lt (n := z.maLags.length) (by omega : 0 ≤ z.eqsCount)
      (by omega : (c : Int) + 1 ≤ z.maLags.length) hs hs0 (by omega)
    rw [a3 c l s hc hs0 hs, b4 _ (by omega) (by omega)]

end Varma
end LDT
