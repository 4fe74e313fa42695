import Verif.Props.VarmaExt
/-!
# C138: unchecked tables, a history of tables, and tables without common periods
-/
namespace LDT
namespace Vx
open Mx Op
open Arr (Val)
open Pc (Options Pca Lapack)

variable {other : Int → Int → Outcome Unit} {u : Setup} {e : Ext} {D : Mat (Val ℝ)} {b : Buffers} {h se : Int}

/-- What loading does if there are no empty variables. -/
theorem setData_missing {d d' : DsTs ℝ} {D : Mat (Val ℝ)} (hn : d.hasNaN = true) (hm : d.hasMissing = true) (h : d.setData false D = .ok d') : d'.hasMissing = true := by
  unfold DsTs.setData at h
  rw [hn, if_pos rfl] at h
  obtain ⟨rs, -, h⟩ := bind_ok h
  split_ifs at h
  cases h
  show (d.hasMissing || _) = true
  rw [hm, Bool.true_or]

/-- C138: a variable that is observed only before a period and one that is observed only from it on are refused: there is no sample. -/
theorem C138_disjoint (L : Lapack) (hm : make other u = .ok e) (hc : u.checkNan = true) (w : D.Wf) (hr : 0 < D.rows) (hmax : D.rows ≤ intMax) {t j k : Int}
    (hj : 0 ≤ j) (hj' : j < D.cols) (hk : 0 ≤ k) (hk' : k < D.cols) (h1 : ∀ i, 0 ≤ i → i < t → D.get i j = .ok none)
    (h2 : ∀ i, t ≤ i → i < D.rows → D.get i k = .ok none) : ∀ p, prepare L other e D h se b ≠ .ok p := by
  have m := made hm
  have hn : e.data.hasNaN = true := by rw [m.data]; exact hc
  have hmi : e.data.hasMissing = false := by rw [m.data]
  have hsel : e.data.select = false := by rw [m.data]
  intro p hp
  unfold prepare at hp
  split_ifs at hp
  obtain ⟨e', -, hp⟩ := bind_ok hp
  obtain ⟨d, e1, hp⟩ := bind_ok hp
  obtain ⟨r, e2, hp⟩ := bind_ok hp
  split_ifs at hp with q1 q2
  have hob : ∀ k, 0 ≤ k → k < nSer false D → ∃ t, 0 ≤ t ∧ t < nTime false D ∧ ObsT false D k t := by
    by_contra hne
    push Not at hne
    obtain ⟨k, g1, g2, g3⟩ := hne
    rw [(C45_ranges false e.data hn hmi D w hr).1 ⟨k, g1, g2, fun ⟨t, a1, a2, a3⟩ => g3 t a1 a2 a3⟩] at e1
    cases e1
  obtain ⟨d', e3, hpd, hn', hs', -, hlen, hrg, -⟩ := (C45_ranges false e.data hn hmi D w hr).2 hob
  have ed : d = d' := Outcome.ok.inj (e1.symm.trans e3)
  subst ed
  rw [show nSer false D = D.cols from rfl] at hlen
  have hto : ∀ k, 0 ≤ k → k < D.cols → ∃ r ∈ d.ranges, RangeOf false D k r := by
    intro k h1 h2
    have hk : d.ranges[k.toNat]? = some (d.ranges[k.toNat]'(by omega)) := List.getElem?_eq_getElem (by omega)
    refine ⟨_, List.mem_iff_getElem?.2 ⟨_, hk⟩, ?_⟩
    have := hrg k.toNat _ hk
    rwa [show ((k.toNat : Nat) : Int) = k by omega] at this
  obtain ⟨rj, hrj, oj⟩ := hto j hj hj'
  obtain ⟨rk, hrk, ok⟩ := hto k hk hk'
  have hwin := window_of_fold d.ranges (List.ne_nil_of_mem hrj) (by
    intro r hr'
    obtain ⟨i, hi⟩ := List.mem_iff_getElem?.1 hr'
    have ho := hrg i r hi
    have := ho.lt
    have e : nTime false D = D.rows := rfl
    exact ⟨ho.start_nonneg, by omega⟩)
  have l1 : t ≤ rj.start := by
    by_contra hlt
    obtain ⟨v, hv⟩ := obs_iff.1 oj.obs_start
    rw [h1 _ oj.start_nonneg (by omega)] at hv
    cases hv
  have l2 : rk.stop < t := by
    by_contra hlt
    obtain ⟨v, hv⟩ := obs_iff.1 ok.obs_stop
    rw [h2 _ (by omega) ok.lt] at hv
    cases hv
  unfold DsTs.update at e2
  rw [hs', hsel, hn'] at e2
  simp only [Bool.false_eq_true, if_false, if_true] at e2
  unfold biggestWithoutNaN at e2
  rw [Outcome.ok_bind] at e2
  obtain ⟨o, -, e2⟩ := bind_ok e2
  cases e2
  have := hwin.ge rj hrj
  have := hwin.ge rk hrk
  simp only at q2
  omega

/-- C138 does not hold of the program: after a table with a gap, every table is refused - also one that the object, had it been new, would have accepted. -/
theorem C138_history_violated (L : Lapack) (hm : make other u = .ok e) (hy : NoPca u.pcaY) (hx : NoPca u.pcaX) (hc : u.checkNan = true)
    {D₁ : Mat (Val ℝ)} (w₁ : D₁.Wf) (hr₁ : 0 < D₁.rows) (ho : ∀ j, 0 ≤ j → j < D₁.cols → ∃ t v, 0 ≤ t ∧ t < D₁.rows ∧ D₁.get t j = .ok (some v)) (g₁ : ¬ NoGaps D₁)
    (f : Fits u D b h) (hg : 0 < u.eqs) (hk : 0 ≤ u.exo) (h0 : 0 ≤ h) (hh : h ≤ u.horizon) {S E : Int} (hs : IsSample D S E) (ng : NoGaps D) (hse : se ≤ E + 1)
    (hf : 0 < u.exo → 0 < h → E + h - se < D.rows) :
    (∃ p, prepare L other e D h se b = .ok p) ∧ ∀ D' h' se' b' p, prepare L other (e.after D₁) D' h' se' b' ≠ .ok p := by
  constructor
  · obtain ⟨p, hp, -⟩ := C138_sample L hm hy hx hc f hg hk h0 hh hs ng hse hf
    exact ⟨p, hp⟩
  have m := made hm
  obtain ⟨d', e1, -, hn, -, -, -, -, hmi⟩ := (C45_ranges false e.data (by rw [m.data]; exact hc) (by rw [m.data]) D₁ w₁ hr₁).2 fun k h1 h2 => by
    obtain ⟨t, v, h3, h4, h5⟩ := ho k h1 h2
    exact ⟨t, h3, h4, v, h5⟩
  have ha : e.after D₁ = { e with data := d' } := by unfold Ext.after; rw [e1]
  have hmt : d'.hasMissing = true := hmi.2 (gap_iff.2 g₁)
  intro D' h' se' b' p hp
  rw [ha] at hp
  unfold prepare at hp
  split_ifs at hp
  obtain ⟨e', -, hp⟩ := bind_ok hp
  obtain ⟨d, e2, hp⟩ := bind_ok hp
  obtain ⟨r, -, hp⟩ := bind_ok hp
  rw [if_pos (setData_missing hn hmt e2)] at hp
  cases hp

/-- C138 does not hold of the program without the check for missing values: the future values are not the ones after the last period, they are rows `1 - se` to `h - se` of
the table itself. -/
theorem C138_unchecked_violated (L : Lapack) (hm : make other u = .ok e) (hy : NoPca u.pcaY) (hx : NoPca u.pcaX) (hc : u.checkNan = false) (f : Fits u D b h)
    (hg : 0 < u.eqs) (hk : 0 < u.exo) (h0 : 0 < h) (hh : h ≤ u.horizon) (hse : se ≤ 1) (hf : h - se < D.rows) :
    ∃ p X F, prepare L other e D h se b = .ok p ∧ IsBlock p.y D 0 0 D.rows u.eqs ∧ p.x = some X ∧ IsBlock X D 0 u.eqs D.rows u.exo ∧
      p.future = some F ∧ IsBlock F D (1 - se) u.eqs h u.exo := by
  have m := made hm
  have ey := (Outcome.ok.inj ((makeY_none hy).symm.trans m.stepY)).symm
  have ex := (Outcome.ok.inj ((makeX_none hx).symm.trans m.stepX)).symm
  have eg : e.setup.eqs = u.eqs := congrArg Prod.snd ey
  have ek : e.setup.exo = u.exo := congrArg Prod.snd ex
  have eh : e.setup.horizon = u.horizon := by rw [m.setup]
  obtain ⟨e', he'⟩ := again m (by omega) (by omega) (fun o ho he => by rw [hx o ho] at he; cases he) h
  have hn : e.data.hasNaN = false := by rw [m.data]; exact hc
  have e1 : e.data.setData false D = .ok { e.data with pData := D, ranges := [] } := by
    unfold DsTs.setData
    rw [if_neg (by rw [hn]; simp)]
  obtain ⟨r, e2, sh, hcell⟩ := copyTo00_spec D ⟨D.rows, D.cols, some b.data⟩ f.wf ⟨f.wf.rows_nonneg, f.wf.cols_nonneg, rfl, f.room⟩ rfl rfl
  have e3 : DsTs.update false { e.data with pData := D, ranges := [] } none b.data = .ok (0, 0, r) := by
    unfold DsTs.update
    rw [show ({ e.data with pData := D, ranges := [] } : DsTs ℝ).select = false by rw [m.data],
      show ({ e.data with pData := D, ranges := [] } : DsTs ℝ).hasNaN = false from hn]
    simp only [Bool.false_eq_true, if_false]
    rw [e2]; rfl
  have wr : r.Wf := sh.wf ⟨f.wf.rows_nonneg, f.wf.cols_nonneg, rfl, f.room⟩
  have hb : IsBlock r D 0 0 D.rows D.cols := ⟨sh.rows, sh.cols, fun i c h1 h2 h3 h4 => by rw [hcell i c ⟨h1, h2, h3, h4⟩, zero_add, zero_add]⟩
  obtain ⟨w1, w2⟩ := view0 wr hb (m := u.eqs) (by omega) (by rw [f.cols]; omega)
  obtain ⟨w3, w4⟩ := view wr hb (j := u.eqs) (m := u.exo) (by omega) (by omega) (by rw [f.cols])
  obtain ⟨fut, e4, -, f2⟩ := stepFuture_ok (e := e) (b := b) (se := se) (h := h) (E := 0) f.wf (by omega) (by omega) (by rw [f.cols]; omega) (by omega) (by omega)
    (by omega) (by rw [ek]; exact f.future)
  obtain ⟨F, e5, -, bF⟩ := f2 h0
  rw [zero_add, eg, ek] at bF
  rw [← sh.rows] at w2 w4
  refine ⟨⟨⟨r.rows, u.eqs, some r.mem⟩, some ⟨r.rows, u.exo, some (r.mem.drop (u.eqs * r.rows).toNat)⟩, fut, (u.eqs, u.exo)⟩, _, F, ?_, sh.rows ▸ w2, rfl, sh.rows ▸ w4,
    e5, bF⟩
  unfold prepare
  rw [if_neg (by omega), he', Outcome.ok_bind, e1, Outcome.ok_bind, e3, Outcome.ok_bind]
  rw [show ({ e.data with pData := D, ranges := [] } : DsTs ℝ).hasMissing = false by rw [m.data]]
  simp only [Bool.false_eq_true, if_false]
  rw [if_neg (by omega)]
  unfold stepY stepX
  rw [show e.pcaY = none from congrArg Prod.fst ey, show e.pcaX = none from congrArg Prod.fst ex, if_pos (by omega), e4, eg, ek]
  rfl

end Vx
end LDT
