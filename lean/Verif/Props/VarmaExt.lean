import Verif.Lemmas.VarmaExtMake
/-!
# C138: a VARMA model from a table
-/
namespace LDT
namespace Vx
open Mx Op
open Arr (Val)
open Pc (Options Pca Lapack)

variable {other : Int → Int → Outcome Unit} {u : Setup} {e : Ext} {D : Mat (Val ℝ)} {b : Buffers} {h se S E : Int}

/-- No principal components are asked for. -/
def NoPca (p : Option Options) : Prop := ∀ o, p = some o → o.enabled = false

theorem stepFuture_ok (w : D.Wf) (hg : 0 ≤ e.setup.eqs) (hk : 0 ≤ e.setup.exo) (hgk : e.setup.eqs + e.setup.exo ≤ D.cols) (h0 : 0 ≤ h) (hse : se ≤ E + 1)
    (hf : 0 < h → E + h - se < D.rows) (hb : h * e.setup.exo ≤ b.future.length) :
    ∃ f, stepFuture e D E h se b = .ok f ∧ (h = 0 → f = none) ∧ (0 < h → ∃ F, f = some F ∧ F.Wf ∧ IsBlock F D (E + 1 - se) e.setup.eqs h e.setup.exo) := by
  unfold stepFuture
  by_cases hh : 0 < h
  · obtain ⟨f, e1, wf, hbl⟩ := future_ok w (E := E) (se := se) b.future hg hk hgk h0 (by omega) (hf hh) hb
    rw [if_pos hh, if_neg (by have := hf hh; omega), e1]
    exact ⟨some f, rfl, fun h => by omega, fun _ => ⟨f, rfl, wf, hbl⟩⟩
  · rw [if_neg (by omega)]
    exact ⟨none, rfl, fun _ => rfl, fun h => absurd h hh⟩

theorem stepX_plain (L : Lapack) (hp : e.pcaX = none) {r : Mat (Val ℝ)} (w : D.Wf) (rw' : r.Wf) (hr : IsBlock r D S 0 (E - S + 1) D.cols)
    (hg : 0 ≤ e.setup.eqs) (hk : 0 ≤ e.setup.exo) (hgk : e.setup.eqs + e.setup.exo ≤ D.cols) (h0 : 0 ≤ h) (hse : se ≤ E + 1)
    (hf : 0 < e.setup.exo → 0 < h → E + h - se < D.rows) (hb : h * e.setup.exo ≤ b.future.length) :
    ∃ x, stepX L e r D E h se b = .ok x ∧ Exogenous D x.1 x.2 e.setup.eqs e.setup.exo S E h se := by
  by_cases hk0 : e.setup.exo = 0
  · refine ⟨(none, none), ?_, ⟨fun _ => ⟨rfl, rfl⟩, fun h => by omega, fun h => by omega⟩⟩
    unfold stepX
    rw [if_neg (by omega)]
  have hpos : 0 < e.setup.exo := by omega
  obtain ⟨v1, v2⟩ := view rw' hr hg hk hgk
  rw [← hr.rows] at v1 v2
  obtain ⟨f, e1, f1, f2⟩ := stepFuture_ok (b := b) w hg hk hgk h0 hse (hf hpos) hb
  refine ⟨(some ⟨r.rows, e.setup.exo, some (r.mem.drop (e.setup.eqs * r.rows).toNat)⟩, f), ?_, ⟨fun h => by omega, fun _ => ⟨_, rfl, hr.rows ▸ v2⟩, fun _ hh => ?_⟩⟩
  · unfold stepX
    rw [if_pos hpos, e1, hp]
    rfl
  · obtain ⟨F, e2, -, e3⟩ := f2 hh
    exact ⟨F, e2, e3⟩

/-- The endogenous columns replaced by their components; `s + c` is the reduced number of columns. -/
theorem stepY_pca (L : Lapack) (hL : L.Correct) {R C : Int} (hR : 0 ≤ R) (hC : 0 ≤ C) {o : Options} {p : Pca} (hp : e.pcaY = some (o, p))
    (hmk : Pca.make R C 0 true true true true = .ok p) {r : Mat (Val ℝ)} (rw' : r.Wf) (hr : IsBlock r D S 0 (E - S + 1) D.cols) {s c n : ℕ} (hs : o.ignoreFirst = s)
    (hg : e.setup.eqs = (s + c : ℕ)) (hle : e.setup.eqs ≤ D.cols) (hcC : (c : Int) ≤ C) (pc : 0 < c) (hn : E - S + 1 = n) (h2 : 2 ≤ n) (hnR : (n : Int) ≤ R)
    (M : Fin n → Fin (s + c) → ℝ) (hM : ∀ (i : Fin n) (j : Fin (s + c)), D.get (S + (i : ℕ)) (j : ℕ) = .ok (some (M i j))) (hst : (b.storageY.length : Int) = p.storageSize)
    (hwk : (b.workY.length : Int) = p.workSize)
    (hv : ∀ j, Sd.colVar true (fun i (j : Fin c) => M i (Fin.natAdd s j)) j ≠ 0)
    (hi : (L.gesvd n (Pc.width true true fun i (j : Fin c) => M i (Fin.natAdd s j))
      (Pc.analysed true true true (fun i (j : Fin c) => M i (Fin.natAdd s j)) fun i (j : Fin c) => M i (Fin.natAdd s j))).1 = 0) :
    ∃ Dir sd res, Pc.Analysis (Pc.analysed true true true (fun i (j : Fin c) => M i (Fin.natAdd s j)) fun i (j : Fin c) => M i (Fin.natAdd s j)) true Dir sd res ∧
      ∀ k : ℕ, o.finalCount res.ratios = .ok k → k ≤ c → ∃ y, stepY L e r b = .ok y ∧
        Pc.Replaced s k M (Pc.scores (Pc.analysed true true true (fun i (j : Fin c) => M i (Fin.natAdd s j)) fun i (j : Fin c) => M i (Fin.natAdd s j)) Dir) y := by
  obtain ⟨R', rfl⟩ := Int.eq_ofNat_of_zero_le hR
  obtain ⟨C', rfl⟩ := Int.eq_ofNat_of_zero_le hC
  obtain ⟨v1, v2⟩ := view0 rw' hr (m := e.setup.eqs) (by omega) hle
  rw [← hr.rows] at v1 v2
  have hA : Sd.Holds (⟨r.rows, e.setup.eqs, some r.mem⟩ : Mat (Val ℝ)) M := by
    refine ⟨v1, hr.rows.trans hn, hg, fun i j => ?_⟩
    rw [v2.cell _ _ (by omega) (by rw [hr.rows]; omega) (by omega) (by rw [hg]; omega), zero_add]
    exact hM i j
  have hw : 0 < Pc.width true true fun i (j : Fin c) => M i (Fin.natAdd s j) := by
    unfold Pc.width Sd.keptColumns
    rw [List.filter_eq_self.2 (by intro j _; simp only [decide_eq_true_eq]; intro _; exact hv j), List.length_finRange]
    exact pc
  obtain ⟨Dir, sd, res, an, hok, -⟩ := (Pc.C131_model L hL (F := 0) (f := 0) (N := fun i => i.elim0) hmk o hs h2 pc (by exact_mod_cast hnR) (by exact_mod_cast hcC)
    le_rfl hA rfl (fun _ => Or.inl rfl) (Or.inl ⟨rfl, rfl⟩) hw b.workY b.storageY hst hwk).2.2 hi (fun _ => hv)
  refine ⟨Dir, sd, res, an, fun k hk hkc => ?_⟩
  obtain ⟨d, xf', hd, hrep, -⟩ := hok k hk hkc
  refine ⟨d, ?_, hrep⟩
  unfold stepY
  rw [hp]
  show (o.calculateForModel L p ⟨r.rows, e.setup.eqs, some r.mem⟩ b.workY b.storageY none >>= fun t => Outcome.ok t.2.1) = _
  rw [hd]; rfl

/-! ## The claims -/

/-- C138: without principal components the model is estimated with the endogenous columns of the sample, the exogenous variables are the other columns, and the future
values are those that follow. -/
theorem C138_sample (L : Lapack) (hm : make other u = .ok e) (hy : NoPca u.pcaY) (hx : NoPca u.pcaX) (hc : u.checkNan = true) (f : Fits u D b h)
    (hg : 0 < u.eqs) (hk : 0 ≤ u.exo) (h0 : 0 ≤ h) (hh : h ≤ u.horizon) (hs : IsSample D S E) (ng : NoGaps D) (hse : se ≤ E + 1)
    (hf : 0 < u.exo → 0 < h → E + h - se < D.rows) :
    ∃ p, prepare L other e D h se b = .ok p ∧ IsBlock p.y D S 0 (E - S + 1) u.eqs ∧ Exogenous D p.x p.future u.eqs u.exo S E h se ∧ p.sizes = (u.eqs, u.exo) := by
  have m := made hm
  have ey := (Outcome.ok.inj ((makeY_none hy).symm.trans m.stepY)).symm
  have ex := (Outcome.ok.inj ((makeX_none hx).symm.trans m.stepX)).symm
  have eg : e.setup.eqs = u.eqs := congrArg Prod.snd ey
  have ek : e.setup.exo = u.exo := congrArg Prod.snd ex
  obtain ⟨r, rw', hr, hpr⟩ := prepare_of L m hc (by omega) (by omega) (fun o ho he => by rw [hx o ho] at he; cases he) (se := se) hh f hs ng
  obtain ⟨x, e1, hX⟩ := stepX_plain L (se := se) (h := h) (b := b) (congrArg Prod.fst ex) f.wf rw' hr (by omega) (by omega) (by rw [f.cols]; omega) h0 hse
    (by rw [ek]; exact hf) (by rw [ek]; exact f.future)
  obtain ⟨v1, v2⟩ := view0 rw' hr (m := u.eqs) (by omega) (by rw [f.cols]; omega)
  rw [← hr.rows] at v2
  refine ⟨⟨⟨r.rows, u.eqs, some r.mem⟩, x.1, x.2, (u.eqs, u.exo)⟩, ?_, by rw [hr.rows] at v2 ⊢; exact v2, by rw [eg, ek] at hX; exact hX, rfl⟩
  rw [hpr]
  unfold stepY
  rw [show e.pcaY = none from congrArg Prod.fst ey, e1, eg, ek]
  rfl

/-- C138: a horizon beyond the reserved one, and exogenous variables that do not reach the horizon, are refused. -/
theorem C138_refused (L : Lapack) (hm : make other u = .ok e) :
    (∀ D h se b, u.horizon < h → prepare L other e D h se b = .throws) ∧
    (∀ D b h se S E, u.checkNan = true → NoPca u.pcaY → NoPca u.pcaX → Fits u D b h → 0 < u.eqs → 0 < u.exo → 0 < h → IsSample D S E → NoGaps D →
      D.rows ≤ E + h - se → prepare L other e D h se b = .throws) := by
  have m := made hm
  have eh : e.setup.horizon = u.horizon := by rw [m.setup]
  constructor
  · intro D h se b hh
    unfold prepare
    rw [if_pos (by omega)]
  · intro D b h se S E hc hy hx f hg hk hh hs ng hr
    by_cases hhu : h ≤ u.horizon
    swap
    · unfold prepare
      rw [if_pos (by omega)]
    have ey := (Outcome.ok.inj ((makeY_none hy).symm.trans m.stepY)).symm
    have ex := (Outcome.ok.inj ((makeX_none hx).symm.trans m.stepX)).symm
    have eg : e.setup.eqs = u.eqs := congrArg Prod.snd ey
    have ek : e.setup.exo = u.exo := congrArg Prod.snd ex
    obtain ⟨r, rw', hr', hpr⟩ := prepare_of L m hc (by omega) (by omega) (fun o ho he => by rw [hx o ho] at he; cases he) (se := se) hhu f hs ng
    rw [hpr]
    unfold stepY stepX stepFuture
    rw [show e.pcaY = none from congrArg Prod.fst ey, if_pos (show e.setup.exo > 0 by omega), if_pos (show h > 0 from hh), if_pos hr]
    rfl

/-- C138: what the constructor accepts when there are no principal components, and two things it always refuses. -/
theorem C138_made (hy : NoPca u.pcaY) (hx : NoPca u.pcaX) :
    ((∃ e, make other u = .ok e) ↔ 0 < u.obs ∧ 0 < u.eqs + u.exo ∧ u.general = false ∧ other u.eqs u.exo = .ok ()) := by
  constructor
  · rintro ⟨e, he⟩
    have m := made he
    have ey := (Outcome.ok.inj ((makeY_none hy).symm.trans m.stepY)).symm
    have ex := (Outcome.ok.inj ((makeX_none hx).symm.trans m.stepX)).symm
    refine ⟨m.obs, m.count, m.general, ?_⟩
    rw [← show e.setup.eqs = u.eqs from congrArg Prod.snd ey, ← show e.setup.exo = u.exo from congrArg Prod.snd ex]
    exact m.rest
  · rintro ⟨h1, h2, h3, h4⟩
    exact make_of h1 h2 (makeY_none hy) (makeX_none hx) h3 h4

/-- C138: general restrictions, and principal components of exogenous variables that do not exist, are refused. -/
theorem C138_made_refused (other : Int → Int → Outcome Unit) (u : Setup) :
    (u.general = true → ¬ ∃ e, make other u = .ok e) ∧ (∀ o, u.pcaX = some o → o.enabled = true → u.exo = 0 → ¬ ∃ e, make other u = .ok e) := by
  refine ⟨fun h ⟨e, he⟩ => ?_, fun o ho he h0 ⟨e, hm⟩ => ?_⟩
  · rw [(made he).general] at h; cases h
  · exact (makeX_some ho he (made hm).stepX).1 h0

/-- C138: a missing cell between two observations is refused. -/
theorem C138_missing (L : Lapack) (hm : make other u = .ok e) (hc : u.checkNan = true) (f : Fits u D b h) (hs : IsSample D S E) (ng : ¬ NoGaps D) :
    ∀ p, prepare L other e D h se b ≠ .ok p := by
  have m := made hm
  obtain ⟨d', r, h1, h2, h3, h4, h5⟩ := load f.wf hs f.most e.data (by rw [m.data]; exact hc) (by rw [m.data]) (by rw [m.data]) b.data f.room
  intro p hp
  unfold prepare at hp
  split_ifs at hp
  obtain ⟨e', -, hp⟩ := bind_ok hp
  rw [h1, Outcome.ok_bind, h3, Outcome.ok_bind, if_pos (h2.2 ng)] at hp
  cases hp

/-- C138: a variable without any observation is refused. -/
theorem C138_empty (L : Lapack) (hm : make other u = .ok e) (hc : u.checkNan = true) (w : D.Wf) (hr : 0 < D.rows) (j : Int) (hj : 0 ≤ j) (hj' : j < D.cols)
    (ho : ∀ t, 0 ≤ t → t < D.rows → D.get t j = .ok none) : ∀ p, prepare L other e D h se b ≠ .ok p := by
  have m := made hm
  have := (C45_ranges false e.data (by rw [m.data]; exact hc) (by rw [m.data]) D w hr).1 ⟨j, hj, hj', fun ⟨t, h1, h2, v, hv⟩ => by
    rw [show valAt false D j t = D.get t j from rfl, ho t h1 h2] at hv; cases hv⟩
  intro p hp
  unfold prepare at hp
  split_ifs at hp
  obtain ⟨e', -, hp⟩ := bind_ok hp
  rw [this] at hp
  cases hp

/-- C138: a model is returned only if its condition number does not exceed a positive limit, with forecasts exactly if there is a horizon; they are made for the model and
the data it was estimated with. -/
theorem C138_condition {M F : Type} (L : Lapack) (est : Prepared → Outcome (M × Dbl ℝ)) (fc : M → Prepared → Outcome F) (maxCn : ℝ) (q : M × Option F)
    (hq : calculate L other est fc e D h se maxCn b = .ok q) :
    ∃ p cn, prepare L other e D h se b = .ok p ∧ est p = .ok (q.1, cn) ∧ (0 < maxCn → ∀ x, cn = .num x → x ≤ maxCn) ∧ (0 < maxCn → cn ≠ .pinf) ∧
      (h ≤ 0 → q.2 = none) ∧ (0 < h → ∃ v, q.2 = some v ∧ fc q.1 p = .ok v) := by
  unfold calculate at hq
  obtain ⟨p, h1, hq⟩ := bind_ok hq
  obtain ⟨⟨m, cn⟩, h2, hq⟩ := bind_ok hq
  split_ifs at hq with h3 h4
  · obtain ⟨v, h5, hq⟩ := bind_ok hq
    cases hq
    refine ⟨p, cn, h1, h2, fun hp x hx => ?_, fun hp hx => ?_, fun h => by omega, fun _ => ⟨v, rfl, h5⟩⟩
    · by_contra hn
      exact h3 ⟨hp, by subst hx; exact decide_eq_true (lt_of_not_ge hn)⟩
    · exact h3 ⟨hp, by subst hx; rfl⟩
  · cases hq
    refine ⟨p, cn, h1, h2, fun hp x hx => ?_, fun hp hx => ?_, fun _ => rfl, fun h => absurd h h4⟩
    · by_contra hn
      exact h3 ⟨hp, by subst hx; exact decide_eq_true (lt_of_not_ge hn)⟩
    · exact h3 ⟨hp, by subst hx; rfl⟩

end Vx
end LDT
