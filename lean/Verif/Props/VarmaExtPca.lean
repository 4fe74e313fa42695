import Verif.Props.VarmaExt
/-!
# C138: principal components in a VARMA model from a table
-/
namespace LDT
namespace Vx
open Mx Op
open Arr (Val)
open Pc (Options Pca Lapack)

variable {other : Int → Int → Outcome Unit} {u : Setup} {e : Ext} {D : Mat (Val ℝ)} {b : Buffers} {h se S E : Int}

/-- The table for the components: standardised columns, without constant ones. -/
noncomputable abbrev std {n c f : ℕ} (T : Fin n → Fin c → ℝ) (N : Fin f → Fin c → ℝ) := Pc.analysed true true true T N

/-- The columns from number `s` on. -/
abbrev tail {n s c : ℕ} (M : Fin n → Fin (s + c) → ℝ) : Fin n → Fin c → ℝ := fun i j => M i (Fin.natAdd s j)

/-- All columns vary and the decomposition succeeds. -/
structure Decomposes (L : Lapack) {n s c : ℕ} (M : Fin n → Fin (s + c) → ℝ) : Prop where
  vary : ∀ j, Sd.colVar true (tail M) j ≠ 0
  info : (L.gesvd n (Pc.width true true (tail M)) (std (tail M) (tail M))).1 = 0

/-- Components of the first `s + c` columns, the number to which the options reduce the endogenous variables. -/
theorem pca_y (L : Lapack) (hL : L.Correct) (hm : make other u = .ok e) {o : Options} (hy : u.pcaY = some o) (ho : o.enabled = true) (hx : NoPca u.pcaX)
    (hc : u.checkNan = true) (f : Fits u D b h) (hg : 0 < u.eqs) (hk : 0 ≤ u.exo) (h0 : 0 ≤ h) (hh : h ≤ u.horizon) (hs : IsSample D S E) (ng : NoGaps D)
    (hse : se ≤ E + 1) (hf : 0 < u.exo → 0 < h → E + h - se < D.rows) {s c n : ℕ} (hi : o.ignoreFirst = s) (hr : reduced u.eqs o = (s + c : ℕ)) (pc : 0 < c)
    (hn : E - S + 1 = n) (h2 : 2 ≤ n) (M : Fin n → Fin (s + c) → ℝ) (hM : ∀ (i : Fin n) (j : Fin (s + c)), D.get (S + (i : ℕ)) (j : ℕ) = .ok (some (M i j)))
    (hst : ∀ q, e.pcaY = some (o, q) → (b.storageY.length : Int) = q.storageSize ∧ (b.workY.length : Int) = q.workSize) (hd : Decomposes L M) :
    ∃ Dir sd res, Pc.Analysis (std (tail M) (tail M)) true Dir sd res ∧
      ∀ k : ℕ, o.finalCount res.ratios = .ok k → k ≤ c → ∃ p, prepare L other e D h se b = .ok p ∧
        Pc.Replaced s k M (Pc.scores (std (tail M) (tail M)) Dir) p.y ∧
        Exogenous D p.x p.future (reduced u.eqs o) u.exo S E h se ∧ p.sizes = (reduced u.eqs o, u.exo) := by
  have m := made hm
  obtain ⟨-, q, hq, hye⟩ := makeY_some hy ho m.stepY
  have ex := (Outcome.ok.inj ((makeX_none hx).symm.trans m.stepX)).symm
  have eg : e.setup.eqs = reduced u.eqs o := congrArg Prod.snd hye
  have ep : e.pcaY = some (o, q) := congrArg Prod.fst hye
  have ek : e.setup.exo = u.exo := congrArg Prod.snd ex
  have hle : reduced u.eqs o ≤ u.eqs := by unfold reduced; omega
  obtain ⟨r, rw', hrb, hpr⟩ := prepare_of L m hc (by omega) (by omega) (fun o' ho' he => by rw [hx o' ho'] at he; cases he) (se := se) hh f hs ng
  obtain ⟨x, e1, hX⟩ := stepX_plain L (se := se) (h := h) (b := b) (congrArg Prod.fst ex) f.wf rw' hrb (by omega) (by omega) (by rw [f.cols]; omega) h0 hse
    (by rw [ek]; exact hf) (by rw [ek]; exact f.future)
  obtain ⟨hst1, hst2⟩ := hst q ep
  have hrows := f.rows
  have hlt := hs.lt
  have hnn := hs.nonneg
  obtain ⟨Dir, sd, res, an, hall⟩ := stepY_pca (b := b) L hL (by have := m.obs; omega) (by omega) ep hq rw' hrb hi (eg.trans hr) (by rw [f.cols]; omega)
    (by omega) pc hn h2 (by omega) M hM hst1 hst2 hd.vary hd.info
  refine ⟨Dir, sd, res, an, fun k hk' hkc => ?_⟩
  obtain ⟨y, e2, hrep⟩ := hall k hk' hkc
  refine ⟨⟨y, x.1, x.2, (reduced u.eqs o, u.exo)⟩, ?_, hrep, by rw [eg, ek] at hX; exact hX, rfl⟩
  rw [hpr, e2, e1, eg, ek]
  rfl

/-- C138: if the options do not reduce the number of endogenous variables, then the components replace the variables that are not ignored, and the exogenous variables are
the other columns. -/
theorem C138_pca_y_partial (L : Lapack) (hL : L.Correct) (hm : make other u = .ok e) {o : Options} (hy : u.pcaY = some o) (ho : o.enabled = true) (hx : NoPca u.pcaX)
    (hc : u.checkNan = true) (f : Fits u D b h) (hk : 0 ≤ u.exo) (h0 : 0 ≤ h) (hh : h ≤ u.horizon) (hs : IsSample D S E) (ng : NoGaps D)
    (hse : se ≤ E + 1) (hf : 0 < u.exo → 0 < h → E + h - se < D.rows) {s c n : ℕ} (hi : o.ignoreFirst = s) (hg : u.eqs = (s + c : ℕ))
    (hle : u.eqs ≤ o.countMax + o.ignoreFirst) (pc : 0 < c)
    (hn : E - S + 1 = n) (h2 : 2 ≤ n) (M : Fin n → Fin (s + c) → ℝ) (hM : ∀ (i : Fin n) (j : Fin (s + c)), D.get (S + (i : ℕ)) (j : ℕ) = .ok (some (M i j)))
    (hst : ∀ q, e.pcaY = some (o, q) → (b.storageY.length : Int) = q.storageSize ∧ (b.workY.length : Int) = q.workSize) (hd : Decomposes L M) :
    ∃ Dir sd res, Pc.Analysis (std (tail M) (tail M)) true Dir sd res ∧
      ∀ k : ℕ, o.finalCount res.ratios = .ok k → k ≤ c → ∃ p, prepare L other e D h se b = .ok p ∧
        Pc.Replaced s k M (Pc.scores (std (tail M) (tail M)) Dir) p.y ∧ Exogenous D p.x p.future u.eqs u.exo S E h se ∧ p.sizes = (u.eqs, u.exo) := by
  have hr : reduced u.eqs o = u.eqs := by unfold reduced; omega
  have := pca_y L hL hm hy ho hx hc f (by omega) hk h0 hh hs ng hse hf hi (hr.trans hg) pc hn h2 M hM hst hd
  rwa [hr] at this

/-- C138 does not hold of the program: if there are more endogenous variables than `IgnoreFirstCount + CutoffCountMax = s + c`, then only the first `s + c` of them are
analysed, and the "exogenous" variables, in the sample and in the forecasts, begin with endogenous variable number `s + c`. -/
theorem C138_pca_reduced_violated (L : Lapack) (hL : L.Correct) (hm : make other u = .ok e) {o : Options} (hy : u.pcaY = some o) (ho : o.enabled = true)
    (hx : NoPca u.pcaX) (hc : u.checkNan = true) (f : Fits u D b h) (hk : 0 < u.exo) (h0 : 0 < h) (hh : h ≤ u.horizon) (hs : IsSample D S E) (ng : NoGaps D)
    (hse : se ≤ E + 1) (hf : E + h - se < D.rows) {s c n : ℕ} (hi : o.ignoreFirst = s) (hmax : o.countMax = c) (hlt : ((s + c : ℕ) : Int) < u.eqs) (pc : 0 < c)
    (hn : E - S + 1 = n) (h2 : 2 ≤ n) (M : Fin n → Fin (s + c) → ℝ) (hM : ∀ (i : Fin n) (j : Fin (s + c)), D.get (S + (i : ℕ)) (j : ℕ) = .ok (some (M i j)))
    (hst : ∀ q, e.pcaY = some (o, q) → (b.storageY.length : Int) = q.storageSize ∧ (b.workY.length : Int) = q.workSize) (hd : Decomposes L M) :
    ∃ Dir sd res, Pc.Analysis (std (tail M) (tail M)) true Dir sd res ∧
      ∀ k : ℕ, o.finalCount res.ratios = .ok k → k ≤ c → ∃ p X F, prepare L other e D h se b = .ok p ∧
        Pc.Replaced s k M (Pc.scores (std (tail M) (tail M)) Dir) p.y ∧ p.x = some X ∧ p.future = some F ∧
        (∀ i : ℕ, i < n → X.get i 0 = D.get (S + i) ((s + c : ℕ) : Int)) ∧ (∀ i : Int, 0 ≤ i → i < h → F.get i 0 = D.get (E + 1 - se + i) ((s + c : ℕ) : Int)) := by
  have hr : reduced u.eqs o = (s + c : ℕ) := by unfold reduced; rw [hi, hmax]; push_cast at hlt ⊢; omega
  obtain ⟨Dir, sd, res, an, hall⟩ := pca_y L hL hm hy ho hx hc f (by push_cast at hlt; omega) hk.le h0.le hh hs ng hse (fun _ _ => hf) hi hr pc hn h2 M hM hst hd
  refine ⟨Dir, sd, res, an, fun k hk' hkc => ?_⟩
  obtain ⟨p, e1, hrep, hE, -⟩ := hall k hk' hkc
  obtain ⟨X, eX, bX⟩ := hE.2.1 hk
  obtain ⟨F, eF, bF⟩ := hE.2.2 hk h0
  refine ⟨p, X, F, e1, hrep, eX, eF, fun i hi' => ?_, fun i h1 h2 => ?_⟩
  · rw [bX.cell i 0 (by omega) (by omega) le_rfl hk, hr, add_zero]
  · rw [bF.cell i 0 h1 h2 le_rfl hk, hr, add_zero]

/-- C138 does not hold of the program: if fewer components are kept than variables were analysed, then the endogenous data have fewer columns than the number for which
the restriction is made. -/
theorem C138_pca_sizes_violated (L : Lapack) (hL : L.Correct) (hm : make other u = .ok e) {o : Options} (hy : u.pcaY = some o) (ho : o.enabled = true)
    (hx : NoPca u.pcaX) (hc : u.checkNan = true) (f : Fits u D b h) (hk : 0 ≤ u.exo) (h0 : 0 ≤ h) (hh : h ≤ u.horizon) (hs : IsSample D S E) (ng : NoGaps D)
    (hse : se ≤ E + 1) (hf : 0 < u.exo → 0 < h → E + h - se < D.rows) {s c n k : ℕ} (hi : o.ignoreFirst = s) (hg : u.eqs = (s + c : ℕ))
    (hle : u.eqs ≤ o.countMax + o.ignoreFirst) (hex : o.exact = k) (k0 : 0 < k) (hkc : k < c)
    (hn : E - S + 1 = n) (h2 : 2 ≤ n) (M : Fin n → Fin (s + c) → ℝ) (hM : ∀ (i : Fin n) (j : Fin (s + c)), D.get (S + (i : ℕ)) (j : ℕ) = .ok (some (M i j)))
    (hst : ∀ q, e.pcaY = some (o, q) → (b.storageY.length : Int) = q.storageSize ∧ (b.workY.length : Int) = q.workSize) (hd : Decomposes L M) :
    ∃ p, prepare L other e D h se b = .ok p ∧ p.y.cols = (s + k : ℕ) ∧ p.sizes.1 = (s + c : ℕ) := by
  obtain ⟨Dir, sd, res, an, hall⟩ := C138_pca_y_partial L hL hm hy ho hx hc f hk h0 hh hs ng hse hf hi hg hle (by omega) hn h2 M hM hst hd
  obtain ⟨p, e1, hrep, -, hsz⟩ := hall k (by unfold Options.finalCount; rw [if_pos (by omega), hex]) hkc.le
  exact ⟨p, e1, hrep.cols, by rw [hsz]; exact hg⟩

/-- C138: components of the exogenous variables, with the same directions for the future rows; the endogenous variables stay. -/
theorem C138_pca_x_partial (L : Lapack) (hL : L.Correct) (hm : make other u = .ok e) {o : Options} (hy : NoPca u.pcaY) (hx : u.pcaX = some o) (ho : o.enabled = true)
    (hc : u.checkNan = true) (f : Fits u D b h) (hg : 0 < u.eqs) (hh : h ≤ u.horizon) (hs : IsSample D S E) (ng : NoGaps D)
    (hse : se ≤ E + 1) (hf : 0 < h → E + h - se < D.rows) {s c n t : ℕ} (hi : o.ignoreFirst = s) (hk : u.exo = (s + c : ℕ))
    (hle : u.exo ≤ o.countMax + o.ignoreFirst) (pc : 0 < c) (hn : E - S + 1 = n) (h2 : 2 ≤ n) (ht : h = t)
    (M : Fin n → Fin (s + c) → ℝ) (hM : ∀ (i : Fin n) (j : Fin (s + c)), D.get (S + (i : ℕ)) (u.eqs + (j : ℕ)) = .ok (some (M i j)))
    (N : Fin t → Fin (s + c) → ℝ) (hN : ∀ (i : Fin t) (j : Fin (s + c)), D.get (E + 1 - se + (i : ℕ)) (u.eqs + (j : ℕ)) = .ok (some (N i j)))
    (hst : ∀ q, e.pcaX = some (o, q) → (b.storageX.length : Int) = q.storageSize ∧ (b.workX.length : Int) = q.workSize) (hd : Decomposes L M) :
    ∃ Dir sd res, Pc.Analysis (std (tail M) (tail M)) true Dir sd res ∧
      ∀ k : ℕ, o.finalCount res.ratios = .ok k → k ≤ c → ∃ p X, prepare L other e D h se b = .ok p ∧ IsBlock p.y D S 0 (E - S + 1) u.eqs ∧
        p.x = some X ∧ Pc.Replaced s k M (Pc.scores (std (tail M) (tail M)) Dir) X ∧
        Pc.ReplacedOpt s k N (Pc.scores (std (tail M) (tail N)) Dir) p.future ∧ p.sizes = (u.eqs, u.exo) := by
  have m := made hm
  obtain ⟨-, -, q, hq, hxe⟩ := makeX_some hx ho m.stepX
  have hrd : reduced u.exo o = u.exo := by unfold reduced; omega
  have ey := (Outcome.ok.inj ((makeY_none hy).symm.trans m.stepY)).symm
  have eg : e.setup.eqs = u.eqs := congrArg Prod.snd ey
  have ek : e.setup.exo = u.exo := (congrArg Prod.snd hxe).trans hrd
  have ep : e.pcaX = some (o, q) := congrArg Prod.fst hxe
  obtain ⟨r, rw', hrb, hpr⟩ := prepare_of L m hc (by omega) (by omega) (fun _ _ _ => by omega) (se := se) hh f hs ng
  obtain ⟨fut, e1, f1, f2⟩ := stepFuture_ok (e := e) (b := b) (se := se) (h := h) (E := E) f.wf (by omega) (by omega) (by rw [f.cols]; omega) (by omega) hse hf
    (by rw [ek]; exact f.future)
  obtain ⟨v1, v2⟩ := view rw' hrb (j := u.eqs) (m := u.exo) (by omega) (by omega) (by rw [f.cols])
  rw [← hrb.rows] at v1 v2
  have hA : Sd.Holds (⟨r.rows, u.exo, some (r.mem.drop (u.eqs * r.rows).toNat)⟩ : Mat (Val ℝ)) M := by
    refine ⟨v1, hrb.rows.trans hn, hk, fun i j => ?_⟩
    rw [v2.cell _ _ (by omega) (by rw [hrb.rows]; omega) (by omega) (by rw [hk]; omega)]
    exact hM i j
  have hB : Pc.Given fut N := by
    by_cases ht0 : t = 0
    · exact Or.inl ⟨f1 (by omega), ht0⟩
    · obtain ⟨F, e2, wF, bF⟩ := f2 (by omega)
      refine Or.inr ⟨F, e2, wF, bF.rows.trans ht, by rw [bF.cols, ek]; exact hk, fun i j => ?_⟩
      rw [bF.cell _ _ (by omega) (by omega) (by omega) (by rw [ek, hk]; omega), eg]
      exact hN i j
  have hobs := m.obs
  have hrows := f.rows
  have hlt := hs.lt
  have hnn := hs.nonneg
  obtain ⟨R, hR⟩ := Int.eq_ofNat_of_zero_le hobs.le
  obtain ⟨H, hH⟩ := Int.eq_ofNat_of_zero_le (show 0 ≤ u.horizon by omega)
  have hw : 0 < Pc.width true true (tail M) := by
    unfold Pc.width Sd.keptColumns
    rw [List.filter_eq_self.2 (by intro j _; simp only [decide_eq_true_eq]; intro _; exact hd.vary j), List.length_finRange]
    exact pc
  rw [hR, hH, hk] at hq
  obtain ⟨hst1, hst2⟩ := hst q ep
  obtain ⟨Dir, sd, res, an, hok, -⟩ := (Pc.C131_model L hL hq o hi h2 pc (by omega) (by omega) (f := t) (by omega) hA rfl (fun _ => Or.inl rfl) hB hw b.workX b.storageX
    hst1 hst2).2.2 hd.info (fun _ => hd.vary)
  refine ⟨Dir, sd, res, an, fun k hk' hkc => ?_⟩
  obtain ⟨d, xf', hd', hrep, hopt⟩ := hok k hk' hkc
  obtain ⟨w1, w2⟩ := view0 rw' hrb (m := u.eqs) (by omega) (by rw [f.cols]; omega)
  rw [← hrb.rows] at w2
  refine ⟨⟨⟨r.rows, u.eqs, some r.mem⟩, some d, xf', (u.eqs, u.exo)⟩, d, ?_, by rw [hrb.rows] at w2 ⊢; exact w2, rfl, hrep, hopt, rfl⟩
  rw [hpr]
  unfold stepY stepX
  rw [show e.pcaY = none from congrArg Prod.fst ey, if_pos (by omega), e1, ep, eg, ek]
  show (Outcome.ok _ >>= fun y => (o.calculateForModel L q _ b.workX b.storageX fut >>= fun t => pure (some t.2.1, t.2.2)) >>= _) = _
  rw [hd']; rfl

end Vx
end LDT
