import Verif.Lemmas.VarmaExt
namespace LDT
namespace Vx
open Mx Op
open Arr (Val)
open Pc (Options Pca Lapack)

variable {other : Int → Int → Outcome Unit} {u : Setup} {e : Ext}

/-! ## The constructor -/

theorem bind_ok {α β : Type} {x : Outcome α} {f : α → Outcome β} {b : β} (h : (x >>= f) = .ok b) : ∃ a, x = .ok a ∧ f a = .ok b := by
  cases x with
  | ok a => exact ⟨a, rfl, h⟩
  | throws => cases h
  | ub => cases h
  | diverges => cases h

structure Made (other : Int → Int → Outcome Unit) (u : Setup) (e : Ext) : Prop where
  obs : 0 < u.obs
  count : 0 < u.eqs + u.exo
  data : e.data = ⟨u.checkNan, false, u.obs * (u.eqs + u.exo), ⟨0, 0, none⟩, [], false⟩
  setup : e.setup = { u with eqs := e.setup.eqs, exo := e.setup.exo }
  stepY : makeY u = .ok (e.pcaY, e.setup.eqs)
  stepX : makeX u = .ok (e.pcaX, e.setup.exo)
  general : u.general = false
  rest : other e.setup.eqs e.setup.exo = .ok ()

theorem made (h : make other u = .ok e) : Made other u e := by
  unfold make at h
  obtain ⟨d, hd, h⟩ := bind_ok h
  obtain ⟨y, hy, h⟩ := bind_ok h
  obtain ⟨x, hx, h⟩ := bind_ok h
  unfold DsTs.make at hd
  split_ifs at hd with h1
  cases hd
  split_ifs at h with h2
  obtain ⟨o, ho, h⟩ := bind_ok h
  cases h
  exact ⟨by omega, by omega, rfl, rfl, hy, hx, by simpa using h2, ho⟩

theorem make_of (h1 : 0 < u.obs) (h2 : 0 < u.eqs + u.exo) {y x} (hy : makeY u = .ok y) (hx : makeX u = .ok x) (hg : u.general = false)
    (ho : other y.2 x.2 = .ok ()) : ∃ e, make other u = .ok e := by
  unfold make DsTs.make
  rw [if_neg (by omega)]
  rw [hy, hx]
  simp only [Outcome.ok_bind, hg, ho, Bool.false_eq_true, if_false]
  exact ⟨_, rfl⟩

theorem makeY_none (h : ∀ o, u.pcaY = some o → o.enabled = false) : makeY u = .ok (none, u.eqs) := by
  unfold makeY
  rw [Option.filter_eq_none_iff.2 (fun o ho => by rw [h o ho]; simp)]

theorem makeX_none (h : ∀ o, u.pcaX = some o → o.enabled = false) : makeX u = .ok (none, u.exo) := by
  unfold makeX
  rw [Option.filter_eq_none_iff.2 (fun o ho => by rw [h o ho]; simp)]

theorem makeY_some {o : Options} (h : u.pcaY = some o) (he : o.enabled = true) {y} (hy : makeY u = .ok y) :
    o.check = .ok () ∧ ∃ p, Pca.make u.obs u.eqs 0 true true true true = .ok p ∧ y = (some (o, p), reduced u.eqs o) := by
  unfold makeY at hy
  rw [h, Option.filter_some, if_pos he] at hy
  obtain ⟨_, h1, hy⟩ := bind_ok hy
  obtain ⟨p, h2, hy⟩ := bind_ok hy
  cases hy
  exact ⟨h1, p, h2, rfl⟩

theorem makeX_some {o : Options} (h : u.pcaX = some o) (he : o.enabled = true) {x} (hx : makeX u = .ok x) :
    u.exo ≠ 0 ∧ o.check = .ok () ∧ ∃ p, Pca.make u.obs u.exo u.horizon true true true true = .ok p ∧ x = (some (o, p), reduced u.exo o) := by
  unfold makeX at hx
  rw [h, Option.filter_some, if_pos he] at hx
  dsimp only at hx
  split_ifs at hx with h0
  obtain ⟨_, h1, hx⟩ := bind_ok hx
  obtain ⟨p, h2, hx⟩ := bind_ok hx
  cases hx
  exact ⟨h0, h1, p, h2, rfl⟩

theorem reduced_twice (n : Int) (o : Options) : reduced (reduced n o) o = reduced n o := by unfold reduced; omega

theorem pca_make (rows cols num : Int) (h1 : 0 < rows) (h2 : 0 < cols) : ∃ p, Pca.make rows cols num true true true true = .ok p :=
  (Pc.C130_sizes rows cols num true true true true).2 h1 h2

/-- The constructor accepts the reduced counts. -/
theorem again (m : Made other u e) (hg : 0 < e.setup.eqs) (hk : 0 ≤ e.setup.exo) (hx : ∀ o, u.pcaX = some o → o.enabled = true → 0 < e.setup.exo) (h : Int) :
    ∃ e', make other { e.setup with horizon := h } = .ok e' := by
  have hs := m.setup
  have eobs : e.setup.obs = u.obs := by rw [hs]
  have ey : e.setup.pcaY = u.pcaY := by rw [hs]
  have ex : e.setup.pcaX = u.pcaX := by rw [hs]
  have eg : e.setup.general = u.general := by rw [hs]
  have y : ∃ q, makeY { e.setup with horizon := h } = .ok (q, e.setup.eqs) := by
    by_cases hp : ∀ o, u.pcaY = some o → o.enabled = false
    · exact ⟨none, makeY_none (u := { e.setup with horizon := h }) (by intro o ho; exact hp o (by rw [← ey]; exact ho))⟩
    · push Not at hp
      obtain ⟨o, ho, he⟩ := hp
      have he : o.enabled = true := by simpa using he
      obtain ⟨hc, p, -, hq⟩ := makeY_some ho he m.stepY
      have hr : e.setup.eqs = reduced u.eqs o := congrArg Prod.snd hq
      obtain ⟨p', hp'⟩ := pca_make e.setup.obs e.setup.eqs 0 (by rw [eobs]; exact m.obs) hg
      refine ⟨some (o, p'), ?_⟩
      unfold makeY
      rw [show ({ e.setup with horizon := h } : Setup).pcaY = some o from ey.trans ho, Option.filter_some, if_pos he]
      show (o.check >>= fun _ => Pca.make e.setup.obs e.setup.eqs 0 true true true true >>= fun p => pure (some (o, p), reduced e.setup.eqs o)) = _
      rw [hc, hp', hr, reduced_twice]; rfl
  have x : ∃ q, makeX { e.setup with horizon := h } = .ok (q, e.setup.exo) := by
    by_cases hp : ∀ o, u.pcaX = some o → o.enabled = false
    · exact ⟨none, makeX_none (u := { e.setup with horizon := h }) (by intro o ho; exact hp o (by rw [← ex]; exact ho))⟩
    · push Not at hp
      obtain ⟨o, ho, he⟩ := hp
      have he : o.enabled = true := by simpa using he
      obtain ⟨-, hc, p, -, hq⟩ := makeX_some ho he m.stepX
      have hr : e.setup.exo = reduced u.exo o := congrArg Prod.snd hq
      have hpos := hx o ho he
      obtain ⟨p', hp'⟩ := pca_make e.setup.obs e.setup.exo h (by rw [eobs]; exact m.obs) hpos
      refine ⟨some (o, p'), ?_⟩
      unfold makeX
      rw [show ({ e.setup with horizon := h } : Setup).pcaX = some o from ex.trans ho, Option.filter_some, if_pos he]
      show (if e.setup.exo = 0 then _ else (o.check >>= fun _ => Pca.make e.setup.obs e.setup.exo h true true true true >>= fun p => pure (some (o, p), reduced e.setup.exo o))) = _
      rw [if_neg (by omega), hc, hp', hr, reduced_twice]; rfl
  obtain ⟨q, hq⟩ := y
  obtain ⟨q', hq'⟩ := x
  exact make_of (u := { e.setup with horizon := h }) (by show 0 < e.setup.obs; rw [eobs]; exact m.obs) (by show 0 < e.setup.eqs + e.setup.exo; omega) hq hq'
    (by show e.setup.general = false; rw [eg]; exact m.general) m.rest

/-! ## The preparation -/

/-- The sizes for which the object was made suffice. -/
structure Fits (u : Setup) (D : Mat (Val ℝ)) (b : Buffers) (h : Int) : Prop where
  wf : D.Wf
  rows : D.rows ≤ u.obs
  cols : D.cols = u.eqs + u.exo
  most : D.rows ≤ intMax
  data : u.obs * (u.eqs + u.exo) ≤ b.data.length
  future : h * u.exo ≤ b.future.length

theorem Fits.room {u : Setup} {D : Mat (Val ℝ)} {b : Buffers} {h : Int} (f : Fits u D b h) : D.rows * D.cols ≤ b.data.length := by
  have := mul_le_mul_of_nonneg_right f.rows f.wf.cols_nonneg
  have h2 := f.data
  rw [← f.cols] at h2
  omega

theorem prepare_of (L : Lapack) (m : Made other u e) (hc : u.checkNan = true) (hg : 0 < e.setup.eqs) (hk : 0 ≤ e.setup.exo)
    (hx : ∀ o, u.pcaX = some o → o.enabled = true → 0 < e.setup.exo) {D : Mat (Val ℝ)} {b : Buffers} {h se S E : Int} (hh : h ≤ u.horizon)
    (f : Fits u D b h) (hs : IsSample D S E) (ng : NoGaps D) :
    ∃ r, r.Wf ∧ IsBlock r D S 0 (E - S + 1) D.cols ∧ prepare L other e D h se b = (do
      let y ← stepY L e r b
      let x ← stepX L e r D E h se b
      pure ⟨y, x.1, x.2, (e.setup.eqs, e.setup.exo)⟩) := by
  obtain ⟨e', he'⟩ := again m hg hk hx h
  obtain ⟨d', r, h1, h2, h3, h4, h5⟩ := load f.wf hs f.most e.data (by rw [m.data]; exact hc) (by rw [m.data]) (by rw [m.data]) b.data f.room
  refine ⟨r, h4, h5, ?_⟩
  have eh : e.setup.horizon = u.horizon := by rw [m.setup]
  unfold prepare
  rw [if_neg (by omega), he', Outcome.ok_bind, h1, Outcome.ok_bind, h3, Outcome.ok_bind]
  have hm : d'.hasMissing = false := by
    cases hq : d'.hasMissing
    · rfl
    · exact absurd ng (h2.1 hq)
  rw [hm]
  simp only [Bool.false_eq_true, if_false]
  rw [if_neg (by have := hs.le; omega)]

end Vx
end LDT
