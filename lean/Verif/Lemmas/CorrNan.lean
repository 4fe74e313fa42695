import Verif.Model.Correlation
import Verif.Lemmas.Varma
import Verif.Props.Matrix
/-!
# The double loop of the pairwise covariances and correlations
-/
namespace LDT
namespace Co
open Mx
open Arr (Val)

variable {K : Type} [Field K] [DecidableEq K]

/-- The state after the pairs in `P` (as `(a, b)` with `a ≤ b`) were written; `sl` whether the lower triangle is written too,
`dc` whether the diagonal of the counts is. -/
structure Inv (s0 : Res K) (n : Int) (sl dc : Bool) (W Wc : Int → Int → Val K) (P : Int → Int → Prop) (s : Res K) : Prop where
  shape : SameShape s0.result s.result
  rows : s.counts.rows = n
  size : (s.counts.data.length : Int) = symLength true n
  done : ∀ a b, 0 ≤ a → a ≤ b → b < n → P a b → s.result.val a b = W a b ∧ (sl = true → s.result.val b a = W a b) ∧
    (a < b ∨ dc = true → s.counts.get true a b = .ok (Wc a b) ∧ s.counts.get true b a = .ok (Wc a b))
  diagonal : dc = false → ∀ a, s.counts.get true a a = s0.counts.get true a a

theorem symSetD_set {m : SymMat (Val K)} {i j : Int} (h0 : 0 ≤ i) (h1 : i < m.rows) (h2 : 0 ≤ j) (h3 : j < m.rows) (v : Val K) :
    symSetD m i j v = m.set true i j v := by
  unfold symSetD SymMat.set
  rw [if_neg (by omega)]
  cases symIndex true m.rows i j <;> rfl

variable {s0 : Res K} {n : Int} {sl dc : Bool} {W Wc : Int → Int → Val K} {P : Int → Int → Prop}

/-- Writing an off-diagonal pair. -/
theorem Inv.offDiag {vsqrt : Val K → Val K} {kind : Kind} {adjust : Bool} {m : Mat (Val K)} {s : Res K} (w0 : s0.result.Wf)
    (r0 : s0.result.rows = n) (c0 : s0.result.cols = n) (I : Inv s0 n sl dc W Wc P s) {i j : Int} (hi : 0 ≤ i) (hij : i < j) (hj : j < n)
    {c : Int} (hv : pairValue vsqrt kind adjust m i j = .ok (W i j, c)) (hc : Wc i j = vint c) :
    ∃ s', Co.offDiag vsqrt kind adjust sl m i s j = .ok s' ∧ Inv s0 n sl dc W Wc (fun a b => P a b ∨ (a = i ∧ b = j)) s' := by
  have inR : ∀ a b, 0 ≤ a → a < n → 0 ≤ b → b < n → s.result.InR a b :=
    fun a b h1 h2 h3 h4 => I.shape.inR.2 ⟨h1, by omega, h3, by omega⟩
  have ws := I.shape.wf w0
  obtain ⟨r1, e1, t1, w1, v1⟩ := set0_val ws (inR i j hi (by omega) (by omega) hj) (W i j)
  obtain ⟨cs, e2, rc, lc, g1, g2, g3⟩ := (C34_set_get true s.counts (by rw [I.rows]; exact I.size) i j (Wc i j)).1
    (Or.inl ⟨hi, by rw [I.rows]; exact hj, by simp; omega⟩)
  have low : ∃ r2, setLowerCell sl r1 i j (W i j) = .ok r2 ∧ SameShape r1 r2 ∧
      ∀ a b, r1.InR a b → r2.val a b = if sl = true ∧ a = j ∧ b = i then W i j else r1.val a b := by
    unfold setLowerCell
    cases sl with
    | false => exact ⟨r1, rfl, SameShape.refl _, fun a b _ => by simp⟩
    | true =>
      obtain ⟨r2, e, t, -, v⟩ := set0_val w1 (t1.inR.2 (inR j i (by omega) hj hi (by omega))) (W i j)
      exact ⟨r2, e, t, fun a b h => by rw [v a b h]; simp⟩
  obtain ⟨r2, e3, t2, v2⟩ := low
  refine ⟨⟨r2, cs⟩, ?_, ?_, ?_, ?_, ?_, ?_⟩
  · unfold Co.offDiag
    rw [if_pos hij, hv, Outcome.ok_bind]
    simp only
    rw [e1, Outcome.ok_bind, symSetD_set hi (by rw [I.rows]; omega) (by omega) (by rw [I.rows]; omega), ← hc, e2,
      Outcome.ok_bind, e3]; rfl
  · exact (I.shape.trans t1).trans t2
  · rw [rc, I.rows]
  · rw [lc, I.size]
  · intro a b ha hab hb hp
    have q1 : ∀ x y, 0 ≤ x → x < n → 0 ≤ y → y < n → r2.val x y = if sl = true ∧ x = j ∧ y = i then W i j
        else if x = i ∧ y = j then W i j else s.result.val x y := by
      intro x y h1 h2 h3 h4
      rw [v2 x y (t1.inR.2 (inR x y h1 h2 h3 h4)), v1 x y (inR x y h1 h2 h3 h4)]
    show r2.val a b = _ ∧ (_ → r2.val b a = _) ∧ _
    by_cases he : a = i ∧ b = j
    · obtain ⟨rfl, rfl⟩ := he
      refine ⟨?_, ?_, fun _ => ⟨g1, g2⟩⟩
      · rw [q1 a b ha (by omega) (by omega) hb, if_neg (by omega), if_pos ⟨rfl, rfl⟩]
      · intro hs
        rw [q1 b a (by omega) hb ha (by omega), if_pos ⟨hs, rfl, rfl⟩]
    · obtain ⟨d1, d2, d3⟩ := I.done a b ha hab hb (hp.resolve_right he)
      refine ⟨?_, ?_, fun h => ?_⟩
      · rw [q1 a b ha (by omega) (by omega) hb, if_neg (by omega), if_neg he]; exact d1
      · intro hs
        rw [q1 b a (by omega) hb ha (by omega), if_neg (by omega), if_neg (by omega)]; exact d2 hs
      · rw [g3 a b (by simp; omega) (by simp; omega), g3 b a (by simp; omega) (by simp; omega)]; exact d3 h
  · intro hd a
    show cs.get true a a = _
    rw [g3 a a (by simp; omega) (by simp; omega)]; exact I.diagonal hd a

theorem Inv.mono {s : Res K} (I : Inv s0 n sl dc W Wc P s) {Q : Int → Int → Prop}
    (h : ∀ a b, 0 ≤ a → a ≤ b → b < n → Q a b → P a b) : Inv s0 n sl dc W Wc Q s :=
  ⟨I.shape, I.rows, I.size, fun a b h1 h2 h3 h4 => I.done a b h1 h2 h3 (h a b h1 h2 h3 h4), I.diagonal⟩

/-- Writing a diagonal cell. -/
theorem Inv.diag {kind : Kind} {adjust : Bool} {m : Mat (Val K)} {s : Res K} (w0 : s0.result.Wf)
    (r0 : s0.result.rows = n) (c0 : s0.result.cols = n) (I : Inv s0 n sl dc W Wc P s) {i : Int} (hi : 0 ≤ i) (hj : i < n)
    (hd : (kind = .correlation ∧ dc = false ∧ W i i = some 1) ∨
      (kind = .covariance ∧ dc = true ∧ ∃ me c, m.varianceColumn i adjust true = .ok ⟨W i i, me, c⟩ ∧ Wc i i = vint c)) :
    ∃ s', Co.diag kind adjust m s i = .ok s' ∧ Inv s0 n sl dc W Wc (fun a b => P a b ∨ (a = i ∧ b = i)) s' := by
  have inR : ∀ a b, 0 ≤ a → a < n → 0 ≤ b → b < n → s.result.InR a b :=
    fun a b h1 h2 h3 h4 => I.shape.inR.2 ⟨h1, by omega, h3, by omega⟩
  have ws := I.shape.wf w0
  obtain ⟨r1, e1, t1, w1, v1⟩ := set0_val ws (inR i i hi hj hi hj) (W i i)
  have vals : ∀ a b, 0 ≤ a → a ≤ b → b < n → (P a b ∨ (a = i ∧ b = i)) → r1.val a b = W a b ∧ (sl = true → r1.val b a = W a b) := by
    intro a b ha hab hb hp
    rw [v1 a b (inR a b ha (by omega) (by omega) hb), v1 b a (inR b a (by omega) hb ha (by omega))]
    by_cases he : a = i ∧ b = i
    · obtain ⟨rfl, rfl⟩ := he
      simp
    · obtain ⟨d1, d2, -⟩ := I.done a b ha hab hb (hp.resolve_right he)
      rw [if_neg he, if_neg (by omega)]; exact ⟨d1, d2⟩
  rcases hd with ⟨rfl, rfl, hW⟩ | ⟨rfl, rfl, me, c, hv, hc⟩
  · refine ⟨⟨r1, s.counts⟩, ?_, I.shape.trans t1, I.rows, I.size, ?_, I.diagonal⟩
    · unfold Co.diag
      simp only
      rw [← hW, e1]; rfl
    · intro a b ha hab hb hp
      refine ⟨(vals a b ha hab hb hp).1, (vals a b ha hab hb hp).2, fun h => ?_⟩
      rcases hp with hp | hp
      · exact (I.done a b ha hab hb hp).2.2 h
      · simp at h; omega
  · obtain ⟨cs, e2, rc, lc, g1, g2, g3⟩ := (C34_set_get true s.counts (by rw [I.rows]; exact I.size) i i (Wc i i)).1
      (Or.inl ⟨hi, by rw [I.rows]; exact hj, by simp⟩)
    refine ⟨⟨r1, cs⟩, ?_, I.shape.trans t1, by rw [rc, I.rows], by rw [lc, I.size], ?_, fun h => by cases h⟩
    · unfold Co.diag
      simp only
      rw [hv, Outcome.ok_bind]
      simp only
      rw [e1, Outcome.ok_bind, symSetD_set hi (by rw [I.rows]; omega) hi (by rw [I.rows]; omega), ← hc, e2]; rfl
    · intro a b ha hab hb hp
      refine ⟨(vals a b ha hab hb hp).1, (vals a b ha hab hb hp).2, fun h => ?_⟩
      by_cases he : a = i ∧ b = i
      · obtain ⟨rfl, rfl⟩ := he
        exact ⟨g1, g1⟩
      · show cs.get true a b = _ ∧ cs.get true b a = _
        rw [g3 a b (by simp; omega) (by simp; omega), g3 b a (by simp; omega) (by simp; omega)]
        exact (I.done a b ha hab hb (hp.resolve_right he)).2.2 h

/-- The whole double loop. -/
theorem pearsonNan_spec (vsqrt : Val K → Val K) (kind : Kind) (adjust : Bool) (m : Mat (Val K)) (s0 : Res K) (wm : m.Wf)
    (w0 : s0.result.Wf) (r0 : s0.result.rows = m.cols) (c0 : s0.result.cols = m.cols) (rc : s0.counts.rows = m.cols)
    (sc : (s0.counts.data.length : Int) = symLength true m.cols)
    (hoff : ∀ i j, 0 ≤ i → i < j → j < m.cols → ∃ c, pairValue vsqrt kind adjust m i j = .ok (W i j, c) ∧ Wc i j = vint c)
    (hd : ∀ i, 0 ≤ i → i < m.cols → (kind = .correlation ∧ dc = false ∧ W i i = some 1) ∨
      (kind = .covariance ∧ dc = true ∧ ∃ me c, m.varianceColumn i adjust true = .ok ⟨W i i, me, c⟩ ∧ Wc i i = vint c)) :
    ∃ s, pearsonNan vsqrt kind adjust sl m s0 = .ok s ∧ Inv s0 m.cols sl dc W Wc (fun _ _ => True) s := by
  unfold pearsonNan
  obtain ⟨s, e, I⟩ := loop_inv (a := 0) (b := m.cols) wm.cols_nonneg (fun s i => do
      let s ← Co.diag kind adjust m s i
      (upTo 0 m.cols).foldlM (Co.offDiag vsqrt kind adjust sl m i) s)
    (fun i s => Inv s0 m.cols sl dc W Wc (fun a _ => a < i) s) (s := s0)
    ⟨SameShape.refl _, rc, sc, fun a b h _ _ h' => by omega, fun _ _ => rfl⟩
    (by
      intro i hi0 hi1 s I
      obtain ⟨s1, e1, I1⟩ := I.diag w0 r0 c0 hi0 hi1 (hd i hi0 hi1)
      obtain ⟨s2, e2, I2⟩ := loop_inv (a := 0) (b := m.cols) wm.cols_nonneg (Co.offDiag vsqrt kind adjust sl m i)
        (fun j s => Inv s0 m.cols sl dc W Wc (fun a b => a < i ∨ (a = i ∧ (b = i ∨ b < j))) s) (s := s1)
        (I1.mono (fun a b h1 h2 _ h => by omega))
        (by
          intro j hj0 hj1 s I
          by_cases hij : i < j
          · obtain ⟨c, hv, hc⟩ := hoff i j hi0 hij hj1
            obtain ⟨s', e', I'⟩ := I.offDiag w0 r0 c0 hi0 hij hj1 hv hc
            exact ⟨s', e', I'.mono (fun a b h1 h2 _ h => by omega)⟩
          · refine ⟨s, by unfold Co.offDiag; rw [if_neg hij], I.mono (fun a b h1 h2 _ h => by omega)⟩)
      refine ⟨s2, ?_, I2.mono (fun a b h1 h2 h3 h => by omega)⟩
      show (Co.diag kind adjust m s i >>= _) = _
      rw [e1, Outcome.ok_bind]; exact e2)
  exact ⟨s, e, I.mono (fun a b _ h2 h3 _ => by omega)⟩

end Co
end LDT
