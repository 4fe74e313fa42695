import Verif.Lemmas.MatrixAlg
/-!
# `A'A` over cells that need not form a ring (doubles with NaN), with `beta = 0`
-/
namespace LDT
namespace Mx

section
variable {α : Type} [Zero α] [Add α] [Mul α] [DecidableEq α]

/-- The loops of `?syrk` with `beta = 0`: the old contents of the storage are not read. -/
theorem fill0_spec (S : Mat α) (ws : S.Wf) (bound : Int → Int)
    (hb : ∀ j, 0 ≤ j → j < S.cols → 0 ≤ bound j ∧ bound j ≤ S.rows) (alpha : α)
    (T : Int → Int → Outcome α) (Tv : Int → Int → α)
    (hT : ∀ i j, 0 ≤ j → j < S.cols → 0 ≤ i → i < bound j → T i j = .ok (Tv i j)) :
    ∃ l, (upTo 0 S.cols).foldlM (fun c j => (upTo 0 (bound j)).foldlM (fun c i => do
        let t ← T i j
        blasWrite alpha 0 c (i + S.rows * j) t) c) S.mem = .ok l ∧
      SameShape S { S with data := some l } ∧
      ∀ a b, S.InR a b → ({ S with data := some l } : Mat α).val a b =
        if a < bound b then alpha * Tv a b else S.val a b := by
  let P : (Int → Int → Prop) → List α → Prop := fun D l => SameShape S { S with data := some l } ∧
    ∀ a b, S.InR a b →
      (D a b → ({ S with data := some l } : Mat α).val a b = alpha * Tv a b) ∧
      (¬ D a b → ({ S with data := some l } : Mat α).val a b = S.val a b)
  have one : ∀ (M : Mat α), M.Wf → ∀ {i j : Int}, M.InR i j → ∀ t : α,
      ∃ l, blasWrite alpha 0 M.mem (i + M.rows * j) t = .ok l ∧ SameShape M { M with data := some l } ∧
        ∀ a b, M.InR a b → ({ M with data := some l } : Mat α).val a b = if a = i ∧ b = j then alpha * t else M.val a b := by
    intro M w i j h t
    obtain ⟨m', e, s, _, c⟩ := set0_val w h (alpha * t)
    have hm : ∃ l, write M.mem (i + M.rows * j) (alpha * t) = .ok l ∧ m' = { M with data := some l } := by
      unfold Mat.set0 at e
      rw [write_ok_of _ (w.idx h).1 (w.idx h).2, Outcome.ok_bind] at e
      exact ⟨_, write_ok_of _ (w.idx h).1 (w.idx h).2, (Outcome.ok.inj e).symm⟩
    obtain ⟨l, el, rfl⟩ := hm
    refine ⟨l, ?_, s, c⟩
    unfold blasWrite
    rw [if_pos rfl, el]
  obtain ⟨l, e, hs, hl⟩ := loop_inv (a := 0) (b := S.cols) ws.cols_nonneg
    (fun c j => (upTo 0 (bound j)).foldlM (fun c i => do
        let t ← T i j
        blasWrite alpha 0 c (i + S.rows * j) t) c)
    (fun j c => P (fun a b => b < j ∧ a < bound b) c) (s := S.mem)
    ⟨by rw [show ({ S with data := some S.mem } : Mat α) = S by rw [← ws.data_eq]]; exact SameShape.refl _,
      fun a b h => ⟨fun h' => by have := h.2.2.1; omega, fun _ => rfl⟩⟩
    (by
      intro j h0 h1 c hc
      obtain ⟨c', e', hc'⟩ := loop_inv (a := 0) (b := bound j) (hb j h0 h1).1
        (fun c i => do
          let t ← T i j
          blasWrite alpha 0 c (i + S.rows * j) t)
        (fun i c => P (fun a b => (b < j ∧ a < bound b) ∨ (b = j ∧ a < i)) c) (s := c)
        ⟨hc.1, fun a b h => by
          obtain ⟨x, y⟩ := hc.2 a b h
          refine ⟨fun h' => x ?_, fun h' => y ?_⟩
          · rcases h' with h' | h'
            · exact h'
            · have := h.1; omega
          · intro h''; exact h' (Or.inl h'')⟩
        (by
          intro i hi0 hi1 c ⟨hs, hv⟩
          have hin : S.InR i j := ⟨hi0, by have := (hb j h0 h1).2; omega, h0, h1⟩
          obtain ⟨l, el, sl, vl⟩ := one ({ S with data := some c } : Mat α) (hs.wf ws) (hs.inR.2 hin) (Tv i j)
          refine ⟨l, ?_, hs.trans sl, ?_⟩
          · rw [hT i j h0 h1 hi0 hi1, Outcome.ok_bind]; exact el
          · intro a b hab
            have hvl := vl a b hab
            refine ⟨fun h' => ?_, fun h' => ?_⟩
            · by_cases hx : a = i ∧ b = j
              · rw [if_pos hx] at hvl
                rw [hx.1, hx.2] at hvl ⊢; exact hvl
              · rw [if_neg hx] at hvl
                rw [hvl]; exact (hv a b hab).1 (by omega)
            · rw [if_neg (by omega)] at hvl
              rw [hvl]; exact (hv a b hab).2 (by omega))
      refine ⟨c', e', hc'.1, fun a b hab => ?_⟩
      obtain ⟨x, y⟩ := hc'.2 a b hab
      refine ⟨fun h' => x ?_, fun h' => y ?_⟩
      · rcases lt_or_eq_of_le (show b ≤ j by omega) with h'' | h''
        · exact Or.inl ⟨h'', h'.2⟩
        · exact Or.inr ⟨h'', by rw [← h'']; exact h'.2⟩
      · intro h''
        apply h'
        rcases h'' with h'' | h''
        · exact ⟨by omega, h''.2⟩
        · exact ⟨by omega, by rw [h''.1]; exact h''.2⟩)
  refine ⟨l, e, hs, fun a b hab => ?_⟩
  have := hl a b hab
  split_ifs with hx
  · exact this.1 ⟨hab.2.2.2, hx⟩
  · exact this.2 (fun h => hx h.2)

/-- `Σ` in the order of the loop. -/
def loopSum (f : Nat → α) : Nat → α
  | 0 => 0
  | n + 1 => loopSum f n + f n

omit [DecidableEq α] in
theorem dotSum_loop {k : Int} (hk : 0 ≤ k) {x y : Int → Outcome α} {xv yv : Int → α}
    (hx : ∀ l, 0 ≤ l → l < k → x l = .ok (xv l)) (hy : ∀ l, 0 ≤ l → l < k → y l = .ok (yv l)) :
    dotSum k x y = .ok (loopSum (fun l => xv l * yv l) k.toNat) := by
  unfold dotSum
  obtain ⟨s, e, hs⟩ := loop_inv (a := 0) (b := k) hk
    (fun s l => do
      let p ← mulO (x l) (y l)
      pure (s + p))
    (fun c s => s = loopSum (fun l => xv l * yv l) c.toNat) (s := (0 : α)) (by simp [loopSum])
    (by
      intro c h0 h1 s hs
      refine ⟨s + xv c * yv c, ?_, ?_⟩
      · unfold mulO; rw [hx c h0 h1, Outcome.ok_bind, hy c h0 h1]; rfl
      · rw [hs, show (c + 1).toNat = c.toNat + 1 by omega]
        simp only [loopSum]
        rw [show ((c.toNat : Nat) : Int) = c by omega])
  rw [e, hs]

/-- `A'A` into a square storage: the upper triangle, and on request the lower one. -/
theorem dotAtA0_spec (A S : Mat α) (wa : A.Wf) (ws : S.Wf) (sl : Bool) (alpha : α) (h1 : S.rows = A.cols) (h2 : S.cols = A.cols)
    (pr : 0 < A.rows) (pc : 0 < A.cols) :
    ∃ res, A.dotAtA S sl alpha 0 = .ok res ∧ SameShape S res ∧
      (∀ i j, S.InR i j → i ≤ j → res.val i j = alpha * loopSum (fun k => A.val k i * A.val k j) A.rows.toNat) ∧
      (∀ i j, S.InR i j → j < i → res.val i j =
        if sl then alpha * loopSum (fun k => A.val k j * A.val k i) A.rows.toNat else S.val i j) := by
  obtain ⟨l, e, s, h⟩ := fill0_spec S ws (fun j => j + 1) (fun j _ _ => ⟨by omega, by omega⟩) alpha
    (fun i j => dotSum A.rows (fun l => opGet true A.mem A.rows i l) (fun l => opGet true A.mem A.rows j l))
    (fun i j => loopSum (fun k => A.val k i * A.val k j) A.rows.toNat)
    (by
      intro i j hj0 hj1 hi0 hi1
      have key : ∀ i, 0 ≤ i → i < A.cols → ∀ k, 0 ≤ k → k < A.rows → opGet true A.mem A.rows i k = .ok (A.val k i) := by
        intro i hi0 hi1 k h0 h1
        unfold opGet
        simp only [if_true]
        exact get0_val wa ⟨h0, h1, hi0, hi1⟩
      exact dotSum_loop (by omega) (xv := fun k => A.val k i) (yv := fun k => A.val k j)
        (fun k a b => key i hi0 (by omega) k a b) (fun k a b => key j hj0 (by omega) k a b))
  have e1 : syrkU true A.cols A.rows alpha A.mem A.rows 0 S.mem A.cols = .ok l := by
    unfold syrkU
    rw [if_neg]
    · rw [h2, h1] at e; exact e
    · rw [not_not]; unfold ldOk; constructor <;> simp <;> omega
  have v1 : ∀ i j, S.InR i j → i ≤ j → ({ S with data := some l } : Mat α).val i j =
      alpha * loopSum (fun k => A.val k i * A.val k j) A.rows.toNat := by
    intro i j hij hle
    rw [h i j hij, if_pos (by omega)]
  have v2 : ∀ i j, S.InR i j → j < i → ({ S with data := some l } : Mat α).val i j = S.val i j := by
    intro i j hij hle
    rw [h i j hij, if_neg (by omega)]
  unfold Mat.dotAtA finishLower Mat.withMem
  rw [if_neg (by omega), e1]
  show ∃ res, (if sl = true then copyLower A.cols { S with data := some l } else Outcome.ok { S with data := some l }) = .ok res ∧ _
  cases sl with
  | false => exact ⟨_, rfl, s, v1, fun i j hij hlt => by rw [v2 i j hij hlt]; simp⟩
  | true =>
    obtain ⟨res, e2, s2, v3⟩ := copyLower_spec ({ S with data := some l } : Mat α) (s.wf ws) (by rw [s.cols, s.rows]; omega)
    refine ⟨res, ?_, s.trans s2, ?_, ?_⟩
    · rw [if_pos rfl, ← h1]; exact e2
    · intro i j hij hle
      rw [v3 i j (s.inR.2 hij), if_pos hle, v1 i j hij hle]
    · intro i j hij hlt
      have hji : S.InR j i := ⟨hij.2.2.1, by have := hij.2.2.2; omega, hij.1, by have := hij.2.1; omega⟩
      rw [v3 i j (s.inR.2 hij), if_neg (by omega), v1 j i hji (le_of_lt hlt), if_pos rfl]

end
end Mx
end LDT
