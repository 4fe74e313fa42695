import Verif.Props.MatrixVec
import Verif.Props.Sort
/-!
# C92: products of matrices and vectors; cross products of data with missing cells; sorted indices
-/
namespace LDT
namespace Mx
open De (getLin_eq)

section
variable {α : Type} [CommRing α] [DecidableEq α]

/-- **C92**, `DotVector`: `storage i = alpha * Σ_k A i k * b k + beta * storage i`; anything that is not a vector or has another size
is refused. -/
theorem C92_dot_vector (A b S : Mat α) (wa : A.Wf) (wb : b.Wf) (ws : S.Wf) (alpha beta : α) :
    (b.cols = 1 → S.cols = 1 → A.cols = b.rows → A.rows = S.rows → 0 < A.rows → 0 < A.cols →
      ∃ res, A.dotVector b S alpha beta = .ok res ∧ SameShape S res ∧
        ∀ i, 0 ≤ i → i < A.rows → res.val i 0 = alpha * (∑ k ∈ Finset.range A.cols.toNat, A.val i k * b.val k 0) + beta * S.val i 0) ∧
    (b.cols ≠ 1 ∨ S.cols ≠ 1 ∨ A.cols ≠ b.rows ∨ A.rows ≠ S.rows → A.dotVector b S alpha beta = .throws) := by
  constructor
  · intro h1 h2 h3 h4 p1 p2
    obtain ⟨res, e, s, h⟩ := (C60_dot A b S wa wb ws alpha beta).1 h3 h4.symm (by omega) p1 p2
    refine ⟨res, ?_, s, fun i hi0 hi1 => h i 0 ⟨hi0, by omega, le_rfl, by omega⟩⟩
    unfold Mat.dotVector
    rw [if_neg (by omega), if_neg (by omega), if_neg (by omega), if_neg (by omega), gemv_eq false p1 p2]
    unfold Mat.dot at e
    rw [if_neg (by omega), if_neg (by omega), h1] at e
    exact e
  · intro h; unfold Mat.dotVector; split_ifs <;> first | rfl | (exfalso; omega)

example : (⟨2, 2, some [1, 2, 3, 4]⟩ : Mat Int).dotVector ⟨2, 1, some [5, 6]⟩ ⟨2, 1, some [1, 1]⟩ 1 2 = .ok ⟨2, 1, some [25, 36]⟩ := by
  decide +kernel

/-- **C92**, `tDotVector`: the same for the transposed matrix. -/
theorem C92_t_dot_vector (A b S : Mat α) (wa : A.Wf) (wb : b.Wf) (ws : S.Wf) (alpha beta : α) :
    (b.cols = 1 → S.cols = 1 → A.rows = b.rows → A.cols = S.rows → 0 < A.rows → 0 < A.cols →
      ∃ res, A.tDotVector b S alpha beta = .ok res ∧ SameShape S res ∧
        ∀ j, 0 ≤ j → j < A.cols → res.val j 0 = alpha * (∑ k ∈ Finset.range A.rows.toNat, A.val k j * b.val k 0) + beta * S.val j 0) ∧
    (b.cols ≠ 1 ∨ S.cols ≠ 1 ∨ A.rows ≠ b.rows ∨ A.cols ≠ S.rows → A.tDotVector b S alpha beta = .throws) := by
  constructor
  · intro h1 h2 h3 h4 p1 p2
    obtain ⟨res, e, s, h⟩ := (C60_trDot A b S wa wb ws alpha beta).1 h3 h4.symm (by omega) p1 p2
    refine ⟨res, ?_, s, fun i hi0 hi1 => h i 0 ⟨hi0, by omega, le_rfl, by omega⟩⟩
    unfold Mat.tDotVector
    rw [if_neg (by omega), if_neg (by omega), if_neg (by omega), if_neg (by omega), gemv_eq true p1 p2]
    unfold Mat.trDot at e
    rw [if_neg (by omega), if_neg (by omega), h1] at e
    exact e
  · intro h; unfold Mat.tDotVector; split_ifs <;> first | rfl | (exfalso; omega)

example : (⟨2, 2, some [1, 2, 3, 4]⟩ : Mat Int).tDotVector ⟨2, 1, some [5, 6]⟩ ⟨2, 1, some [1, 1]⟩ 1 0 = .ok ⟨2, 1, some [17, 39]⟩ := by
  decide +kernel

/-- **C92**, `VectorDotVector`: `Σ_k a k * b k`, for a vector and cells of the same number; anything else is refused. -/
theorem C92_vector_dot_vector (a b : Mat α) (xs ys : List α) (ha : IsCells a xs) (hb : IsCells b ys) :
    (a.cols = 1 → b.length = a.length → a.vectorDotVector b = .ok (List.zipWith (· * ·) xs ys).sum) ∧
    (a.cols ≠ 1 ∨ b.length ≠ a.length → a.vectorDotVector b = .throws) := by
  constructor
  · intro h1 h2
    have l1 := ha.len
    have l2 := hb.len
    unfold Mat.vectorDotVector
    rw [if_neg (by omega), if_neg (by omega), ← l1,
      dotSum_spec (xv := fun l => xs.getD l.toNat 0) (yv := fun l => ys.getD l.toNat 0) (by omega)]
    · congr 1
      simp only [Int.toNat_natCast]
      have hlen : xs.length = ys.length := by omega
      clear l1 l2 ha hb h2
      induction xs generalizing ys with
      | nil => simp
      | cons x xs ih =>
        cases ys with
        | nil => simp at hlen
        | cons y ys =>
          rw [List.length_cons, Finset.sum_range_succ']
          simp only [List.zipWith_cons_cons, List.sum_cons, List.getD_cons_succ, List.getD_cons_zero]
          rw [ih ys (by simpa using hlen), add_comm]
    · intro l h0 h3
      have := isCells_read ha l.toNat xs[l.toNat] (List.getElem?_eq_getElem (by omega))
      rw [zero_add, Int.toNat_of_nonneg h0] at this
      rw [this, List.getD_eq_getElem?_getD, List.getElem?_eq_getElem (by omega)]; rfl
    · intro l h0 h3
      have := isCells_read hb l.toNat ys[l.toNat] (List.getElem?_eq_getElem (by omega))
      rw [zero_add, Int.toNat_of_nonneg h0] at this
      rw [this, List.getD_eq_getElem?_getD, List.getElem?_eq_getElem (by omega)]; rfl
  · intro h; unfold Mat.vectorDotVector; split_ifs <;> first | rfl | (exfalso; omega)

example : (⟨3, 1, some [1, 2, 3]⟩ : Mat Int).vectorDotVector ⟨3, 1, some [4, 5, 6]⟩ = .ok 32 := by decide +kernel

end

section
variable {K : Type} [Field K] [DecidableEq K]
open Arr (Val)

/-- The products of the rows in which both columns have numbers. -/
def products (xs ys : List (Val K)) : List K := (List.zip xs ys).filterMap fun p =>
  match p.1, p.2 with
  | some a, some b => some (a * b)
  | _, _ => none

theorem nanProduct_spec (m : Mat (Val K)) (w : m.Wf) {i j : Int} {xs ys : List (Val K)} (hi : 0 ≤ i ∧ i < m.cols)
    (hj : 0 ≤ j ∧ j < m.cols) (hx : IsColumn m i xs) (hy : IsColumn m j ys) :
    m.nanProduct i j = .ok ((products xs ys).sum, ((products xs ys).length : Int)) := by
  have l1 := hx.len
  have l2 := hy.len
  obtain ⟨s, e, hs⟩ := loop_inv (a := 0) (b := m.rows) w.rows_nonneg (fun (s : K × Int) k => do
      let a ← read m.mem (i * m.rows + k)
      let b ← read m.mem (j * m.rows + k)
      pure (addProduct s a b))
    (fun t s => s = ((products (xs.take t.toNat) (ys.take t.toNat)).sum, ((products (xs.take t.toNat) (ys.take t.toNat)).length : Int)))
    (s := (0, 0)) (by simp [products, addProduct]) (by
      intro t h0 h1 s hs
      have ht : t.toNat < xs.length := by omega
      have ht' : t.toNat < ys.length := by omega
      have r1 := hx.cell t.toNat xs[t.toNat] (List.getElem?_eq_getElem ht)
      have r2 := hy.cell t.toNat ys[t.toNat] (List.getElem?_eq_getElem ht')
      rw [Int.toNat_of_nonneg h0] at r1 r2
      rw [get_eq_get0 w ⟨h0, h1, hi.1, hi.2⟩] at r1
      rw [get_eq_get0 w ⟨h0, h1, hj.1, hj.2⟩] at r2
      unfold Mat.get0 at r1 r2
      rw [show t + m.rows * i = i * m.rows + t by ring] at r1
      rw [show t + m.rows * j = j * m.rows + t by ring] at r2
      refine ⟨_, by simp only [r1, r2, Outcome.ok_bind]; rfl, ?_⟩
      rw [show (t + 1).toNat = t.toNat + 1 by omega, List.take_succ_eq_append_getElem ht, List.take_succ_eq_append_getElem ht']
      have hz : products (xs.take t.toNat ++ [xs[t.toNat]]) (ys.take t.toNat ++ [ys[t.toNat]]) =
          products (xs.take t.toNat) (ys.take t.toNat) ++ products [xs[t.toNat]] [ys[t.toNat]] := by
        unfold products
        rw [List.zip_append (by rw [List.length_take, List.length_take]; omega), List.filterMap_append]
      rw [hz, List.sum_append, List.length_append, hs]
      cases xs[t.toNat] <;> cases ys[t.toNat] <;> simp [products, addProduct])
  unfold Mat.nanProduct
  rw [e, hs, show m.rows.toNat = xs.length by omega, List.take_length, show xs.length = ys.length by omega, List.take_length]

theorem products_comm (xs ys : List (Val K)) : products xs ys = products ys xs := by
  unfold products
  rw [← List.zip_swap, List.filterMap_map]
  congr 1
  funext p
  rcases p with ⟨_ | a, _ | b⟩ <;> simp [mul_comm]

theorem nanCell_spec (lower : Bool) {i j : Int} (p : K × Int) {s t : Mat (Val K)} (ws : s.Wf) (wt : t.Wf) (h1 : s.InR j i)
    (h2 : s.InR i j) (h3 : t.InR j i) (h4 : t.InR i j) :
    ∃ s' t', nanCell lower i j p (s, t) = .ok (s', t') ∧ SameShape s s' ∧ SameShape t t' ∧
      (∀ a b, s.InR a b → s'.get0 a b = if (a = j ∧ b = i) ∨ lower = true ∧ a = i ∧ b = j then .ok (some p.1) else s.get0 a b) ∧
      (∀ a b, t.InR a b → t'.get0 a b =
        if (a = j ∧ b = i) ∨ lower = true ∧ a = i ∧ b = j then .ok (some (p.2 : K)) else t.get0 a b) := by
  obtain ⟨s1, e1, ss1, v1⟩ := set0_spec ws h1 (some p.1)
  obtain ⟨t1, e2, st1, v2⟩ := set0_spec wt h3 (some (p.2 : K))
  cases lower with
  | false =>
    refine ⟨s1, t1, ?_, ss1, st1, ?_, ?_⟩
    · unfold nanCell; simp only [e1, e2, Outcome.ok_bind]; rfl
    · intro a b h; rw [v1 a b h]; simp
    · intro a b h; rw [v2 a b h]; simp
  | true =>
    obtain ⟨s2, e3, ss2, v3⟩ := set0_spec (ss1.wf ws) (ss1.inR.2 h2) (some p.1)
    obtain ⟨t2, e4, st2, v4⟩ := set0_spec (st1.wf wt) (st1.inR.2 h4) (some (p.2 : K))
    refine ⟨s2, t2, ?_, ss1.trans ss2, st1.trans st2, ?_, ?_⟩
    · unfold nanCell; simp only [e1, e2, e3, e4, Outcome.ok_bind, if_true]; rfl
    · intro a b h; rw [v3 a b (ss1.inR.2 h), v1 a b h]
      by_cases c1 : a = i ∧ b = j <;> by_cases c2 : a = j ∧ b = i <;> simp [c1, c2]
    · intro a b h; rw [v4 a b (st1.inR.2 h), v2 a b h]
      by_cases c1 : a = i ∧ b = j <;> by_cases c2 : a = j ∧ b = i <;> simp [c1, c2]

/-- **C92**, `Dot_AtA_nan`: for each pair of columns the sum of the products over the rows in which both have numbers, and their number
(with `set_lower` or without); storages of another size are refused. -/
theorem C92_dot_AtA_nan (m S C : Mat (Val K)) (w : m.Wf) (ws : S.Wf) (wc : C.Wf) (lower : Bool) (col : Int → List (Val K))
    (hcol : ∀ j, 0 ≤ j → j < m.cols → IsColumn m j (col j)) :
    (S.rows = m.cols → S.cols = m.cols → C.rows = m.cols → C.cols = m.cols →
      ∃ S' C', m.dotAtANan S C lower = .ok (S', C') ∧ SameShape S S' ∧ SameShape C C' ∧
        ∀ i j, 0 ≤ i → i < m.cols → 0 ≤ j → j < m.cols →
          S'.get i j = .ok (some (products (col i) (col j)).sum) ∧
          C'.get i j = .ok (some ((products (col i) (col j)).length : K))) ∧
    (S.rows ≠ m.cols ∨ S.cols ≠ m.cols ∨ C.rows ≠ m.cols ∨ C.cols ≠ m.cols → m.dotAtANan S C lower = .throws) := by
  constructor
  · intro h1 h2 h3 h4
    -- what has been written so far has the right values
    let Ok : (Int → Int → Prop) → Mat (Val K) × Mat (Val K) → Prop := fun D s => SameShape S s.1 ∧ SameShape C s.2 ∧
      ∀ a b, S.InR a b → D a b → s.1.get0 a b = .ok (some (products (col a) (col b)).sum) ∧
        s.2.get0 a b = .ok (some ((products (col a) (col b)).length : K))
    have inS : ∀ a b, 0 ≤ a → a < m.cols → 0 ≤ b → b < m.cols → S.InR a b := fun a b x y z u =>
      ⟨x, by omega, z, by omega⟩
    have inC : ∀ a b, 0 ≤ a → a < m.cols → 0 ≤ b → b < m.cols → C.InR a b := fun a b x y z u =>
      ⟨x, by omega, z, by omega⟩
    obtain ⟨s, e, s1, s2, hs⟩ := loop_inv (a := 0) (b := m.cols) w.cols_nonneg
      (fun s i => (upTo 0 m.cols).foldlM (fun s j => do
        let p ← m.nanProduct i j
        nanCell lower i j p s) s)
      (fun t s => Ok (fun _ b => b < t) s) (s := (S, C)) ⟨SameShape.refl _, SameShape.refl _, fun a b h hb => by
        have := h.2.2.1; omega⟩ (by
        intro i hi0 hi1 s hs
        obtain ⟨s', e', hs'⟩ := loop_inv (a := 0) (b := m.cols) w.cols_nonneg (fun s j => do
            let p ← m.nanProduct i j
            nanCell lower i j p s)
          (fun t s => Ok (fun a b => b < i ∨ b = i ∧ a < t) s) (s := s)
          ⟨hs.1, hs.2.1, fun a b h hb => hs.2.2 a b h (by have := h.1; omega)⟩ (by
            intro j hj0 hj1 s ⟨g1, g2, g3⟩
            have hp := nanProduct_spec m w ⟨hi0, hi1⟩ ⟨hj0, hj1⟩ (hcol i hi0 hi1) (hcol j hj0 hj1)
            obtain ⟨a', b', e2, k1, k2, k3, k4⟩ := nanCell_spec lower
              ((products (col i) (col j)).sum, ((products (col i) (col j)).length : Int))
              (g1.wf ws) (g2.wf wc) (g1.inR.2 (inS j i hj0 hj1 hi0 hi1))
              (g1.inR.2 (inS i j hi0 hi1 hj0 hj1)) (g2.inR.2 (inC j i hj0 hj1 hi0 hi1)) (g2.inR.2 (inC i j hi0 hi1 hj0 hj1))
            refine ⟨(a', b'), by simp only [hp, Outcome.ok_bind]; exact e2, g1.trans k1, g2.trans k2, ?_⟩
            intro a b hab hD
            have hc : C.InR a b := inC a b hab.1 (by have := hab.2.1; omega) hab.2.2.1 (by have := hab.2.2.2; omega)
            show a'.get0 a b = _ ∧ b'.get0 a b = _
            rw [k3 a b (g1.inR.2 hab), k4 a b (g2.inR.2 hc)]
            by_cases hcase : (a = j ∧ b = i) ∨ lower = true ∧ a = i ∧ b = j
            · rw [if_pos hcase, if_pos hcase]
              rcases hcase with ⟨rfl, rfl⟩ | ⟨-, rfl, rfl⟩
              · rw [products_comm (col a) (col b)]; exact ⟨rfl, by push_cast; rfl⟩
              · exact ⟨rfl, by push_cast; rfl⟩
            · rw [if_neg hcase, if_neg hcase]
              refine g3 a b hab ?_
              rcases hD with h | ⟨h, h'⟩
              · exact Or.inl h
              · refine Or.inr ⟨h, ?_⟩
                by_contra hne
                exact hcase (Or.inl ⟨by omega, h⟩))
        exact ⟨s', e', hs'.1, hs'.2.1, fun a b h hb => hs'.2.2 a b h (by
          have h5 := h.2.1
          have hb' : b < i + 1 := hb
          show b < i ∨ b = i ∧ a < m.cols
          omega)⟩)
    refine ⟨s.1, s.2, ?_, s1, s2, fun i j hi0 hi1 hj0 hj1 => ?_⟩
    · unfold Mat.dotAtANan
      rw [if_neg (by omega), if_neg (by omega)]
      exact e
    · rw [get_eq_get0 (s1.wf ws) (s1.inR.2 (inS i j hi0 hi1 hj0 hj1)), get_eq_get0 (s2.wf wc) (s2.inR.2 (inC i j hi0 hi1 hj0 hj1))]
      exact hs i j (inS i j hi0 hi1 hj0 hj1) hj1
  · intro h; unfold Mat.dotAtANan; split_ifs <;> first | rfl | (exfalso; omega)

example : (⟨2, 2, some [some 1, some 2, none, some 4]⟩ : Mat (Val ℚ)).dotAtANan ⟨2, 2, some [none, none, none, none]⟩
    ⟨2, 2, some [none, none, none, none]⟩ false =
    .ok (⟨2, 2, some [some 5, some 8, some 8, some 16]⟩, ⟨2, 2, some [some 2, some 1, some 1, some 1]⟩) := by decide +kernel

end

section
variable {K : Type} [LinearOrder K]
open Arr (Val)

theorem cells_spec (m : Mat (Val K)) (xs : List (Val K)) (h : IsCells m xs) : m.cells = .ok xs := by
  have hln := h.len
  obtain ⟨l, e, hl⟩ := loop_inv (a := 0) (b := m.length) (by omega) (fun l i => do
      let v ← read m.mem i
      pure (l ++ [v])) (fun t l => l = xs.take t.toNat) (s := []) (by simp) (by
      intro t h0 h1 l hl
      have ht : t.toNat < xs.length := by omega
      have hr := isCells_read h t.toNat xs[t.toNat] (List.getElem?_eq_getElem ht)
      rw [zero_add, Int.toNat_of_nonneg h0] at hr
      refine ⟨_, by simp only [hr, Outcome.ok_bind]; rfl, ?_⟩
      rw [show (t + 1).toNat = t.toNat + 1 by omega, List.take_succ_eq_append_getElem ht, hl])
  unfold Mat.cells
  rw [e, hl, show m.length.toNat = xs.length by omega, List.take_length]

/-- **C92**, `SortIndicesVector` for numbers: all indices, such that the values never decrease (increase), and equal values keep their
order. Partial: with missing cells the call may be undefined. -/
theorem C92_sort_indices_partial (m : Mat (Val K)) (d : List K) (h : IsCells m (d.map some)) (ascending : Bool) :
    ∃ r, m.sortIndicesVector ascending = .ok r ∧ r.Perm (List.range d.length) ∧
      ∀ p q : Nat, p < q → ∀ i j, r[p]? = some i → r[q]? = some j →
        (∃ x y, d[i]? = some x ∧ d[j]? = some y ∧ if ascending then x < y else y < x) ∨ (d[i]? = d[j]? ∧ i < j) := by
  obtain ⟨r, e, h1, h2⟩ := Arr.C32_sort_partial d ascending
  refine ⟨r, ?_, h1, h2⟩
  unfold Mat.sortIndicesVector
  rw [cells_spec m _ h, Outcome.ok_bind, e]

/-- **C92**, violated: a missing cell. -/
theorem C92_sort_indices_violated : (⟨3, 1, some [some 3, none, some 1]⟩ : Mat (Val ℚ)).sortIndicesVector true = .ub := by
  decide +kernel

example : (⟨3, 1, some [some 3, some 1, some 2]⟩ : Mat (Val ℚ)).sortIndicesVector true = .ok [1, 2, 0] := by decide +kernel

end
end Mx
end LDT
