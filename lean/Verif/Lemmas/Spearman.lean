import Verif.Props.Rank
import Verif.Props.CorrDistance
import Verif.Spec.Spearman
/-!
# Spearman's coefficient: pairs of complete rows and the double loop
-/
namespace LDT
namespace Co
open Mx Stat
open Arr (Val)

section
variable {α : Type}

theorem getElem?_filterMap {β : Type} (f : α → Option β) (l : List α) (a : Nat) :
    (l.filterMap f)[a]? = ((l.filter (fun x => (f x).isSome))[a]?).bind f := by
  induction l generalizing a with
  | nil => rfl
  | cons x l ih =>
    cases h : f x with
    | none => rw [List.filterMap_cons_none h, List.filter_cons_of_neg (by simp [h]), ih]
    | some y =>
      rw [List.filterMap_cons_some h, List.filter_cons_of_pos (by simp [h])]
      cases a with
      | zero => simp [h]
      | succ a => rw [List.getElem?_cons_succ, List.getElem?_cons_succ, ih]

theorem sorted_unique {l l' : List Int} (h : l.Pairwise (· < ·)) (h' : l'.Pairwise (· < ·)) (hm : ∀ i, i ∈ l ↔ i ∈ l') : l = l' := by
  have n1 : l.Nodup := h.imp (fun h => ne_of_lt h)
  have n2 : l'.Nodup := h'.imp (fun h => ne_of_lt h)
  have hp : l.Perm l' := (List.perm_ext_iff_of_nodup n1 n2).2 hm
  exact hp.eq_of_pairwise (fun a b _ _ h1 h2 => absurd h1 (not_lt.2 (le_of_lt h2))) h h'

theorem wf_of_get {m : Mat α} (hr : 0 < m.rows) (hc : 0 < m.cols) {v : α} (h : m.get (m.rows - 1) (m.cols - 1) = .ok v) : m.Wf := by
  unfold Mat.get at h
  split_ifs at h with h1 h2
  unfold Mat.get0 at h
  rw [read_eq_ok] at h
  obtain ⟨hl, -⟩ := List.getElem?_eq_some_iff.1 h.2
  refine ⟨by omega, by omega, ?_, ?_⟩
  · cases hd : m.data <;> simp_all
  · have : m.rows - 1 + m.rows * (m.cols - 1) < m.mem.length := by omega
    nlinarith

end

section
variable {K : Type} [Field K]

/-- The complete rows of two columns hold the complete pairs. -/
theorem pairs_kept {m : Mat (Val K)} {i j : Int} {xs ys : List (Val K)} (hx : IsColumn m i xs) (hy : IsColumn m j ys) {kept : List Int}
    (hk : CompleteRows (fun v => v.isNone) m [i, j] kept) (a : Nat) :
    (pairs xs ys)[a]? = (kept[a]?).bind (fun r => complete ((xs[r.toNat]?).getD none, (ys[r.toNat]?).getD none)) := by
  have lx := hx.len
  have ly := hy.len
  have hz : xs.zip ys = (upTo 0 m.rows).map (fun r => ((xs[r.toNat]?).getD none, (ys[r.toNat]?).getD none)) := by
    apply List.ext_getElem?
    intro k
    rw [List.getElem?_map, getElem?_upTo]
    by_cases hk : (k : Int) < m.rows
    · have h1 : k < xs.length := by omega
      have h2 : k < ys.length := by omega
      rw [if_pos (by omega), show (xs.zip ys)[k]? = some (xs[k], ys[k]) from List.getElem?_zip_eq_some.2 ⟨List.getElem?_eq_getElem h1, List.getElem?_eq_getElem h2⟩]
      simp [h1, h2]
    · rw [if_neg (by omega), List.getElem?_eq_none (by rw [List.length_zip]; omega)]; rfl
  unfold pairs
  rw [hz, List.filterMap_map, getElem?_filterMap]
  congr 2
  apply sorted_unique ((upTo_sorted 0 m.rows).filter _) hk.sorted
  intro r
  rw [hk.mem, List.mem_filter, mem_upTo, and_assoc]
  apply and_congr_right
  intro h0
  apply and_congr_right
  intro h1
  have h1' : r.toNat < xs.length := by omega
  have h2' : r.toNat < ys.length := by omega
  have gx := hx.cell r.toNat _ (List.getElem?_eq_getElem h1')
  have gy := hy.cell r.toNat _ (List.getElem?_eq_getElem h2')
  rw [show ((r.toNat : Nat) : Int) = r by omega] at gx gy
  show (complete ((xs[r.toNat]?).getD none, (ys[r.toNat]?).getD none)).isSome = true ↔ _
  rw [List.getElem?_eq_getElem h1', List.getElem?_eq_getElem h2']
  unfold Complete
  simp only [List.mem_cons, List.not_mem_nil, or_false, forall_eq_or_imp, forall_eq, gx, gy, Outcome.ok.injEq, exists_eq_left',
    Option.getD_some]
  cases xs[r.toNat] <;> cases ys[r.toNat] <;> simp [complete]

/-- The data set of two columns without the incomplete rows. -/
theorem dataset_pair {m : Mat (Val K)} (w : m.Wf) (hr : 0 < m.rows) {i j : Int} (hi0 : 0 ≤ i) (hi1 : i < m.cols) (hj0 : 0 ≤ j)
    (hj1 : j < m.cols) {xs ys : List (Val K)} (hx : IsColumn m i xs) (hy : IsColumn m j ys) (hp : pairs xs ys ≠ [])
    (storage : List (Val K)) (hst : (storage.length : Int) = m.rows * 2) :
    ∃ ds two, Dataset.make m.rows 2 true true = .ok ds ∧ ds.calculate (fun v => v.isNone) m (some [i, j]) storage = .ok two ∧ two.Wf ∧
      two.rows = (pairs xs ys).length ∧ two.cols = 2 ∧ two.rows ≤ m.rows ∧
      IsColumn two 0 (((pairs xs ys).map Prod.fst).map some) ∧ IsColumn two 1 (((pairs xs ys).map Prod.snd).map some) := by
  have hmk : Dataset.make m.rows 2 true true = .ok ⟨true, true, m.rows * 2⟩ := by
    unfold Dataset.make; rw [if_neg (by omega)]
  obtain ⟨kept, two, hk, e, er, ec, hg⟩ := C36_dataset_missing (fun v : Val K => v.isNone) m.rows 2 true _ hmk m w (le_refl _) [i, j]
    (by intro k hk; simp at hk; rcases hk with rfl | rfl <;> omega) (by simp) storage hst
  have hlen : (pairs xs ys).length = kept.length := by
    have key := fun a => pairs_kept hx hy hk a
    apply le_antisymm
    · by_contra hc
      have h1 := key kept.length
      rw [List.getElem?_eq_none (le_refl _), List.getElem?_eq_getElem (by omega)] at h1
      cases h1
    · by_contra hc
      have h1 := key (pairs xs ys).length
      rw [List.getElem?_eq_none (le_refl _), List.getElem?_eq_getElem (by omega)] at h1
      have hmem : kept[(pairs xs ys).length]'(by omega) ∈ kept := List.getElem_mem _
      generalize kept[(pairs xs ys).length]'(by omega) = r at h1 hmem
      obtain ⟨h0, hb, hcm⟩ := (hk.mem r).1 hmem
      have lx := hx.len
      have ly := hy.len
      have h1' : r.toNat < xs.length := by omega
      have h2' : r.toNat < ys.length := by omega
      have gx := hx.cell r.toNat _ (List.getElem?_eq_getElem h1')
      have gy := hy.cell r.toNat _ (List.getElem?_eq_getElem h2')
      rw [show ((r.toNat : Nat) : Int) = r by omega] at gx gy
      obtain ⟨v, hv, bv⟩ := hcm i (by simp)
      obtain ⟨u, hu, bu⟩ := hcm j (by simp)
      rw [gx] at hv
      rw [gy] at hu
      obtain rfl := Outcome.ok.inj hv
      obtain rfl := Outcome.ok.inj hu
      rw [Option.bind_some, List.getElem?_eq_getElem h1', List.getElem?_eq_getElem h2', Option.getD_some, Option.getD_some] at h1
      cases hxx : xs[r.toNat] <;> cases hyy : ys[r.toNat] <;> rw [hxx] at h1 bv <;> rw [hyy] at h1 bu <;>
        first | (simp at bv; done) | (simp at bu; done) | (simp [complete] at h1; done)
  have hpos : 0 < kept.length := by
    rw [← hlen]; exact List.length_pos_iff.2 hp
  -- the two columns
  have cols : ∀ (a : Nat) (q : Val K × Val K) (p : K × K), (pairs xs ys)[a]? = some p →
      two.get a 0 = .ok (some p.1) ∧ two.get a 1 = .ok (some p.2) := by
    intro a q p hpa
    rw [pairs_kept hx hy hk a] at hpa
    cases hka : kept[a]? with
    | none => rw [hka] at hpa; cases hpa
    | some r =>
      rw [hka, Option.bind_some] at hpa
      obtain ⟨h0, hb, -⟩ := (hk.mem r).1 (List.mem_of_getElem? hka)
      have lx := hx.len
      have ly := hy.len
      have h1' : r.toNat < xs.length := by omega
      have h2' : r.toNat < ys.length := by omega
      have gx := hx.cell r.toNat _ (List.getElem?_eq_getElem h1')
      have gy := hy.cell r.toNat _ (List.getElem?_eq_getElem h2')
      rw [show ((r.toNat : Nat) : Int) = r by omega] at gx gy
      rw [List.getElem?_eq_getElem h1', List.getElem?_eq_getElem h2', Option.getD_some, Option.getD_some] at hpa
      have e0 := hg a 0 r i hka rfl
      have e1 := hg a 1 r j hka rfl
      rw [gx] at e0
      rw [gy] at e1
      cases hxx : xs[r.toNat] <;> cases hyy : ys[r.toNat] <;> rw [hxx, hyy] at hpa <;> simp [complete] at hpa
      subst hpa
      rw [hxx] at e0
      rw [hyy] at e1
      exact ⟨e0, e1⟩
  have hrows : two.rows = (pairs xs ys).length := by rw [er, hlen]
  have hcols : two.cols = 2 := by rw [ec]; rfl
  have hlast : (pairs xs ys).length - 1 < (pairs xs ys).length := by omega
  have wt : two.Wf := by
    apply wf_of_get (v := some ((pairs xs ys)[(pairs xs ys).length - 1]).2) (by omega) (by omega)
    have := (cols _ (none, none) _ (List.getElem?_eq_getElem hlast)).2
    rw [hcols, hrows, ← this]
    congr 1
    omega
  refine ⟨_, two, hmk, e, wt, hrows, hcols, ?_, ?_, ?_⟩
  · rw [er]; exact kept_length _ m w _ kept hk
  · refine ⟨by rw [hrows]; simp, fun k x hk => ?_⟩
    simp only [List.getElem?_map, Option.map_map, Option.map_eq_some_iff] at hk
    obtain ⟨p, hp, rfl⟩ := hk
    exact (cols k (none, none) p hp).1
  · refine ⟨by rw [hrows]; simp, fun k x hk => ?_⟩
    simp only [List.getElem?_map, Option.map_map, Option.map_eq_some_iff] at hk
    obtain ⟨p, hp, rfl⟩ := hk
    exact (cols k (none, none) p hp).2

end

section
variable {K : Type} [Field K] [LinearOrder K]
variable {s0 : Res K} {n : Int} {sl : Bool} {W Wc : Int → Int → Val K} {P : Int → Int → Prop}

/-- Writing a pair, the diagonal included. -/
theorem Inv.spearmanCell {vsqrt : Val K → Val K} {kind : Kind} {adjust : Bool} {m : Mat (Val K)} {work : List (Val K)} {s : Res K}
    (w0 : s0.result.Wf) (r0 : s0.result.rows = n) (c0 : s0.result.cols = n) (I : Inv s0 n sl true W Wc P s) {i j : Int} (hi : 0 ≤ i)
    (hij : i ≤ j) (hj : j < n) {c : Int} (hv : spearmanPair vsqrt kind adjust m work i j = .ok (W i j, c)) (hc : Wc i j = vint c) :
    ∃ s', Co.spearmanCell vsqrt kind adjust sl m work i s j = .ok s' ∧ Inv s0 n sl true W Wc (fun a b => P a b ∨ (a = i ∧ b = j)) s' := by
  have inR : ∀ a b, 0 ≤ a → a < n → 0 ≤ b → b < n → s.result.InR a b :=
    fun a b h1 h2 h3 h4 => I.shape.inR.2 ⟨h1, by omega, h3, by omega⟩
  have ws := I.shape.wf w0
  obtain ⟨r1, e1, t1, w1, v1⟩ := set0_val ws (inR i j hi (by omega) (by omega) hj) (W i j)
  obtain ⟨cs, e2, rc, lc, g1, g2, g3⟩ := (C34_set_get true s.counts (by rw [I.rows]; exact I.size) i j (Wc i j)).1
    (Or.inl ⟨hi, by rw [I.rows]; exact hj, by simp; omega⟩)
  have low : ∃ r2, setLowerCell sl r1 i j (W i j) = .ok r2 ∧ SameShape r1 r2 ∧
      ∀ a b, r1.InR a b → r2.val a b = if sl = true ∧ a = j ∧ b = i then W i j else r1.val a b := by
    unfold setLowerCell
    cases sl with
    | false => exact ⟨r1, rfl, SameShape.refl _, fun a b _ => by simp⟩
    | true =>
      obtain ⟨r2, e, t, -, v⟩ := set0_val w1 (t1.inR.2 (inR j i (by omega) hj hi (by omega))) (W i j)
      exact ⟨r2, e, t, fun a b h => by rw [v a b h]; simp⟩
  obtain ⟨r2, e3, t2, v2⟩ := low
  refine ⟨⟨r2, cs⟩, ?_, ?_, ?_, ?_, ?_, ?_⟩
  · unfold Co.spearmanCell
    rw [if_pos hij, hv, Outcome.ok_bind]
    simp only
    rw [e1, Outcome.ok_bind, symSetD_set hi (by rw [I.rows]; omega) (by omega) (by rw [I.rows]; omega), ← hc, e2,
      Outcome.ok_bind, e3]; rfl
  · exact (I.shape.trans t1).trans t2
  · rw [rc, I.rows]
  · rw [lc, I.size]
  · intro a b ha hab hb hp
    have q1 : ∀ x y, 0 ≤ x → x < n → 0 ≤ y → y < n → r2.val x y = if sl = true ∧ x = j ∧ y = i then W i j
        else if x = i ∧ y = j then W i j else s.result.val x y := by
      intro x y h1 h2 h3 h4
      rw [v2 x y (t1.inR.2 (inR x y h1 h2 h3 h4)), v1 x y (inR x y h1 h2 h3 h4)]
    show r2.val a b = _ ∧ (_ → r2.val b a = _) ∧ _
    by_cases he : a = i ∧ b = j
    · obtain ⟨rfl, rfl⟩ := he
      refine ⟨?_, ?_, fun _ => ⟨g1, g2⟩⟩
      · rw [q1 a b ha (by omega) (by omega) hb]
        by_cases hq : sl = true ∧ a = b ∧ b = a
        · rw [if_pos hq]
        · rw [if_neg hq, if_pos ⟨rfl, rfl⟩]
      · intro hs
        rw [q1 b a (by omega) hb ha (by omega), if_pos ⟨hs, rfl, rfl⟩]
    · obtain ⟨d1, d2, d3⟩ := I.done a b ha hab hb (hp.resolve_right he)
      refine ⟨?_, ?_, fun h => ?_⟩
      · rw [q1 a b ha (by omega) (by omega) hb, if_neg (by omega), if_neg he]; exact d1
      · intro hs
        rw [q1 b a (by omega) hb ha (by omega), if_neg (by omega), if_neg (by omega)]; exact d2 hs
      · rw [g3 a b (by simp; omega) (by simp; omega), g3 b a (by simp; omega) (by simp; omega)]; exact d3 h
  · intro hd; cases hd

/-- The double loop of the pairwise coefficients of the ranks. -/
theorem spearmanNan_loop (vsqrt : Val K → Val K) (kind : Kind) (adjust : Bool) (m : Mat (Val K)) (work : List (Val K)) (s0 : Res K)
    (wm : m.Wf) (w0 : s0.result.Wf) (r0 : s0.result.rows = m.cols) (c0 : s0.result.cols = m.cols) (rc : s0.counts.rows = m.cols)
    (sc : (s0.counts.data.length : Int) = symLength true m.cols)
    (hp : ∀ i j, 0 ≤ i → i ≤ j → j < m.cols → ∃ c, spearmanPair vsqrt kind adjust m work i j = .ok (W i j, c) ∧ Wc i j = vint c) :
    ∃ s, (upTo 0 m.cols).foldlM (fun s i => (upTo 0 m.cols).foldlM (Co.spearmanCell vsqrt kind adjust sl m work i) s) s0 = .ok s ∧
      Inv s0 m.cols sl true W Wc (fun _ _ => True) s := by
  obtain ⟨s, e, I⟩ := loop_inv (a := 0) (b := m.cols) wm.cols_nonneg
    (fun s i => (upTo 0 m.cols).foldlM (Co.spearmanCell vsqrt kind adjust sl m work i) s)
    (fun i s => Inv s0 m.cols sl true W Wc (fun a _ => a < i) s) (s := s0)
    ⟨SameShape.refl _, rc, sc, fun a b h _ _ h' => by omega, fun _ _ => rfl⟩
    (by
      intro i hi0 hi1 s I
      obtain ⟨s2, e2, I2⟩ := loop_inv (a := 0) (b := m.cols) wm.cols_nonneg (Co.spearmanCell vsqrt kind adjust sl m work i)
        (fun j s => Inv s0 m.cols sl true W Wc (fun a b => a < i ∨ (a = i ∧ b < j)) s) (s := s)
        (I.mono (fun a b h1 h2 _ h => by omega))
        (by
          intro j hj0 hj1 s I
          by_cases hij : i ≤ j
          · obtain ⟨c, hv, hc⟩ := hp i j hi0 hij hj1
            obtain ⟨s', e', I'⟩ := I.spearmanCell w0 r0 c0 hi0 hij hj1 hv hc
            exact ⟨s', e', I'.mono (fun a b h1 h2 _ h => by omega)⟩
          · refine ⟨s, by unfold Co.spearmanCell; rw [if_neg hij], I.mono (fun a b h1 h2 _ h => by omega)⟩)
      exact ⟨s2, e2, I2.mono (fun a b h1 h2 h3 h => by omega)⟩)
  exact ⟨s, e, I.mono (fun a b _ h2 h3 _ => by omega)⟩

end
end Co
end LDT
