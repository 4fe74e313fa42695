import Verif.Lemmas.Rank
import Verif.Spec.Rank
/-!
# C76: sorting the columns of a matrix, C77: ranks
-/
namespace LDT
namespace Rk
open Mx
open Arr (Val)

section
variable {K : Type} [LinearOrder K]

theorem numLt_before (asc : Bool) (x y : K) : numLt asc x y = decide (before asc x y) := by
  unfold numLt before; cases asc <;> rfl

theorem numLt_false (asc : Bool) (x y : K) : numLt asc y x = false ↔ ¬ before asc y x := by
  rw [numLt_before]; simp

/-- C76. Sorting a matrix of which every column can be compared: the storage keeps its shape (and the memory behind it), a
column of numbers becomes the same numbers (with multiplicity) in the chosen order; the columns are independent. -/
theorem C76_sort (m storage : Mat (Val K)) (asc : Bool) (w : m.Wf) (ws : storage.Wf) (hr : storage.rows = m.rows)
    (hc : storage.cols = m.cols) (hs : ∀ j xs, 0 ≤ j → j < m.cols → IsColumn m j xs → Sortable xs) :
    ∃ r, m.sort storage asc = .ok r ∧ SameShape storage r ∧
      ∀ j (l : List K), 0 ≤ j → j < m.cols → IsColumn m j (l.map some) →
        ∃ l' : List K, IsColumn r j (l'.map some) ∧ l'.Perm l ∧ l'.Pairwise (fun x y => ¬ before asc y x) := by
  obtain ⟨r, e, s, v⟩ := sort_spec m storage asc w ws hr hc hs
  refine ⟨r, e, s, fun j l h0 h1 hl => ?_⟩
  obtain ⟨l', e', p, q⟩ := stableSort_numbers asc l
  refine ⟨l', ?_, p, q.imp (fun h => (numLt_false _ _ _).1 h)⟩
  rw [← e']; exact v j _ h0 h1 hl

/-- C76. A storage of another shape is refused. -/
theorem C76_refused (m storage : Mat (Val K)) (asc : Bool) (h : ¬ (storage.rows = m.rows ∧ storage.cols = m.cols)) :
    m.sort storage asc = .throws := by
  unfold Mat.sort
  rw [if_pos (by tauto)]

/-- C76, the precondition is needed: a missing cell beside two different numbers makes the call undefined. -/
theorem C76_undefined_missing (m storage : Mat (Val K)) (asc : Bool) (w : m.Wf) (ws : storage.Wf) (hr : storage.rows = m.rows)
    (hc : storage.cols = m.cols) (hs : ∃ j xs, 0 ≤ j ∧ j < m.cols ∧ IsColumn m j xs ∧ ¬ Sortable xs) :
    m.sort storage asc = .ub := by
  obtain ⟨d0, e0, s0, v0⟩ := copyTo00_spec m storage w ws hr hc
  obtain ⟨j, xs, h0, h1, hx, hn⟩ := hs
  unfold Mat.sort
  rw [if_neg (by rw [hr, hc]; simp)]
  show (_ >>= _) = _
  rw [e0, Outcome.ok_bind]
  -- every state before the bad column keeps it
  have gen : ∀ (ks : List Int) (d : Mat (Val K)), SameShape storage d → IsColumn d j xs → (∀ k ∈ ks, 0 ≤ k ∧ k < m.cols) →
      (∀ k ∈ ks, k ≠ j) → (∃ d', ks.foldlM (sortColumn asc m.rows) d = .ok d' ∧ SameShape storage d' ∧ IsColumn d' j xs) ∨
        ks.foldlM (sortColumn asc m.rows) d = .ub := by
    intro ks
    induction ks with
    | nil => intro d sd hd _ _; exact Or.inl ⟨d, rfl, sd, hd⟩
    | cons k ks ih =>
      intro d sd hd hk hne
      have er : d.rows = m.rows := by rw [sd.rows, hr]
      have ec : d.cols = m.cols := by rw [sd.cols, hc]
      obtain ⟨hk0, hk1⟩ := hk k (by simp)
      obtain ⟨ys, hy⟩ := exists_isColumn (sd.wf ws) hk0 (by rw [ec]; exact hk1)
      obtain ⟨p1, p2⟩ := sortColumn_spec asc (sd.wf ws) hk0 (by rw [ec]; exact hk1) hy
      rw [er] at p1 p2
      rw [List.foldlM_cons]
      by_cases hsy : Sortable ys
      · obtain ⟨d', e', s', -, o'⟩ := p1 hsy
        rw [e', Outcome.ok_bind]
        exact ih d' (sd.trans s') (o' j xs h0 (by rw [ec]; exact h1) (Ne.symm (hne k (by simp))) hd)
          (fun k hk' => hk k (List.mem_cons_of_mem _ hk')) (fun k hk' => hne k (List.mem_cons_of_mem _ hk'))
      · rw [p2 hsy]; exact Or.inr rfl
  have hd0 : IsColumn d0 j xs := by
    refine ⟨by rw [hx.len, s0.rows, hr], fun k x hk => ?_⟩
    rw [v0 _ _ ⟨by omega, ?_, h0, h1⟩]
    · exact hx.cell k x hk
    · obtain ⟨h, -⟩ := List.getElem?_eq_some_iff.1 hk
      rw [← hx.len]; omega
  obtain ⟨pre, post, hsplit⟩ := List.append_of_mem (mem_upTo.2 ⟨h0, h1⟩ : j ∈ upTo 0 m.cols)
  have hnd : (upTo 0 m.cols).Nodup := (upTo_sorted 0 m.cols).imp (fun h => ne_of_lt h)
  rw [hsplit] at hnd ⊢
  rw [List.foldlM_append]
  have hmem : ∀ k ∈ pre, 0 ≤ k ∧ k < m.cols := fun k hk => mem_upTo.1 (by rw [hsplit]; simp [hk])
  have hne : ∀ k ∈ pre, k ≠ j := by
    intro k hk he
    subst he
    rw [List.nodup_append] at hnd
    exact hnd.2.2 k hk k (by simp) rfl
  rcases gen pre d0 s0 hd0 hmem hne with ⟨d', e', s', hd'⟩ | e'
  · rw [e', Outcome.ok_bind, List.foldlM_cons]
    have er : d'.rows = m.rows := by rw [s'.rows, hr]
    have ec : d'.cols = m.cols := by rw [s'.cols, hc]
    have := (sortColumn_spec asc (s'.wf ws) h0 (by rw [ec]; exact h1) hd').2 hn
    rw [er] at this
    rw [this]; rfl
  · rw [e']; rfl

end

section
variable {K : Type} [Field K] [LinearOrder K]

/-- C77. Ranks of a matrix that fits into the object and of which every column can be compared: a column of numbers becomes the
list of their ranks, counted from 0 — how many numbers of the column come before this one; a missing cell is not written. -/
theorem C77_ranks (maxRows maxCols : Int) (m : Mat (Val K)) (work storage : List (Val K)) (asc : Bool) (w : m.Wf)
    (hsz : m.rows * m.cols ≤ maxRows * maxCols) (hw : m.rows * m.cols ≤ work.length) (hst : m.rows * m.cols ≤ storage.length)
    (hs : ∀ j xs, 0 ≤ j → j < m.cols → IsColumn m j xs → Sortable xs) :
    ∃ r, calculate maxRows maxCols m work storage asc = .ok r ∧ SameShape ⟨m.rows, m.cols, some storage⟩ r ∧
      (∀ j (l : List K), 0 ≤ j → j < m.cols → IsColumn m j (l.map some) →
        IsColumn r j (l.map (fun x => some (rankIn asc l x : K)))) ∧
      ∀ i j, m.get i j = .ok none → r.get i j = (⟨m.rows, m.cols, some storage⟩ : Mat (Val K)).get i j := by
  have hr := w.rows_nonneg
  have hc := w.cols_nonneg
  have w0 : (⟨m.rows, m.cols, some storage⟩ : Mat (Val K)).Wf := ⟨hr, hc, rfl, hst⟩
  obtain ⟨s, es, ss, vs⟩ := sort_spec m ⟨m.rows, m.cols, some work⟩ asc w ⟨hr, hc, rfl, hw⟩ rfl rfl hs
  have ws : s.Wf := ss.wf ⟨hr, hc, rfl, hw⟩
  choose! col hcol using fun (j : Int) (h : 0 ≤ j ∧ j < m.cols) => exists_isColumn w h.1 h.2
  -- what is known about a written cell
  let good : Mat (Val K) → Int → Int → Prop := fun d i j =>
    (∀ (l : List K) (k : Nat) x, IsColumn m j (l.map some) → i = k → l[k]? = some x → d.get0 i j = .ok (some (rankIn asc l x : K))) ∧
    (m.get i j = .ok none → d.get0 i j = (⟨m.rows, m.cols, some storage⟩ : Mat (Val K)).get0 i j)
  let fresh : Mat (Val K) → Int → Int → Prop := fun d i j =>
    d.get0 i j = (⟨m.rows, m.cols, some storage⟩ : Mat (Val K)).get0 i j
  -- one cell
  have cell : ∀ i j, m.InR i j → ∀ d, SameShape ⟨m.rows, m.cols, some storage⟩ d → fresh d i j →
      ∃ d', rankCell m s j d i = .ok d' ∧ SameShape ⟨m.rows, m.cols, some storage⟩ d' ∧ good d' i j ∧
        ∀ i' j', m.InR i' j' → ¬ (i' = i ∧ j' = j) → d'.get0 i' j' = d.get0 i' j' := by
    intro i j hin d sd hf
    obtain ⟨v, hv⟩ := get0_ok w hin
    have hread : read m.mem (j * m.rows + i) = .ok v := by
      rw [mul_comm, add_comm]; exact hv
    obtain ⟨xs, hx⟩ := exists_isColumn w hin.2.2.1 hin.2.2.2
    have hsx := vs j xs hin.2.2.1 hin.2.2.2 hx
    have esr : s.rows = m.rows := ss.rows
    have reads : ∀ k ∈ upTo 0 m.rows, ∃ v, read s.mem (j * m.rows + k) = .ok v := by
      intro k hk
      rw [mem_upTo] at hk
      obtain ⟨u, hu⟩ := get0_ok ws (i := k) (j := j) ⟨hk.1, by rw [esr]; exact hk.2, hin.2.2.1, by rw [ss.cols]; exact hin.2.2.2⟩
      refine ⟨u, ?_⟩
      unfold Mat.get0 at hu
      rw [esr, add_comm, mul_comm] at hu; exact hu
    choose! g hg using reads
    have hfe := firstEqual_find s.mem (j * m.rows) v g (upTo 0 m.rows) hg
    have hmg : m.get i j = .ok v := by rw [get_eq_get0 w hin]; exact hv
    have wd := sd.wf w0
    have hdin : d.InR i j := sd.inR.2 hin
    cases hfv : (upTo 0 m.rows).find? (fun k => veq (g k) v) with
    | none =>
      rw [hfv] at hfe
      refine ⟨d, ?_, sd, ⟨?_, fun _ => hf⟩, fun _ _ _ _ => rfl⟩
      · unfold rankCell
        rw [hread, Outcome.ok_bind, hfe]; rfl
      · intro l k x hl hik hk
        exfalso
        have hvx : v = some x := by
          have := hl.cell k (some x) (by rw [List.getElem?_map, hk]; rfl)
          rw [← hik, hmg] at this
          simpa using this
        obtain ⟨l', e', p, q⟩ := stableSort_numbers asc l
        have hsl := vs j _ hin.2.2.1 hin.2.2.2 hl
        rw [e'] at hsl
        have := firstEqual_sorted asc ws l' hsl q (p.mem_iff.2 (List.mem_of_getElem? hk))
        rw [esr, ← hvx, hfe] at this
        cases this
    | some k0 =>
      rw [hfv] at hfe
      obtain ⟨d', ed, sd', cd⟩ := set0_spec wd hdin (vint k0)
      have hwr : ∃ l, write d.mem (j * m.rows + i) (vint k0) = .ok l ∧ d' = { d with data := some l } := by
        have er : d.rows = m.rows := sd.rows
        rw [show j * m.rows + i = i + d.rows * j by rw [er]; ring]
        change (write d.mem (i + d.rows * j) (vint k0) >>= _) = _ at ed
        cases hwx : write d.mem (i + d.rows * j) (vint k0 : Val K) <;> rw [hwx] at ed <;> cases ed
        exact ⟨_, rfl, rfl⟩
      obtain ⟨l0, hl0, rfl⟩ := hwr
      refine ⟨{ d with data := some l0 }, ?_, sd.trans sd', ⟨?_, ?_⟩, ?_⟩
      · unfold rankCell
        rw [hread, Outcome.ok_bind, hfe, Outcome.ok_bind]
        simp only
        rw [hl0]; rfl
      · intro l k x hl hik hk
        have hvx : v = some x := by
          have := hl.cell k (some x) (by rw [List.getElem?_map, hk]; rfl)
          rw [← hik, hmg] at this
          simpa using this
        obtain ⟨l', e', p, q⟩ := stableSort_numbers asc l
        have hsl := vs j _ hin.2.2.1 hin.2.2.2 hl
        rw [e'] at hsl
        have := firstEqual_sorted asc ws l' hsl q (p.mem_iff.2 (List.mem_of_getElem? hk))
        rw [esr, ← hvx, hfe] at this
        have hk0 : k0 = (l'.countP (fun y => numLt asc y x) : Nat) := by simpa using this
        rw [cd i j hdin, if_pos ⟨rfl, rfl⟩, hk0]
        have : l'.countP (fun y => numLt asc y x) = rankIn asc l x := by
          unfold rankIn
          rw [p.countP_eq]
          congr 1
          funext y
          exact numLt_before asc y x
        rw [this]; simp [vint]
      · intro hn
        exfalso
        rw [hmg] at hn
        obtain rfl : v = none := by simpa using hn
        have := List.find?_some hfv
        cases hgk : g k0 <;> rw [hgk] at this <;> simp [veq] at this
      · intro i' j' hin' hne
        rw [cd i' j' (sd.inR.2 hin'), if_neg hne]
  obtain ⟨r, e, sr, gr, -⟩ := loop_inv (a := 0) (b := m.cols) hc
    (fun d j => (upTo 0 m.rows).foldlM (rankCell m s j) d)
    (fun j d => SameShape ⟨m.rows, m.cols, some storage⟩ d ∧ (∀ i j', m.InR i j' → j' < j → good d i j') ∧
      ∀ i j', m.InR i j' → j ≤ j' → fresh d i j') (s := ⟨m.rows, m.cols, some storage⟩)
    ⟨SameShape.refl _, fun i j' h hj => by have := h.2.2.1; omega, fun _ _ _ _ => rfl⟩
    (by
      intro j hj0 hj1 d ⟨sd, gd, fd⟩
      obtain ⟨d', e', sd', gd', fd'⟩ := loop_inv (a := 0) (b := m.rows) hr (rankCell m s j)
        (fun i d => SameShape ⟨m.rows, m.cols, some storage⟩ d ∧
          (∀ i' j', m.InR i' j' → (j' < j ∨ (j' = j ∧ i' < i)) → good d i' j') ∧
          ∀ i' j', m.InR i' j' → (j < j' ∨ (j' = j ∧ i ≤ i')) → fresh d i' j') (s := d)
        ⟨sd, fun i' j' h hh => gd i' j' h (by have := h.1; omega), fun i' j' h hh => fd i' j' h (by omega)⟩
        (by
          intro i hi0 hi1 d ⟨sd, gd, fd⟩
          have hin : m.InR i j := ⟨hi0, hi1, hj0, hj1⟩
          obtain ⟨d', e', sd', gd', od'⟩ := cell i j hin d sd (fd i j hin (Or.inr ⟨rfl, le_refl _⟩))
          refine ⟨d', e', sd', fun i' j' h hh => ?_, fun i' j' h hh => ?_⟩
          · by_cases he : i' = i ∧ j' = j
            · rw [he.1, he.2]; exact gd'
            · have := gd i' j' h (by omega)
              refine ⟨fun l k x h1 h2 h3 => ?_, fun h1 => ?_⟩
              · rw [od' i' j' h he]; exact this.1 l k x h1 h2 h3
              · rw [od' i' j' h he]; exact this.2 h1
          · show d'.get0 i' j' = _
            rw [od' i' j' h (by omega)]; exact fd i' j' h (by omega))
      exact ⟨d', e', sd', fun i j' h hh => gd' i j' h (by have := h.2.1; omega), fun i j' h hh => fd' i j' h (by omega)⟩)
  refine ⟨r, ?_, sr, ?_, ?_⟩
  · unfold calculate
    rw [if_neg (by unfold size; omega)]
    show (_ >>= _) = _
    rw [es, Outcome.ok_bind]; exact e
  · intro j l h0 h1 hl
    have hlen := hl.len
    rw [List.length_map] at hlen
    refine ⟨by rw [List.length_map, hlen, sr.rows], fun k x hk => ?_⟩
    rw [List.getElem?_map, Option.map_eq_some_iff] at hk
    obtain ⟨y, hy, rfl⟩ := hk
    obtain ⟨hkl, -⟩ := List.getElem?_eq_some_iff.1 hy
    have hin : m.InR k j := ⟨by omega, by omega, h0, h1⟩
    rw [get_eq_get0 (sr.wf w0) (sr.inR.2 hin)]
    exact (gr k j hin h1).1 l k y hl rfl hy
  · intro i j hn
    have hin : m.InR i j := by
      unfold Mat.get at hn
      split_ifs at hn with h1 h2
      exact ⟨by omega, by omega, by omega, by omega⟩
    rw [get_eq_get0 (sr.wf w0) (sr.inR.2 hin), get_eq_get0 w0 hin]
    exact (gr i j hin hin.2.2.2).2 hn

/-- C77. A matrix with more cells than the object was made for is refused. -/
theorem C77_refused (maxRows maxCols : Int) (m : Mat (Val K)) (work storage : List (Val K)) (asc : Bool)
    (hsz : maxRows * maxCols < m.rows * m.cols) : calculate maxRows maxCols m work storage asc = .throws := by
  unfold calculate
  rw [if_pos (show size m.rows m.cols > size maxRows maxCols from hsz)]

end

/-! ## What ranks are -/

section
variable {K : Type} [LinearOrder K]

theorem before_trans {asc : Bool} {x y z : K} (h1 : before asc x y) (h2 : before asc y z) : before asc x z := by
  unfold before at *; cases asc <;> simp at * <;> exact lt_trans (by assumption) (by assumption)

theorem before_irrefl {asc : Bool} (x : K) : ¬ before asc x x := by
  unfold before; cases asc <;> simp

theorem before_total {asc : Bool} {x y : K} (h : x ≠ y) : before asc x y ∨ before asc y x := by
  unfold before; cases asc <;> rcases lt_or_gt_of_ne h with h | h <;> simp [h]

/-- C77. Ranks are in the order of the values: a smaller rank exactly for what comes before; equal ranks exactly for equal values. -/
theorem C77_order (asc : Bool) (l : List K) (x y : K) (hx : x ∈ l) (hy : y ∈ l) :
    (rankIn asc l x < rankIn asc l y ↔ before asc x y) ∧ (rankIn asc l x = rankIn asc l y ↔ x = y) ∧ rankIn asc l x < l.length := by
  have lt : ∀ x y, x ∈ l → before asc x y → rankIn asc l x < rankIn asc l y := by
    intro x y hx h
    unfold rankIn
    obtain ⟨a, b, rfl⟩ := List.append_of_mem hx
    rw [List.countP_append, List.countP_append, List.countP_cons_of_neg (by simpa using before_irrefl x),
      List.countP_cons_of_pos (by simpa using h)]
    have h1 : a.countP (fun z => decide (before asc z x)) ≤ a.countP (fun z => decide (before asc z y)) :=
      List.countP_mono_left (fun z _ hz => by simpa using before_trans (by simpa using hz) h)
    have h2 : b.countP (fun z => decide (before asc z x)) ≤ b.countP (fun z => decide (before asc z y)) :=
      List.countP_mono_left (fun z _ hz => by simpa using before_trans (by simpa using hz) h)
    omega
  refine ⟨⟨fun h => ?_, lt x y hx⟩, ⟨fun h => ?_, fun h => by rw [h]⟩, ?_⟩
  · by_contra hc
    by_cases he : x = y
    · rw [he] at h; omega
    · have := lt y x hy ((before_total he).resolve_left hc); omega
  · by_contra he
    rcases before_total (asc := asc) he with hb | hb
    · have := lt x y hx hb; omega
    · have := lt y x hy hb; omega
  · unfold rankIn
    rw [List.countP_eq_length_filter]
    refine lt_of_le_of_ne (List.length_filter_le _ _) (fun h => ?_)
    rw [List.length_filter_eq_length_iff] at h
    exact before_irrefl x (by simpa using h x hx)

/-- C77. Different numbers get the ranks 0, …, n - 1, each once. -/
theorem C77_permutation (asc : Bool) (l : List K) (h : l.Nodup) : (l.map (rankIn asc l)).Perm (List.range l.length) := by
  have hnd : (l.map (rankIn asc l)).Nodup := by
    rw [List.nodup_map_iff_inj_on h]
    intro x hx y hy he
    exact ((C77_order asc l x y hx hy).2.1).1 he
  have hsub : l.map (rankIn asc l) ⊆ List.range l.length := by
    intro k hk
    rw [List.mem_map] at hk
    obtain ⟨x, hx, rfl⟩ := hk
    rw [List.mem_range]
    exact (C77_order asc l x x hx hx).2.2
  exact (List.subperm_of_subset hnd hsub).perm_of_length_le (by simp)

/-- C77. Ranks only depend on the order: an increasing transformation of the data changes none. -/
theorem C77_monotone (asc : Bool) (l : List K) {L : Type} [LinearOrder L] (f : K → L) (hf : StrictMono f) (x : K) :
    rankIn asc (l.map f) (f x) = rankIn asc l x := by
  unfold rankIn
  rw [List.countP_map]
  congr 1
  funext y
  unfold before
  cases asc <;> simp [hf.lt_iff_lt]

/-- C77. A decreasing transformation is the same as the other order. -/
theorem C77_antitone (asc : Bool) (l : List K) {L : Type} [LinearOrder L] (f : K → L) (hf : StrictAnti f) (x : K) :
    rankIn asc (l.map f) (f x) = rankIn (!asc) l x := by
  unfold rankIn
  rw [List.countP_map]
  congr 1
  funext y
  unfold before
  cases asc <;> simp [hf.lt_iff_gt]

end

/-! ## Examples -/

example : (⟨3, 2, some [some 3, some 1, some 2, some 5, some 7, some 5]⟩ : Mat (Val ℚ)).sort ⟨3, 2, some (List.replicate 7 none)⟩ false
    = .ok ⟨3, 2, some [some 3, some 2, some 1, some 7, some 5, some 5, none]⟩ := by decide +kernel

example : calculate 3 2 (⟨3, 2, some [some 3, some 1, some 2, some 5, some 7, some 5]⟩ : Mat (Val ℚ)) (List.replicate 6 none)
    (List.replicate 6 none) true = .ok ⟨3, 2, some [some 2, some 0, some 1, some 0, some 2, some 0]⟩ := by decide +kernel

example : calculate 3 2 (⟨3, 2, some [some 3, some 1, some 2, some 5, some 7, some 5]⟩ : Mat (Val ℚ)) (List.replicate 6 none)
    (List.replicate 6 none) false = .ok ⟨3, 2, some [some 0, some 2, some 1, some 1, some 0, some 1]⟩ := by decide +kernel

example : (⟨3, 1, some [some 3, none, some 2]⟩ : Mat (Val ℚ)).sort ⟨3, 1, some (List.replicate 3 none)⟩ true = .ub := by decide +kernel

end Rk
end LDT
