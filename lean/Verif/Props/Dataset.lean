import Verif.Props.Matrix
import Mathlib.Data.List.Perm.Subperm
namespace LDT
namespace Mx

variable {α : Type}

/-! ## C36: rows with missing values -/

/-- Row `i` has no missing value in the columns `cols`, seen through `Get`. -/
def Complete (bad : α → Bool) (m : Mat α) (cols : List Int) (i : Int) : Prop :=
  ∀ c ∈ cols, ∃ v, m.get i c = .ok v ∧ bad v = false

/-- `kept` lists the positions of the complete rows, in increasing order. -/
structure CompleteRows (bad : α → Bool) (m : Mat α) (cols : List Int) (kept : List Int) : Prop where
  sorted : kept.Pairwise (· < ·)
  mem : ∀ i, i ∈ kept ↔ (0 ≤ i ∧ i < m.rows ∧ Complete bad m cols i)

theorem rowBroken_ok (bad : α → Bool) (m : Mat α) (w : m.Wf) (i : Int) (hi0 : 0 ≤ i) (hi : i < m.rows) :
    ∀ ks : List Int, (∀ k ∈ ks, 0 ≤ k ∧ k < m.cols) →
      ∃ b, m.rowBroken bad i ks = .ok b ∧ (b = false ↔ Complete bad m ks i) := by
  intro ks
  induction ks with
  | nil => intro _; exact ⟨false, rfl, by simp [Complete]⟩
  | cons k ks ih =>
    intro h
    have hk : m.InR i k := ⟨hi0, hi, (h k (by simp)).1, (h k (by simp)).2⟩
    obtain ⟨v, hv⟩ := get0_ok w hk
    obtain ⟨b, e, hb⟩ := ih (fun x hx => h x (List.mem_cons_of_mem _ hx))
    have hread : read m.mem (i + k * m.rows) = .ok v := by
      rw [mul_comm]; exact hv
    unfold Mat.rowBroken
    rw [hread, Outcome.ok_bind]
    by_cases hbad : bad v = true
    · refine ⟨true, by rw [if_pos hbad]; rfl, ?_⟩
      constructor
      · intro h; simp at h
      · intro h
        obtain ⟨v', hv', hb'⟩ := h k (by simp)
        rw [get_eq_get0 w hk, hv] at hv'
        have : v = v' := by simpa using hv'
        subst this; rw [hbad] at hb'; simp at hb'
    · refine ⟨b, by rw [if_neg hbad, e], ?_⟩
      rw [hb]
      constructor
      · intro hc c hcm
        rcases List.mem_cons.1 hcm with rfl | hcm
        · exact ⟨v, by rw [get_eq_get0 w hk, hv], by simpa using hbad⟩
        · exact hc c hcm
      · intro hc c hcm; exact hc c (List.mem_cons_of_mem _ hcm)

theorem foldlM_filter {ι : Type} (f : ι → Outcome Bool) (l : List ι) :
    ∀ acc, (∀ i ∈ l, ∃ b, f i = .ok b) →
    l.foldlM (fun acc i => do let b ← f i; if b then pure acc else pure (acc ++ [i])) acc
      = .ok (acc ++ l.filter (fun i => match f i with | .ok b => !b | _ => false)) := by
  induction l with
  | nil => intro acc _; simp
  | cons i l ih =>
    intro acc h
    obtain ⟨b, hb⟩ := h i (by simp)
    rw [List.foldlM_cons]
    simp only [hb, Outcome.ok_bind]
    have hl := fun j hj => h j (List.mem_cons_of_mem _ hj)
    cases b with
    | true =>
      rw [show (if true = true then (pure acc : Outcome (List ι)) else pure (acc ++ [i])) = .ok acc from rfl,
        Outcome.ok_bind, ih acc hl, List.filter_cons_of_neg (by simp [hb])]
    | false =>
      rw [show (if false = true then (pure acc : Outcome (List ι)) else pure (acc ++ [i])) = .ok (acc ++ [i]) from rfl,
        Outcome.ok_bind, ih _ hl, List.filter_cons_of_pos (by simp [hb])]
      simp

theorem upTo_sorted (a b : Int) : (upTo a b).Pairwise (· < ·) := by
  unfold upTo
  rw [List.pairwise_map]
  exact List.Pairwise.imp (fun h => by omega) List.pairwise_lt_range

/-- The row scan returns exactly the complete rows, in order (its name says the opposite). -/
theorem C36_rows (bad : α → Bool) (m : Mat α) (w : m.Wf) (cols : Option (List Int))
    (h : ∀ c, cols = some c → ∀ k ∈ c, 0 ≤ k ∧ k < m.cols) :
    ∃ kept, m.getAnyNanRow bad cols = .ok kept ∧
      CompleteRows bad m (cols.getD (upTo 0 m.cols)) kept := by
  have hks : ∀ k ∈ cols.getD (upTo 0 m.cols), 0 ≤ k ∧ k < m.cols := by
    cases cols with
    | none => intro k hk; exact mem_upTo.1 hk
    | some c => exact h c rfl
  have hred : m.getAnyNanRow bad cols = (upTo 0 m.rows).foldlM (fun acc i => do
      let b ← m.rowBroken bad i (cols.getD (upTo 0 m.cols))
      if b then pure acc else pure (acc ++ [i])) [] := by
    cases cols <;> rfl
  have hb : ∀ i ∈ upTo 0 m.rows, ∃ b, m.rowBroken bad i (cols.getD (upTo 0 m.cols)) = .ok b := by
    intro i hi
    obtain ⟨b, e, _⟩ := rowBroken_ok bad m w i (mem_upTo.1 hi).1 (mem_upTo.1 hi).2 _ hks
    exact ⟨b, e⟩
  rw [hred, foldlM_filter _ _ _ hb]
  refine ⟨_, rfl, ?_, ?_⟩
  · rw [List.nil_append]; exact (upTo_sorted 0 m.rows).filter _
  · intro i
    rw [List.nil_append, List.mem_filter, mem_upTo]
    constructor
    · rintro ⟨⟨h0, h1⟩, h2⟩
      obtain ⟨b, e, hbb⟩ := rowBroken_ok bad m w i h0 h1 _ hks
      rw [e] at h2
      exact ⟨h0, h1, hbb.1 (by simpa using h2)⟩
    · rintro ⟨h0, h1, h2⟩
      obtain ⟨b, e, hbb⟩ := rowBroken_ok bad m w i h0 h1 _ hks
      refine ⟨⟨h0, h1⟩, ?_⟩
      rw [e, hbb.2 h2]; rfl

theorem kept_length (bad : α → Bool) (m : Mat α) (w : m.Wf) (cols kept : List Int)
    (h : CompleteRows bad m cols kept) : (kept.length : Int) ≤ m.rows := by
  have hn : kept.Nodup := h.sorted.imp (fun h => ne_of_lt h)
  have hs : kept ⊆ upTo 0 m.rows := fun i hi => mem_upTo.2 ⟨((h.mem i).1 hi).1, ((h.mem i).1 hi).2.1⟩
  have := (List.subperm_of_subset hn hs).length_le
  rw [length_upTo] at this
  have := w.rows_nonneg
  omega

theorem Mat.Wf.of_storage {r c : Int} (storage : List α) (hr : 0 ≤ r) (hc : 0 ≤ c) (h : r * c ≤ storage.length) :
    (⟨r, c, some storage⟩ : Mat α).Wf := ⟨hr, hc, rfl, h⟩

theorem foldlM_copy (src : List α) : ∀ (n : Nat) (d : Mat α), d.data.isSome → n ≤ src.length → n ≤ d.mem.length →
    ∃ d', (upTo 0 n).foldlM (fun (d : Mat α) k => do
      let v ← read src k
      let l ← write d.mem k v
      pure { d with data := some l }) d = .ok d' ∧ d'.rows = d.rows ∧ d'.cols = d.cols ∧ d'.data.isSome ∧
      d'.mem.length = d.mem.length ∧ (∀ k : Nat, k < n → d'.mem[k]? = src[k]?) ∧
      (∀ k : Nat, n ≤ k → d'.mem[k]? = d.mem[k]?) := by
  intro n
  induction n with
  | zero => intro d hd _ _; exact ⟨d, rfl, rfl, rfl, hd, rfl, by simp, fun _ _ => rfl⟩
  | succ n ih =>
    intro d hd h1 h2
    obtain ⟨d1, e, er, ec, es, el, eb, eo⟩ := ih d hd (by omega) (by omega)
    have hup : upTo 0 ((n + 1 : Nat) : Int) = upTo 0 (n : Int) ++ [(n : Int)] := by
      apply List.ext_getElem?
      intro k
      rw [getElem?_upTo, List.getElem?_append, length_upTo, getElem?_upTo]
      rcases lt_trichotomy k n with h | h | h
      · rw [if_pos (by push_cast; omega), if_pos (by omega), if_pos (by omega)]
      · subst h; rw [if_pos (by push_cast; omega), if_neg (by omega)]; simp
      · rw [if_neg (by push_cast; omega), if_neg (by omega), List.getElem?_eq_none (by simp; omega)]
    have hv : src[n]? = some src[n] := List.getElem?_eq_getElem (by omega)
    have hr : read src (n : Int) = .ok src[n] := by
      rw [read_eq_ok]; exact ⟨by omega, by simpa using hv⟩
    have hw : write d1.mem (n : Int) src[n] = .ok (d1.mem.set n src[n]) := by
      rw [write_ok_of _ (by omega) (by omega)]; simp
    refine ⟨{ d1 with data := some (d1.mem.set n src[n]) }, ?_, er, ec, rfl, ?_, ?_, ?_⟩
    · rw [hup, List.foldlM_append, e, Outcome.ok_bind, List.foldlM_cons, hr, Outcome.ok_bind, hw]; rfl
    · simpa [Mat.mem] using el
    · intro k hk
      show (d1.mem.set n src[n])[k]? = _
      by_cases hkn : k = n
      · subst hkn; rw [List.getElem?_set_self (by omega), hv]
      · rw [List.getElem?_set_ne (by omega)]; exact eb k (by omega)
    · intro k hk
      show (d1.mem.set n src[n])[k]? = _
      rw [List.getElem?_set_ne (by omega)]; exact eo k (by omega)

theorem copyTo00_spec (src dst : Mat α) (ws : src.Wf) (wd : dst.Wf) (hr : dst.rows = src.rows)
    (hc : dst.cols = src.cols) :
    ∃ res, src.copyTo00 dst = .ok res ∧ SameShape dst res ∧ ∀ i j, src.InR i j → res.get i j = src.get i j := by
  have hl0 : 0 ≤ src.length := mul_nonneg ws.rows_nonneg ws.cols_nonneg
  have hlen : src.length = src.rows * src.cols := rfl
  have h1 := ws.size
  have h2 := wd.size
  rw [hr, hc] at h2
  obtain ⟨d', e, er, ec, es, el, eb, eo⟩ := foldlM_copy src.mem src.length.toNat dst wd.alloc (by omega) (by omega)
  rw [show ((src.length.toNat : Nat) : Int) = src.length by omega] at e
  have hshape : SameShape dst d' := by
    refine ⟨er, ec, by rw [es, wd.alloc], el, ?_⟩
    intro k hk
    rw [hr, hc] at hk
    exact eo k (by omega)
  refine ⟨d', e, hshape, ?_⟩
  intro i j hij
  have hij' : d'.InR i j := by
    obtain ⟨a, b, c, d⟩ := hij
    exact ⟨a, by rw [er, hr]; exact b, c, by rw [ec, hc]; exact d⟩
  rw [get_eq_get0 (hshape.wf wd) hij', get_eq_get0 ws hij]
  unfold Mat.get0
  rw [er, hr]
  apply read_congr
  intro _
  have := idx_bounds hij.1 hij.2.1 hij.2.2.1 hij.2.2.2
  exact eb _ (by omega)

/-- The data set used for an estimation with missing values: exactly the complete rows, in the original
order, in the selected columns (in the order of the selection), for every matrix and every selection. -/
theorem C36_dataset_missing (bad : α → Bool) (R C : Int) (select : Bool) (ds : Dataset)
    (hds : Dataset.make R C true select = .ok ds) (data : Mat α) (w : data.Wf) (hR : data.rows ≤ R)
    (sel : List Int) (hsel : ∀ k ∈ sel, 0 ≤ k ∧ k < data.cols)
    (hselLen : if select then (sel.length : Int) ≤ C else sel = upTo 0 data.cols ∧ data.cols ≤ C)
    (storage : List α) (hst : (storage.length : Int) = ds.storageSize) :
    ∃ kept res, CompleteRows bad data sel kept ∧
      ds.calculate bad data (if select then some sel else none) storage = .ok res ∧
      res.rows = kept.length ∧ res.cols = sel.length ∧
      ∀ (a b : Nat) (r c : Int), kept[a]? = some r → sel[b]? = some c → res.get a b = data.get r c := by
  unfold Dataset.make at hds
  split_ifs at hds with hneg
  have hds' := Outcome.ok.inj hds
  subst hds'
  simp only at hst
  have hc0 := w.cols_nonneg
  have hr0 := w.rows_nonneg
  obtain ⟨kept, ek, hk⟩ := C36_rows bad data w (if select then some sel else none)
    (by intro c hc; cases select <;> simp at hc; subst hc; exact hsel)
  have hkeq : (if select then some sel else none : Option (List Int)).getD (upTo 0 data.cols) = sel := by
    cases select with
    | true => rfl
    | false => simp only [Bool.false_eq_true, if_false] at hselLen ⊢; rw [hselLen.1]; rfl
  rw [hkeq] at hk
  have hkl := kept_length bad data w sel kept hk
  have hsl : (sel.length : Int) ≤ C := by
    cases select with
    | true => simpa using hselLen
    | false =>
      simp only [Bool.false_eq_true, if_false] at hselLen
      rw [hselLen.1, length_upTo]; omega
  have hsz : (kept.length : Int) * sel.length ≤ storage.length := by
    rw [hst]
    exact mul_le_mul (by omega) hsl (by omega) (by omega)
  have wst : (⟨kept.length, sel.length, some storage⟩ : Mat α).Wf := .of_storage storage (by omega) (by omega) hsz
  have hin : ∀ r ∈ kept, ∀ c ∈ sel, data.InR r c := by
    intro r hr c hc
    have := (hk.mem r).1 hr; have := hsel c hc
    exact ⟨by omega, by omega, by omega, by omega⟩
  refine ⟨kept, ?_⟩
  cases select with
  | true =>
    simp only [if_true] at *
    obtain ⟨res, e, cp⟩ := (C35_get_sub_indexes data ⟨kept.length, sel.length, some storage⟩ w wst kept sel 0 0
      (le_refl _) (le_refl _) hin).1 (by simp) (by simp)
    refine ⟨res, hk, ?_, cp.shape.rows, cp.shape.cols, ?_⟩
    · unfold Dataset.calculate
      simp only [if_true, ek, Outcome.ok_bind, e]
    · intro a b r c h1 h2
      have := cp.block a b r c h1 h2
      simpa using this
  | false =>
    simp only [Bool.false_eq_true, if_false] at *
    obtain ⟨hs, hC⟩ := hselLen
    have hlen : (sel.length : Int) = data.cols := by rw [hs, length_upTo]; omega
    obtain ⟨res, e, cp⟩ := C35_get_sub_range data ⟨kept.length, sel.length, some storage⟩ w wst 0 data.cols kept
      false false 0 0 (le_refl _) (le_refl _) (le_refl _) hc0 (by simp)
      (by intro k hkk; have := (hk.mem k).1 hkk; simp only [Bool.false_eq_true, if_false]; omega) (by simp) kept (by simp)
      (by simp) (by simp [hlen])
    refine ⟨res, hk, ?_, cp.shape.rows, cp.shape.cols, ?_⟩
    · unfold Dataset.calculate
      simp only [Bool.false_eq_true, if_false, if_true, ek, Outcome.ok_bind]
      rw [hlen] at e; exact e
    · intro a b r c h1 h2
      have := cp.block a b r c (by simpa using h1) (by simp only [Bool.false_eq_true, if_false, zero_add]; rw [← hs]; exact h2)
      simpa using this

/-- Without missing-value handling the data set is the selected columns of all rows. -/
theorem C36_dataset_all (bad : α → Bool) (R C : Int) (select : Bool) (ds : Dataset)
    (hds : Dataset.make R C false select = .ok ds) (data : Mat α) (w : data.Wf) (hR : data.rows ≤ R)
    (sel : List Int) (hsel : ∀ k ∈ sel, 0 ≤ k ∧ k < data.cols)
    (hselLen : if select then (sel.length : Int) ≤ C else sel = upTo 0 data.cols ∧ data.cols ≤ C)
    (storage : List α) (hst : (storage.length : Int) = ds.storageSize) :
    ∃ res, ds.calculate bad data (if select then some sel else none) storage = .ok res ∧
      res.rows = data.rows ∧ res.cols = sel.length ∧
      ∀ (i : Int) (b : Nat) (c : Int), 0 ≤ i → i < data.rows → sel[b]? = some c → res.get i b = data.get i c := by
  unfold Dataset.make at hds
  split_ifs at hds with hneg
  have hds' := Outcome.ok.inj hds
  subst hds'
  simp only at hst
  have hc0 := w.cols_nonneg
  have hr0 := w.rows_nonneg
  have hsl : (sel.length : Int) ≤ C := by
    cases select with
    | true => simpa using hselLen
    | false =>
      simp only [Bool.false_eq_true, if_false] at hselLen
      rw [hselLen.1, length_upTo]; omega
  have hsz : data.rows * sel.length ≤ storage.length := by
    rw [hst]
    exact mul_le_mul (by omega) hsl (by omega) (by omega)
  have wst : (⟨data.rows, sel.length, some storage⟩ : Mat α).Wf := .of_storage storage (by omega) (by omega) hsz
  cases select with
  | true =>
    simp only [if_true] at *
    obtain ⟨res, e, cp⟩ := C35_get_sub_range data ⟨data.rows, sel.length, some storage⟩ w wst 0 data.rows sel
      true false 0 0 (le_refl _) (le_refl _) (le_refl _) hr0 (by simp)
      (by simpa using hsel) (by simp) sel (by simp) (by simp) (by simp)
    refine ⟨res, ?_, cp.shape.rows, cp.shape.cols, ?_⟩
    · unfold Dataset.calculate
      simp only [if_true, Bool.false_eq_true, if_false, e]
    · intro i b c h1 h2 h3
      have := cp.block i.toNat b i c (by simp only [if_true]; rw [getElem?_upTo, if_pos (by omega)]; congr 1; omega)
        (by simpa using h3)
      rw [show ((i.toNat : Nat) : Int) = i by omega] at this
      simpa using this
  | false =>
    simp only [Bool.false_eq_true, if_false] at *
    obtain ⟨hs, hC⟩ := hselLen
    have hlen : (sel.length : Int) = data.cols := by rw [hs, length_upTo]; omega
    rw [hlen] at wst
    obtain ⟨res, e, sh, g⟩ := copyTo00_spec data ⟨data.rows, data.cols, some storage⟩ w wst rfl rfl
    refine ⟨res, ?_, sh.rows, by rw [sh.cols, hlen], ?_⟩
    · unfold Dataset.calculate
      simp only [Bool.false_eq_true, if_false, e]
    · intro i b c h1 h2 h3
      have hb : (b : Int) = c := by
        rw [hs, getElem?_upTo] at h3
        split_ifs at h3
        have := Option.some.inj h3; omega
      subst hb
      apply g
      have := lt_length_of_some h3
      exact ⟨h1, h2, by omega, by omega⟩

/-- A selection is required when the data set was built for one. -/
theorem C36_selection_required (bad : α → Bool) (ds : Dataset) (h : ds.select = true) (data : Mat α) (storage : List α) :
    ds.calculate bad data none storage = .throws := by
  simp [Dataset.calculate, h]

/-- A concrete case: 3 × 2 with a missing value in row 1, both columns. -/
example : ∃ res, (⟨true, false, 6⟩ : Dataset).calculate Option.isNone
    (⟨3, 2, some [some 1, none, some 3, some 4, some 5, some 6]⟩ : Mat (Option Nat)) none (List.replicate 6 none)
    = .ok res ∧ res.rows = 2 ∧ res.get 1 0 = .ok (some 3) := ⟨_, rfl, by decide +kernel, by decide +kernel⟩

end Mx
end LDT
