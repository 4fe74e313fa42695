import Verif.Lemmas.Histogram
import Verif.Lemmas.Rank
import Verif.Props.Quantile
import Mathlib.Tactic.Linarith
import Mathlib.Tactic.FieldSimp
/-!
# C86: histograms; C87: the removal of missing cells
-/
namespace LDT
namespace Hi
open Mx Stat
open Arr (Val)
open De (put put_spec)

section
variable {K : Type} [Field K] [LinearOrder K]

/-! ## The counts of `fill` -/

/-- Every datum is counted once, whatever data and breaks. -/
theorem fill_total {data axis : Mat (Val K)} {xs as : List (Val K)} (hd : IsCells data xs) (ha : IsCells axis as)
    {c0 : Mat Int} (w : c0.Wf) (hl : ((as.length : Int) + 1) ≤ c0.length) :
    ∃ c f, fill data axis c0 = .ok c ∧ Counts c0 c as.length f ∧ ∑ p ∈ Finset.range (as.length + 1), f p = xs.length ∧
      ∀ p, 0 ≤ f p := by
  obtain ⟨c1, e1, h1⟩ := zeros_spec c0 w as.length hl
  unfold fill
  rw [← ha.len, e1, ← hd.len]
  simp only [Outcome.ok_bind]
  obtain ⟨s', e, j, f, h2, h3, h4, h5, h6⟩ := loop_inv (a := 0) (b := (xs.length : Int)) (by omega) (fillStep data axis)
    (fun i s => ∃ (j : Nat) (f : Nat → Int), s.2 = j ∧ j ≤ as.length ∧ Counts c0 s.1 as.length f ∧
      ∑ p ∈ Finset.range (as.length + 1), f p = i ∧ ∀ p, 0 ≤ f p) (s := (c1, 0))
    ⟨0, fun _ => 0, rfl, by omega, h1, by simp, fun _ => le_refl _⟩ (by
      rintro i hi hb ⟨c, jj⟩ ⟨j, f, rfl, hj, hc, hsum, hnn⟩
      obtain ⟨i, rfl⟩ : ∃ n : Nat, i = n := ⟨i.toNat, by omega⟩
      have hix : i < xs.length := by omega
      obtain ⟨c', j', t, e, ht, -, -, hj', hc', -, -⟩ := fillStep_spec hd ha w hl hc i xs[i] (List.getElem?_eq_getElem hix) j hj
      refine ⟨(c', (j' : Int)), e, j', _, rfl, hj', hc', ?_, fun p => ?_⟩
      · rw [Finset.sum_add_distrib, hsum, Finset.sum_ite_eq' (Finset.range (as.length + 1)) t (fun _ => (1 : Int)),
          if_pos (Finset.mem_range.2 (by omega))]
      · have := hnn p; split_ifs <;> omega)
  rw [e]
  exact ⟨s'.1, f, rfl, h4, h5, h6⟩

theorem cellLoop_count {n : Nat} {c0 c : Mat Int} (w : c0.Wf) (hl : c0.length = (n : Int) + 1) {f : Nat → Int}
    (h : Counts c0 c n f) (p : Nat) (hp : p ≤ n) : c.getLin p = .ok (f p) := by
  have wc := h.same.wf w
  have hlc : c.length = c0.length := by unfold Mat.length; rw [h.same.rows, h.same.cols]
  rw [De.getLin_eq wc (by omega) (by omega)]
  exact h.cell p hp

theorem sortData_spec {data : Mat (Val K)} {xs : List K} (hd : IsCells data (xs.map some)) (w : data.Wf) :
    ∃ (data' : Mat (Val K)) (ys : List K), sortData data = .ok data' ∧ SameShape data data' ∧ IsCells data' (ys.map some) ∧ ys.Perm xs ∧
      ys.Pairwise (· ≤ ·) := by
  have hsz := w.size
  have hlen := hd.len
  rw [List.length_map] at hlen
  have hml : data.length ≤ data.mem.length := hsz
  have hsl : slice data.mem 0 data.length.toNat = xs.map some := by
    apply List.ext_getElem?
    intro k
    rw [getElem?_slice]
    split_ifs with hk
    · have hkl : k < (xs.map some).length := by rw [List.length_map]; omega
      have := isCells_read hd k _ (List.getElem?_eq_getElem hkl)
      rw [read_eq_ok] at this
      rw [List.getElem?_eq_getElem hkl, ← this.2]
      congr 1
    · rw [List.getElem?_eq_none (by rw [List.length_map]; omega)]
  obtain ⟨l', e, ll, ls, lo⟩ := sortRange_spec true data.mem 0 data.length (by omega) (by omega) (by omega)
    (by rw [Int.toNat_zero, hsl]; simp [Arr.swo])
  obtain ⟨ys, ey, p, q⟩ := stableSort_numbers true xs
  rw [Int.toNat_zero, hsl, ey] at ls
  refine ⟨{ data with data := some l' }, ys, ?_, ⟨rfl, rfl, ?_, ?_, ?_⟩, ⟨?_, ?_⟩, p, ?_⟩
  · unfold sortData; rw [e]; rfl
  · rw [w.data_eq]; rfl
  · simp only [Mat.mem, Option.getD_some]; exact ll
  · intro i hi
    simp only [Mat.mem, Option.getD_some]
    exact lo i (Or.inr (by unfold Mat.length; omega))
  · rw [List.length_map, p.length_eq, hlen]; rfl
  · intro k x hk
    have hkl : k < ys.length := by
      have := (List.getElem?_eq_some_iff.1 hk).1
      simpa using this
    have hkd : k < data.length.toNat := by rw [p.length_eq] at hkl; omega
    have wf' : ({ data with data := some l' } : Mat (Val K)).Wf :=
      ⟨w.rows_nonneg, w.cols_nonneg, rfl, by simp only [Mat.mem, Option.getD_some]; rw [ll]; exact hsz⟩
    rw [De.getLin_eq wf' (by omega) (by show (k : Int) < data.length; omega)]
    rw [read_eq_ok]
    refine ⟨by omega, ?_⟩
    rw [← ls, getElem?_slice, if_pos hkd] at hk
    simp only [Mat.mem, Option.getD_some]
    rw [← hk]; congr 1; omega
  · refine q.imp fun {a b} h => ?_
    simpa [numLt] using h

/-- **C86**, every datum is counted exactly once: the counts of `ComputeV` sum to the number of data, which is returned,
for all data and breaks. The data is sorted in place. -/
theorem C86_total (data axis : Mat (Val K)) (xs : List K) (as : List (Val K)) (hd : IsCells data (xs.map some)) (wd : data.Wf)
    (ha : IsCells axis as) (counts : Mat Int) (w : counts.Wf) (hl : counts.length = (as.length : Int) + 1) (hne : xs ≠ []) :
    ∃ (data' : Mat (Val K)) (ys : List K) (c : Mat Int) (f : Nat → Int), computeV data axis counts false = .ok ((xs.length : Int), data', c) ∧
      SameShape data data' ∧ IsCells data' (ys.map some) ∧ ys.Perm xs ∧ ys.Pairwise (· ≤ ·) ∧ SameShape counts c ∧
      (∀ p : Nat, p ≤ as.length → c.getLin p = .ok (f p)) ∧ (∀ p, 0 ≤ f p) ∧
      ∑ p ∈ Finset.range (as.length + 1), f p = (xs.length : Int) := by
  obtain ⟨data', ys, e1, s1, i1, p1, o1⟩ := sortData_spec hd wd
  obtain ⟨c, f, e2, h2, h3, h4⟩ := fill_total i1 ha w (le_of_eq hl.symm)
  refine ⟨data', ys, c, f, ?_, s1, i1, p1, o1, h2.same, fun p hp => cellLoop_count w hl h2 p hp, h4, ?_⟩
  · unfold computeV clean
    have hlen := hd.len
    rw [List.length_map] at hlen
    have : data.length ≠ 0 := by
      have := List.length_pos_iff.2 hne
      omega
    have hl' : data'.length = (xs.length : Int) := by
      unfold Mat.length; rw [s1.rows, s1.cols]; exact hlen.symm
    simp only [Bool.false_eq_true, if_false, Outcome.ok_bind, if_neg this, e1, e2, hl', Outcome.pure_eq]
  · rw [h3, List.length_map, p1.length_eq]

/-- The bins of sorted data with a greatest datum that is not a break. -/
theorem fill_bins {data axis : Mat (Val K)} {xs as : List K} (hd : IsCells data (xs.map some)) (ha : IsCells axis (as.map some))
    (hx : xs.Pairwise (· ≤ ·)) (hs : as.Pairwise (· ≤ ·)) (hb : ∀ g, xs.getLast? = some g → g ∉ as)
    {c0 : Mat Int} (w : c0.Wf) (hl : ((as.length : Int) + 1) ≤ c0.length) :
    ∃ c, fill data axis c0 = .ok c ∧ Counts c0 c as.length (fun p => (xs.countP (fun d => decide (binOf as d = p)) : Nat)) := by
  obtain ⟨c1, e1, h1⟩ := zeros_spec c0 w as.length hl
  have hal : (as.map (some : K → Val K)).length = as.length := List.length_map _
  have hxl : (xs.map (some : K → Val K)).length = xs.length := List.length_map _
  unfold fill
  rw [← ha.len, hal, e1, ← hd.len, hxl]
  simp only [Outcome.ok_bind]
  obtain ⟨s', e, j, h2, h3, h4, h5⟩ := loop_inv (a := 0) (b := (xs.length : Int)) (by omega) (fillStep data axis)
    (fun i s => ∃ j : Nat, s.2 = j ∧ j ≤ as.length ∧ (∀ d ∈ xs.drop i.toNat, j ≤ binOf as d) ∧
      Counts c0 s.1 as.length (fun p => ((xs.take i.toNat).countP (fun d => decide (binOf as d = p)) : Nat))) (s := (c1, 0))
    ⟨0, rfl, by omega, fun _ _ => Nat.zero_le _, by simpa using h1⟩ (by
      rintro i hi hbd ⟨c, jj⟩ ⟨j, rfl, hj, hrem, hc⟩
      obtain ⟨i, rfl⟩ : ∃ n : Nat, i = n := ⟨i.toNat, by omega⟩
      simp only [Int.toNat_natCast] at hrem hc
      have hix : i < xs.length := by omega
      have hge : (xs.map (some : K → Val K))[i]? = some (some xs[i]) := by
        rw [List.getElem?_map, List.getElem?_eq_getElem hix]; rfl
      obtain ⟨c', j', t, e, ht, hjj, hjt, hj', hc', hup, hlo⟩ := fillStep_spec hd ha w (by rw [hal]; exact hl)
        (by rw [hal]; exact hc) i (some xs[i]) hge j (by rw [hal]; exact hj)
      rw [hal] at ht hj' hc'
      have hdr : xs.drop i = xs[i] :: xs.drop (i + 1) := List.drop_eq_getElem_cons hix
      have hji : j ≤ binOf as xs[i] := hrem _ (by rw [hdr]; exact List.mem_cons_self)
      -- for a datum that is not a break, both tests are `<`
      have test : ∀ (q : Nat) (a : K), as[q]? = some a →
          ((if i + 1 = (xs.map (some : K → Val K)).length then vle (some xs[i]) (some a) else Arr.vlt (some xs[i]) (some a)) = true
            ↔ xs[i] < a) := by
        intro q a hq
        by_cases hlast : i + 1 = (xs.map (some : K → Val K)).length
        · rw [if_pos hlast]
          have hna : xs[i] ≠ a := by
            intro h
            refine hb xs[i] ?_ (h ▸ List.mem_of_getElem? hq)
            rw [List.getLast?_eq_getElem?]
            rw [hxl] at hlast
            rw [← hlast]; simpa using List.getElem?_eq_getElem hix
          simp only [vle, decide_eq_true_eq]
          exact ⟨fun h => lt_of_le_of_ne h hna, le_of_lt⟩
        · rw [if_neg hlast]
          simp only [Arr.vlt, decide_eq_true_eq]
      have hmap : ∀ (q : Nat) (a : K), as[q]? = some a → (as.map (some : K → Val K))[q]? = some (some a) := by
        intro q a h; rw [List.getElem?_map, h]; rfl
      have htb : t = binOf as xs[i] := by
        apply le_antisymm
        · by_contra hlt
          have hq : binOf as xs[i] < as.length := by omega
          have g := List.getElem?_eq_getElem hq
          have h1 := hlo (binOf as xs[i]) _ hji (by omega) (hmap _ _ g)
          have h2 := test _ _ g
          rw [← not_le, binOf_lt hs xs[i] _ _ g] at h2
          exact absurd (h2.2 (lt_irrefl _)) (by rw [h1]; simp)
        · by_contra hlt
          have hq : t < as.length := by have := binOf_le as xs[i]; omega
          have g := List.getElem?_eq_getElem hq
          have h1 := hup _ (hmap _ _ g)
          have h2 := (test _ _ g).1 h1
          rw [← not_le, binOf_lt hs xs[i] _ _ g] at h2
          omega
      refine ⟨(c', (j' : Int)), e, j', rfl, hj', ?_, ?_⟩
      · intro d hd'
        rw [show (((i : Int) + 1).toNat) = i + 1 by omega] at hd'
        have hle : xs[i] ≤ d := by
          have := List.Pairwise.drop (i := i) hx
          rw [hdr, List.pairwise_cons] at this
          exact this.1 d hd'
        have := binOf_mono as hle
        omega
      · rw [show (((i : Int) + 1).toNat) = i + 1 by omega, List.take_succ_eq_append_getElem hix]
        refine ⟨hc'.same, fun p hp => ?_⟩
        rw [hc'.cell p hp, List.countP_append, htb]
        congr 1
        push_cast
        congr 1
        by_cases hpb : p = binOf as xs[i]
        · rw [if_pos hpb]; simp [hpb]
        · rw [if_neg hpb]
          have : ¬ binOf as xs[i] = p := fun h => hpb h.symm
          simp [this])
  rw [e]
  refine ⟨s'.1, rfl, ?_⟩
  simpa using h5

/-- **C86**, the bins: for numbers and increasing breaks, if the greatest datum is not a break, `ComputeV` counts the data
below the first break, from each break to the next one (not included), and from the last break on. -/
theorem C86_bins_partial (data axis : Mat (Val K)) (xs as : List K) (hd : IsCells data (xs.map some)) (wd : data.Wf)
    (ha : IsCells axis (as.map some)) (hs : as.Pairwise (· ≤ ·)) (hb : ∀ g ∈ xs, (∀ x ∈ xs, x ≤ g) → g ∉ as)
    (counts : Mat Int) (w : counts.Wf) (hl : counts.length = (as.length : Int) + 1) (hne : xs ≠ []) :
    ∃ data' c, computeV data axis counts false = .ok ((xs.length : Int), data', c) ∧ SameShape counts c ∧
      ∀ p : Nat, p ≤ as.length → c.getLin p = .ok ((xs.filter (fun d => decide (InBin as p d))).length : Int) := by
  obtain ⟨data', ys, e1, s1, i1, p1, o1⟩ := sortData_spec hd wd
  obtain ⟨c, e2, h2⟩ := fill_bins i1 ha o1 hs (by
    intro g hg
    have hgm : g ∈ ys := List.mem_of_getLast? hg
    refine hb g (p1.mem_iff.1 hgm) fun x hx => ?_
    have hxy := p1.mem_iff.2 hx
    obtain ⟨l, rfl⟩ := List.getLast?_eq_some_iff.1 hg
    rw [List.pairwise_append] at o1
    rcases List.mem_append.1 hxy with h | h
    · exact o1.2.2 x h g (by simp)
    · simp at h; rw [h]) w (le_of_eq hl.symm)
  refine ⟨data', c, ?_, h2.same, fun p hp => ?_⟩
  · unfold computeV clean
    have hlen := hd.len
    rw [List.length_map] at hlen
    have : data.length ≠ 0 := by
      have := List.length_pos_iff.2 hne
      omega
    have hl' : data'.length = (xs.length : Int) := by
      unfold Mat.length; rw [s1.rows, s1.cols]; exact hlen.symm
    simp only [Bool.false_eq_true, if_false, Outcome.ok_bind, if_neg this, e1, e2, hl', Outcome.pure_eq]
  · rw [cellLoop_count w hl h2 p hp]
    congr 2
    rw [p1.countP_eq, List.countP_eq_length_filter]
    congr 1
    apply List.filter_congr
    intro d _
    exact decide_eq_decide.2 (inBin_iff hs d p hp).symm

/-! ## C87: the removal of missing cells -/

theorem numbers_take_succ (xs : List (Val K)) (i : Nat) (d : Val K) (h : xs[i]? = some d) :
    numbers (xs.take (i + 1)) = numbers (xs.take i) ++ d.toList := by
  obtain ⟨hi, rfl⟩ := List.getElem?_eq_some_iff.1 h
  rw [List.take_succ_eq_append_getElem hi]
  unfold numbers
  rw [List.filterMap_append]
  congr 1

theorem numbers_take_length (xs : List (Val K)) (i : Nat) : (numbers (xs.take i)).length ≤ i :=
  (List.length_filterMap_le _ _).trans (by rw [List.length_take]; omega)

/-- **C87**: `RemoveNanVector_in` keeps exactly the numbers, in their order; a matrix with more than one column becomes a
row, any other one a column. The memory is the same, with the rest of it as it was. -/
theorem C87_remove (m : Mat (Val K)) (w : m.Wf) (xs : List (Val K)) (h : IsCells m xs) :
    ∃ r, removeNanIn m = .ok r ∧ IsCells r ((numbers xs).map some) ∧ r.Wf ∧ r.mem.length = m.mem.length ∧
      (∀ k : Nat, xs.length ≤ k → r.mem[k]? = m.mem[k]?) ∧
      (1 < m.cols → r.rows = 1 ∧ r.cols = (numbers xs).length) ∧
      (m.cols ≤ 1 → r.rows = (numbers xs).length ∧ r.cols = 1) := by
  have hln := h.len
  obtain ⟨s', e, h1, h2, h3, h4⟩ := loop_inv (a := 0) (b := (xs.length : Int)) (by omega) removeStep
    (fun i s => SameShape m s.1 ∧ s.2 = (numbers (xs.take i.toNat)).length ∧
      (∀ (k : Nat) (x : K), (numbers (xs.take i.toNat))[k]? = some x → read s.1.mem k = .ok (some x)) ∧
      ∀ (k : Nat) (x : Val K), i ≤ k → xs[k]? = some x → read s.1.mem k = .ok x) (s := (m, 0))
    ⟨SameShape.refl _, by simp [numbers], fun k x hk => by simp [numbers] at hk, fun k x _ hk => by
      have := isCells_read h k x hk; rwa [zero_add] at this⟩ (by
      rintro i hi hb ⟨c, j⟩ ⟨sh, hj, hlo, hhi⟩
      obtain ⟨i, rfl⟩ : ∃ n : Nat, i = n := ⟨i.toNat, by omega⟩
      simp only [Int.toNat_natCast] at *
      have hix : i < xs.length := by omega
      have hd := List.getElem?_eq_getElem hix
      have hrd := hhi i _ (le_refl _) hd
      have ns := numbers_take_succ xs i _ hd
      have nl := numbers_take_length xs i
      have e1 : ((i : Int) + 1).toNat = i + 1 := by omega
      unfold removeStep
      simp only [hrd, Outcome.ok_bind, e1, ns]
      cases hx : xs[i] with
      | none =>
        refine ⟨(c, j), rfl, sh, ?_, ?_, fun k x hk => hhi k x (by omega)⟩
        · simpa using hj
        · simpa using hlo
      | some v =>
        subst hj
        have hc : c.length = m.length := by unfold Mat.length; rw [sh.rows, sh.cols]
        obtain ⟨c', e', s', r⟩ := put_spec (sh.wf w) (k := ((numbers (xs.take i)).length : Int)) (by omega)
          (by rw [hc, ← hln]; omega) (some v)
        refine ⟨(c', ((numbers (xs.take i)).length : Int) + 1), ?_, sh.trans s', ?_, ?_, ?_⟩
        · simp only [Option.isNone_some, Bool.false_eq_true, if_false, e', Outcome.ok_bind]; rfl
        · simp
        · intro k x hk
          show read c'.mem k = _
          rw [r]
          rcases Nat.lt_trichotomy k (numbers (xs.take i)).length with hlt | heq | hgt
          · rw [if_neg (by omega)]
            rw [List.getElem?_append_left hlt] at hk
            exact hlo k x hk
          · subst heq
            simp at hk
            rw [if_pos rfl, hk]
          · rw [List.getElem?_eq_none (by simp; omega)] at hk; cases hk
        · intro k x hk hkx
          show read c'.mem k = _
          rw [r, if_neg (by omega)]
          exact hhi k x (by omega) hkx)
  simp only [Int.toNat_natCast, List.take_length] at h2 h3
  obtain ⟨c, j⟩ := s'
  simp only at h1 h2 h3 h4
  subst h2
  have wc := h1.wf w
  have hcap : ((numbers xs).length : Int) ≤ c.mem.length := by
    have a := numbers_take_length xs xs.length
    rw [List.take_length] at a
    have b := wc.size
    have : c.rows * c.cols = m.length := by rw [h1.rows, h1.cols]; rfl
    omega
  unfold removeNanIn
  rw [← hln, e]
  simp only [Outcome.ok_bind, Outcome.pure_eq]
  have rest : ∀ k : Nat, xs.length ≤ k → c.mem[k]? = m.mem[k]? := fun k hk => h1.rest k (by
    have : m.rows * m.cols = m.length := rfl
    omega)
  have nn : (0 : Int) ≤ (numbers xs).length := by omega
  have key : ∀ r : Mat (Val K), r.mem = c.mem → r.data.isSome → r.length = (numbers xs).length →
      IsCells r ((numbers xs).map some) := by
    intro r hm hs hl
    refine ⟨by rw [List.length_map, hl], fun k x hk => ?_⟩
    rw [List.getElem?_map, Option.map_eq_some_iff] at hk
    obtain ⟨y, hy, rfl⟩ := hk
    have hkl := (List.getElem?_eq_some_iff.1 hy).1
    unfold Mat.getLin
    have : r.data ≠ none := by intro hc; rw [hc] at hs; simp at hs
    rw [if_neg (by simpa using this), if_neg (by omega), hm]
    exact h3 k y hy
  have cs : c.data.isSome := by rw [wc.data_eq]; rfl
  by_cases hcol : m.cols > 1
  · rw [if_pos hcol]
    refine ⟨_, rfl, key _ rfl cs (by simp [Mat.length]), ⟨by simp, by simp, ?_, ?_⟩, h1.len, rest,
      fun _ => ⟨rfl, rfl⟩, fun hc => by omega⟩
    · exact cs
    · show (1 : Int) * (numbers xs).length ≤ c.mem.length
      omega
  · rw [if_neg hcol]
    refine ⟨_, rfl, key _ rfl cs (by simp [Mat.length]), ⟨by simp, by simp, ?_, ?_⟩, h1.len, rest,
      fun hc => by omega, fun _ => ⟨rfl, rfl⟩⟩
    · exact cs
    · show ((numbers xs).length : Int) * 1 ≤ c.mem.length
      omega

/-- **C87**, histograms ignore the missing cells when they are asked to. -/
theorem C87_histogram (data axis : Mat (Val K)) (counts : Mat Int) (w : data.Wf) (xs : List (Val K)) (h : IsCells data xs) :
    ∃ r, removeNanIn data = .ok r ∧ IsCells r ((numbers xs).map some) ∧ r.Wf ∧
      computeV data axis counts true = computeV r axis counts false ∧
      (numbers xs = [] → computeV data axis counts true = .throws) := by
  obtain ⟨r, e, h1, h2, -⟩ := C87_remove data w xs h
  have key : computeV data axis counts true = computeV r axis counts false := by
    unfold computeV clean
    simp only [if_true, e, Bool.false_eq_true, if_false]
  refine ⟨r, e, h1, h2, key, fun hn => ?_⟩
  rw [key]
  have := h1.len
  rw [hn] at this
  unfold computeV clean
  simp only [Bool.false_eq_true, if_false, Outcome.ok_bind]
  rw [if_pos (by simpa using this.symm)]

/-! ## C86: bins of the same width -/

theorem setAxis_spec (eps : K) (axis : Mat (Val K)) (w : axis.Wf) (n : Nat) (hl : axis.length = (n : Int) + 1) (mn step : K) :
    ∃ a, setAxis eps axis n (some mn) (some step) = .ok a ∧ SameShape axis a ∧
      IsCells a ((breaks eps mn step n).map some) := by
  obtain ⟨c, e, s, p⟩ := loop_inv (a := 0) (b := (n : Int)) (by omega)
    (fun a i => put a i (vadd (some mn) (vmul (vint i) (some step))))
    (fun i c => SameShape axis c ∧ ∀ p : Nat, (p : Int) < i → read c.mem p = .ok (some (mn + (p : K) * step))) (s := axis)
    ⟨SameShape.refl _, fun p hp => by omega⟩ (by
      rintro i hi hb c ⟨s, p⟩
      have hlc : c.length = axis.length := by unfold Mat.length; rw [s.rows, s.cols]
      obtain ⟨c', e, s', r⟩ := put_spec (s.wf w) (k := i) hi (by rw [hlc]; omega) (vadd (some mn) (vmul (vint i) (some step)))
      refine ⟨c', e, s.trans s', fun q hq => ?_⟩
      rw [r]
      by_cases hqi : (q : Int) = i
      · rw [if_pos hqi, ← hqi]; simp [vadd, vmul, vint]
      · rw [if_neg hqi]; exact p q (by omega))
  have hlc : c.length = axis.length := by unfold Mat.length; rw [s.rows, s.cols]
  obtain ⟨c', e', s', r⟩ := put_spec (s.wf w) (k := (n : Int)) (by omega) (by rw [hlc]; omega)
    (vadd (vadd (some mn) (vmul (vint (n : Int)) (some step))) (some eps))
  have hl' : c'.length = axis.length := by unfold Mat.length; rw [s'.rows, s'.cols, s.rows, s.cols]
  refine ⟨c', by unfold setAxis; rw [e]; exact e', s.trans s', ⟨by simp [hl', hl, breaks], fun k x hk => ?_⟩⟩
  unfold breaks at hk
  have hk1 : k < n + 1 := by
    have := (List.getElem?_eq_some_iff.1 hk).1
    simpa using this
  rw [De.getLin_eq ((s.trans s').wf w) (by omega) (by omega), r]
  by_cases hkn : k = n
  · subst hkn
    rw [if_pos rfl]
    rw [List.getElem?_map, List.getElem?_append_right (by simp)] at hk
    simp at hk
    rw [← hk]; simp [vadd, vmul, vint]
  · rw [if_neg (by omega), p k (by omega)]
    rw [List.getElem?_map, List.getElem?_append_left (by simp; omega), List.getElem?_map, List.getElem?_range (by omega)] at hk
    simp at hk
    rw [← hk]

end

section
variable {K : Type} [Field K] [LinearOrder K] [IsStrictOrderedRing K]

theorem breaks_sorted {eps step : K} (he : 0 ≤ eps) (hst : 0 ≤ step) (mn : K) (n : Nat) :
    (breaks eps mn step n).Pairwise (· ≤ ·) := by
  unfold breaks
  rw [List.pairwise_append]
  refine ⟨?_, by simp, ?_⟩
  · rw [List.pairwise_map]
    refine List.pairwise_lt_range.imp fun {a b} h => ?_
    have : (a : K) ≤ b := by exact_mod_cast h.le
    have := mul_le_mul_of_nonneg_right this hst
    linarith
  · intro a ha b hb
    simp only [List.mem_map, List.mem_range, List.mem_singleton] at ha hb
    obtain ⟨i, hi, rfl⟩ := ha
    subst hb
    have : (i : K) ≤ n := by exact_mod_cast hi.le
    have := mul_le_mul_of_nonneg_right this hst
    linarith

/-- **C86**, bins of the same width: `Compute` puts the breaks at `min + i * width`, where the width is `(max - min) / bincount`,
moves the last one by the given epsilon, and counts the data between them as `ComputeV` does. -/
theorem C86_equal_partial (eps : K) (he : 0 ≤ eps) (data axis : Mat (Val K)) (xs : List K) (hd : IsCells data (xs.map some))
    (hx : xs.Pairwise (· ≤ ·)) (hne : xs ≠ []) (n : Nat) (hn : 2 ≤ n) (mn mx : K) (hm : mn ≤ mx)
    (hb : ∀ g ∈ xs, (∀ x ∈ xs, x ≤ g) → g ∉ breaks eps mn ((mx - mn) / n) n)
    (wa : axis.Wf) (hla : axis.length = (n : Int) + 1)
    (counts : Mat Int) (w : counts.Wf) (hl : counts.length = (n : Int) + 2) :
    ∃ a c, compute eps data axis counts n (some mn) (some mx) none false = .ok ((xs.length : Int), a, c) ∧
      SameShape axis a ∧ IsCells a ((breaks eps mn ((mx - mn) / n) n).map some) ∧ SameShape counts c ∧
      ∀ p : Nat, p ≤ n + 1 → c.getLin p =
        .ok ((xs.filter (fun d => decide (InBin (breaks eps mn ((mx - mn) / n) n) p d))).length : Int) := by
  have n0 : (0 : K) < n := by exact_mod_cast (by omega : 0 < n)
  obtain ⟨a, e1, s1, i1⟩ := setAxis_spec eps axis wa n hla mn ((mx - mn) / n)
  have hs := breaks_sorted he (div_nonneg (sub_nonneg.2 hm) n0.le) mn n
  have hbl : (breaks eps mn ((mx - mn) / n) n).length = n + 1 := by simp [breaks]
  obtain ⟨c, e2, h2⟩ := fill_bins hd i1 hx hs (by
    intro g hg
    refine hb g (List.mem_of_getLast? hg) fun x hxx => ?_
    obtain ⟨l, rfl⟩ := List.getLast?_eq_some_iff.1 hg
    rw [List.pairwise_append] at hx
    rcases List.mem_append.1 hxx with h | h
    · exact hx.2.2 x h g (by simp)
    · simp at h; rw [h]) w (by rw [hbl, hl]; push_cast; omega)
  refine ⟨a, c, ?_, s1, i1, h2.same, fun p hp => ?_⟩
  · unfold compute clean
    have hlen := hd.len
    rw [List.length_map] at hlen
    have h0 : ¬ data.length = 0 := by
      have := List.length_pos_iff.2 hne
      omega
    have hw : widths axis.length (n : Int) (some mn) (some mx) none = .ok (some ((mx - mn) / (n : K)), (n : Int)) := by
      unfold widths
      rw [if_neg (by omega)]
      simp [vdiv, vsub, vint, n0.ne']
    simp only [Bool.false_eq_true, if_false, Outcome.ok_bind, if_neg h0, hw, if_neg (show ¬ (n : Int) = 1 by omega),
      if_neg (show ¬ (n : Int) = 0 by omega), e1, e2, Outcome.pure_eq, hlen]
  · rw [cellLoop_count w (by rw [hbl, hl]; push_cast; omega) h2 p (by omega)]
    congr 2
    rw [List.countP_eq_length_filter]
    congr 1
    apply List.filter_congr
    intro d _
    exact decide_eq_decide.2 (inBin_iff hs d p (by omega)).symm

/-- **C86**, bins of a given width: `Compute` puts as many breaks as the axis holds at `min + i * step`, moves the last one by the
given epsilon, and counts the data between them as `ComputeV` does (unless `bincount` is one). -/
theorem C86_step_partial (eps : K) (he : 0 ≤ eps) (data axis : Mat (Val K)) (xs : List K) (hd : IsCells data (xs.map some))
    (hx : xs.Pairwise (· ≤ ·)) (hne : xs ≠ []) (n : Nat) (hn : 1 ≤ n) (bins : Int) (hbins : bins ≠ 1)
    (mn mx step : K) (hst : 0 < step)
    (hb : ∀ g ∈ xs, (∀ x ∈ xs, x ≤ g) → g ∉ breaks eps mn step n)
    (wa : axis.Wf) (hla : axis.length = (n : Int) + 1)
    (counts : Mat Int) (w : counts.Wf) (hl : counts.length = (n : Int) + 2) :
    ∃ a c, compute eps data axis counts bins (some mn) (some mx) (some step) false = .ok ((xs.length : Int), a, c) ∧
      SameShape axis a ∧ IsCells a ((breaks eps mn step n).map some) ∧ SameShape counts c ∧
      ∀ p : Nat, p ≤ n + 1 → c.getLin p =
        .ok ((xs.filter (fun d => decide (InBin (breaks eps mn step n) p d))).length : Int) := by
  obtain ⟨a, e1, s1, i1⟩ := setAxis_spec eps axis wa n hla mn step
  have hs := breaks_sorted he hst.le mn n
  have hbl : (breaks eps mn step n).length = n + 1 := by simp [breaks]
  obtain ⟨c, e2, h2⟩ := fill_bins hd i1 hx hs (by
    intro g hg
    refine hb g (List.mem_of_getLast? hg) fun x hxx => ?_
    obtain ⟨l, rfl⟩ := List.getLast?_eq_some_iff.1 hg
    rw [List.pairwise_append] at hx
    rcases List.mem_append.1 hxx with h | h
    · exact hx.2.2 x h g (by simp)
    · simp at h; rw [h]) w (by rw [hbl, hl]; push_cast; omega)
  refine ⟨a, c, ?_, s1, i1, h2.same, fun p hp => ?_⟩
  · unfold compute clean
    have hlen := hd.len
    rw [List.length_map] at hlen
    have h0 : ¬ data.length = 0 := by
      have := List.length_pos_iff.2 hne
      omega
    have hw : widths axis.length bins (some mn) (some mx) (some step) = .ok (some step, (n : Int)) := by
      unfold widths
      simp only [if_neg hst.ne', hla]
      congr 2; omega
    simp only [Bool.false_eq_true, if_false, Outcome.ok_bind, if_neg h0, hw, if_neg hbins,
      if_neg (show ¬ (n : Int) = 0 by omega), e1, e2, Outcome.pure_eq, hlen]
  · rw [cellLoop_count w (by rw [hbl, hl]; push_cast; omega) h2 p (by omega)]
    congr 2
    rw [List.countP_eq_length_filter]
    congr 1
    apply List.filter_congr
    intro d _
    exact decide_eq_decide.2 (inBin_iff hs d p (by omega)).symm

/-- **C86**, nothing is outside: if the range is that of the data (the greatest datum is `max`), the first and the last
count are zero, so the bins together hold all data. -/
theorem C86_inside (eps : K) (he : 0 < eps) (data axis : Mat (Val K)) (xs : List K) (hd : IsCells data (xs.map some))
    (hx : xs.Pairwise (· ≤ ·)) (n : Nat) (hn : 2 ≤ n) (mn mx : K) (hm : mn < mx)
    (hin : ∀ x ∈ xs, mn ≤ x ∧ x ≤ mx) (hmx : mx ∈ xs)
    (wa : axis.Wf) (hla : axis.length = (n : Int) + 1)
    (counts : Mat Int) (w : counts.Wf) (hl : counts.length = (n : Int) + 2) :
    ∃ a c, ∃ f : Nat → Int, compute eps data axis counts n (some mn) (some mx) none false = .ok ((xs.length : Int), a, c) ∧
      (∀ p : Nat, p ≤ n + 1 → c.getLin p = .ok (f p)) ∧ f 0 = 0 ∧ f (n + 1) = 0 ∧
      ∑ p ∈ Finset.range n, f (p + 1) = xs.length := by
  have n0 : (0 : K) < n := by exact_mod_cast (by omega : 0 < n)
  have hne : xs ≠ [] := by rintro rfl; simp at hmx
  have hst : 0 < (mx - mn) / n := div_pos (sub_pos.2 hm) n0
  have hsn : (n : K) * ((mx - mn) / n) = mx - mn := by field_simp
  obtain ⟨a, c, e, -, i1, -, h1⟩ := C86_equal_partial eps he.le data axis xs hd hx hne n hn mn mx hm.le (by
    intro g hg hgx
    have : g = mx := le_antisymm (hin g hg).2 (hgx mx hmx)
    subst this
    unfold breaks
    simp only [List.mem_append, List.mem_map, List.mem_range, List.mem_singleton, not_or, not_exists, not_and]
    constructor
    · intro i hi heq
      have : (i : K) < n := by exact_mod_cast hi
      have := mul_lt_mul_of_pos_right this hst
      linarith
    · intro heq
      linarith) wa hla counts w hl
  have z0 : (xs.filter (fun d => decide (InBin (breaks eps mn ((mx - mn) / n) n) 0 d))).length = 0 := by
    rw [List.length_eq_zero_iff, List.filter_eq_nil_iff]
    intro d hd' hc
    simp only [decide_eq_true_eq] at hc
    have := hc.2 mn (by
      unfold breaks
      rw [List.getElem?_append_left (by simp; omega), List.getElem?_map, List.getElem?_range (by omega)]
      simp)
    exact absurd (hin d hd').1 (not_le.2 this)
  have zn : (xs.filter (fun d => decide (InBin (breaks eps mn ((mx - mn) / n) n) (n + 1) d))).length = 0 := by
    rw [List.length_eq_zero_iff, List.filter_eq_nil_iff]
    intro d hd' hc
    simp only [decide_eq_true_eq] at hc
    have := hc.1 (mn + (n : K) * ((mx - mn) / n) + eps) (by omega) (by
      unfold breaks
      rw [List.getElem?_append_right (by simp)]
      simp)
    have := (hin d hd').2
    linarith
  refine ⟨a, c, _, e, h1, by rw [z0]; rfl, by rw [zn]; rfl, ?_⟩
  have hs := breaks_sorted he.le hst.le mn n
  have hbl : (breaks eps mn ((mx - mn) / n) n).length = n + 1 := by simp [breaks]
  have tot : ∀ l : List K, ∑ p ∈ Finset.range (n + 2), (((l.filter (fun d => decide
      (InBin (breaks eps mn ((mx - mn) / n) n) p d))).length : Nat) : Int) = l.length := by
    intro l
    induction l with
    | nil => simp
    | cons x t ih =>
      rw [List.length_cons]
      push_cast
      rw [← ih]
      have : ∀ p ∈ Finset.range (n + 2), ((((x :: t).filter (fun d => decide
          (InBin (breaks eps mn ((mx - mn) / n) n) p d))).length : Nat) : Int) =
          ((t.filter (fun d => decide (InBin (breaks eps mn ((mx - mn) / n) n) p d))).length : Nat) +
          if p = binOf (breaks eps mn ((mx - mn) / n) n) x then (1 : Int) else 0 := by
        intro p hp
        rw [Finset.mem_range] at hp
        have hiff := inBin_iff hs x p (by omega)
        rw [List.filter_cons]
        by_cases hpb : p = binOf (breaks eps mn ((mx - mn) / n) n) x
        · rw [if_pos hpb, if_pos (decide_eq_true (hiff.2 hpb.symm)), List.length_cons]; push_cast; ring
        · rw [if_neg hpb, if_neg (by simp only [decide_eq_true_eq]; exact fun hc => hpb (hiff.1 hc).symm)]; ring
      rw [Finset.sum_congr rfl this, Finset.sum_add_distrib,
        Finset.sum_ite_eq' (Finset.range (n + 2)) _ (fun _ => (1 : Int)), if_pos (Finset.mem_range.2 (by
          have := binOf_le (breaks eps mn ((mx - mn) / n) n) x; omega))]
  have := tot xs
  rw [Finset.sum_range_succ, Finset.sum_range_succ', z0, zn] at this
  simpa using this

end

section
variable {K : Type} [Field K] [LinearOrder K]

/-- **C86**, what `Compute` refuses: no data, no bins, a zero width. -/
theorem C86_refused (eps : K) (data axis : Mat (Val K)) (counts : Mat Int) (mn mx : Val K) :
    (∀ n st, data.length = 0 → compute eps data axis counts n mn mx st false = .throws) ∧
    (data.length ≠ 0 → compute eps data axis counts 0 mn mx none false = .throws) ∧
    (∀ n, data.length ≠ 0 → n ≠ 1 → compute eps data axis counts n mn mx (some 0) false = .throws) := by
  refine ⟨fun n st h => ?_, fun h => ?_, fun n h hn => ?_⟩
  · unfold compute clean
    simp [h]
  · unfold compute clean widths
    simp [h]
  · unfold compute clean widths
    simp [h, hn]

/-- **C86 is violated with one bin**: all data are counted inside, wherever they are. -/
theorem C86_violated_single (eps : K) (data : Mat (Val K)) (mn mx step : Val K) (h : data.length ≠ 0) (a0 a1 : Val K)
    (c0 c1 c2 : Int) :
    compute eps data ⟨2, 1, some [a0, a1]⟩ ⟨3, 1, some [c0, c1, c2]⟩ 1 mn mx step false =
      .ok (data.length, ⟨2, 1, some [mn, mx]⟩, ⟨3, 1, some [0, data.length, 0]⟩) := by
  unfold compute clean
  simp only [Bool.false_eq_true, if_false, Outcome.ok_bind, if_neg h]
  rfl

end

section
variable {K : Type} [Field K] [LinearOrder K] [IsStrictOrderedRing K] [FloorRing K]

theorem clean_false (data : Mat (Val K)) : clean false data = .ok data := rfl

/-- **C86**, a given range and a given number of bins are not changed; the axis has one more element than there are bins. -/
theorem C86_given (eps : K) (cbrt : Int → K) (data : Mat (Val K)) (xs : List K) (hd : IsCells data (xs.map some)) (wd : data.Wf)
    (hne : xs ≠ []) (n : Int) (hn : 0 < n) (mn mx : K) (hm : mn < mx) (mult : K) (step : Val K) :
    ∃ (data' : Mat (Val K)) (ys : List K), computeSize eps cbrt data n (some mn) (some mx) mult false step =
        .ok ⟨data', n, mn, mx, n + 1⟩ ∧
      SameShape data data' ∧ IsCells data' (ys.map some) ∧ ys.Perm xs ∧ ys.Pairwise (· ≤ ·) := by
  obtain ⟨data', ys, e1, s1, i1, p1, o1⟩ := sortData_spec hd wd
  refine ⟨data', ys, ?_, s1, i1, p1, o1⟩
  have hlen := hd.len
  rw [List.length_map] at hlen
  have h0 : ¬ data.length = 0 := by
    have := List.length_pos_iff.2 hne
    omega
  unfold computeSize finish
  rw [clean_false]
  simp only [Outcome.ok_bind, if_neg h0, vle, decide_eq_true_eq, if_neg (not_le.2 hm), e1, if_neg (not_le.2 hn),
    if_neg hm.ne, Outcome.pure_eq]

/-- **C86**, an empty range is refused. -/
theorem C86_empty_range (eps : K) (cbrt : Int → K) (data : Mat (Val K)) (n : Int) (mn mx : K) (hm : mx ≤ mn) (mult : K)
    (step : Val K) : computeSize eps cbrt data n (some mn) (some mx) mult false step = .throws := by
  unfold computeSize
  rw [clean_false]
  by_cases h0 : data.length = 0
  · simp [h0]
  · simp [h0, vle, hm]

/-- **C86**, the automatic range: from the smallest datum or, if it is greater, the first quartile minus `iqrMultiply` times the
interquartile range, to the greatest datum or, if it is smaller, the third quartile plus the same. The range is not
empty; it is widened by `0.01` on both sides if it is a point. -/
theorem C86_automatic (eps : K) (cbrt : Int → K) (data : Mat (Val K)) (xs : List K) (hd : IsCells data (xs.map some)) (wd : data.Wf)
    (hne : xs ≠ []) (n : Int) (hn : 0 < n) (mult : K) (hmu : 0 ≤ mult) :
    ∃ (data' : Mat (Val K)) (ys : List K) (hy : ys ≠ []) (q1 q3 a b : K) (r : Sizes K),
      computeSize eps cbrt data n none none mult false none = .ok r ∧ r.bincount = n ∧ r.size = n + 1 ∧ r.data = data' ∧
      IsCells data' (ys.map some) ∧ ys.Perm xs ∧ ys.Pairwise (· ≤ ·) ∧
      De.quantileSorted data' (1 / 4) = .ok (some q1) ∧ De.quantileSorted data' (3 / 4) = .ok (some q3) ∧
      a = max (ys.head hy) (q1 - mult * (q3 - q1)) ∧ b = min (ys.getLast hy) (q3 + mult * (q3 - q1)) ∧ a ≤ b ∧
      (a < b → r.mn = a ∧ r.mx = b) ∧ (a = b → r.mn = a - 1 / 100 ∧ r.mx = b + 1 / 100) ∧ r.mn < r.mx := by
  obtain ⟨data', ys, e1, s1, i1, p1, o1⟩ := sortData_spec hd wd
  have hy : ys ≠ [] := by rintro rfl; exact hne (List.nil_perm.1 p1)
  obtain ⟨q1, hq1, l1, u1⟩ := De.C80_bounds data' ys i1 hy o1 (1 / 4)
  obtain ⟨q3, hq3, l3, u3⟩ := De.C80_bounds data' ys i1 hy o1 (3 / 4)
  have h13 : q1 ≤ q3 := by
    obtain ⟨q, q', ha, hb, hq⟩ := De.C80_monotone data' ys i1 hy o1 (1 / 4) (3 / 4) (by norm_num)
    rw [hq1] at ha; rw [hq3] at hb
    simp only [Outcome.ok.injEq, Option.some.injEq] at ha hb
    rw [ha, hb]; exact hq
  have h0' := (De.C80_ends data' ys i1 hy 0).1 (le_refl _)
  have h1' := (De.C80_ends data' ys i1 hy 1).2 (le_refl _)
  have hir : 0 ≤ mult * (q3 - q1) := mul_nonneg hmu (sub_nonneg.2 h13)
  have hab : max (ys.head hy) (q1 - mult * (q3 - q1)) ≤ min (ys.getLast hy) (q3 + mult * (q3 - q1)) := by
    have : max (ys.head hy) (q1 - mult * (q3 - q1)) ≤ q1 := max_le l1 (by linarith)
    have : q3 ≤ min (ys.getLast hy) (q3 + mult * (q3 - q1)) := le_min u3 (by linarith)
    linarith
  have hvmax : vmax (some (ys.head hy)) (some (q1 - mult * (q3 - q1))) = some (max (ys.head hy) (q1 - mult * (q3 - q1))) := by
    unfold vmax
    simp only [Arr.vlt, decide_eq_true_eq]
    split_ifs with h
    · rw [max_eq_right h.le]
    · rw [max_eq_left (not_lt.1 h)]
  have hvmin : vmin (some (ys.getLast hy)) (some (q3 + mult * (q3 - q1))) =
      some (min (ys.getLast hy) (q3 + mult * (q3 - q1))) := by
    unfold vmin
    simp only [Arr.vlt, decide_eq_true_eq]
    split_ifs with h
    · rw [min_eq_right h.le]
    · rw [min_eq_left (not_lt.1 h)]
  have hlen := hd.len
  rw [List.length_map] at hlen
  have h0 : ¬ data.length = 0 := by
    have := List.length_pos_iff.2 hne
    omega
  have comp : computeSize eps cbrt data n none none mult false none = .ok (finish data' n
      (max (ys.head hy) (q1 - mult * (q3 - q1))) (min (ys.getLast hy) (q3 + mult * (q3 - q1)))) := by
    unfold computeSize ranges
    rw [clean_false]
    simp only [Outcome.ok_bind, if_neg h0, vle, Bool.false_eq_true, if_false, e1, if_neg (not_le.2 hn), h0', h1', hq1, hq3,
      vsub, vmul, vadd, Option.isNone_none, if_true, mul_comm _ mult, hvmax, hvmin, binCount, if_neg hn.ne', Outcome.pure_eq]
  refine ⟨data', ys, hy, q1, q3, _, _, _, comp, ?_, ?_, ?_, i1, p1, o1, hq1, hq3, rfl, rfl, hab, ?_, ?_, ?_⟩
  · unfold finish; split_ifs <;> rfl
  · unfold finish; split_ifs <;> rfl
  · unfold finish; split_ifs <;> rfl
  · intro h; unfold finish; rw [if_neg h.ne]; exact ⟨rfl, rfl⟩
  · intro h; unfold finish; rw [if_pos h]; exact ⟨rfl, rfl⟩
  · unfold finish
    split_ifs with h
    · show _ - 1 / 100 < _ + 1 / 100
      rw [h]; linarith
    · exact lt_of_le_of_ne hab h

/-- **C86**, the number of bins of a given width is the smallest that covers the range. -/
theorem C86_step_size (eps : K) (cbrt : Int → K) (data : Mat (Val K)) (xs : List K) (hd : IsCells data (xs.map some))
    (wd : data.Wf) (hne : xs ≠ []) (mn mx : K) (hm : mn < mx) (mult step : K) (hst : 0 < step) :
    ∃ data' n, computeSize eps cbrt data 0 (some mn) (some mx) mult false (some step) = .ok ⟨data', n, mn, mx, n + 1⟩ ∧
      1 ≤ n ∧ mx ≤ mn + (n : K) * step ∧ mn + ((n : K) - 1) * step < mx := by
  obtain ⟨data', ys, e1, s1, i1, p1, o1⟩ := sortData_spec hd wd
  have hy : ys ≠ [] := by rintro rfl; exact hne (List.nil_perm.1 p1)
  have hlen := hd.len
  rw [List.length_map] at hlen
  have h0 : ¬ data.length = 0 := by
    have := List.length_pos_iff.2 hne
    omega
  have q := fun t => De.C80_value data' ys i1 hy t
  refine ⟨data', ⌈(mx - mn) / step⌉, ?_, ?_, ?_, ?_⟩
  · unfold computeSize ranges finish
    rw [clean_false]
    simp only [Outcome.ok_bind, if_neg h0, vle, decide_eq_true_eq, if_neg (not_le.2 hm), e1, le_refl, if_true, q,
      Option.isNone_some, Bool.false_eq_true, if_false, binCount, if_neg hst.ne', Outcome.pure_eq, if_neg hm.ne]
  · exact Int.one_le_ceil_iff.2 (div_pos (sub_pos.2 hm) hst)
  · have := Int.le_ceil ((mx - mn) / step)
    rw [div_le_iff₀ hst] at this
    linarith
  · have := Int.ceil_lt_add_one ((mx - mn) / step)
    rw [← sub_lt_iff_lt_add, lt_div_iff₀ hst] at this
    linarith

/-- **C86**, the number of bins that is not given: the cube root of the number of data times the range over twice the
interquartile range, rounded down; one for a range below the epsilon. -/
theorem C86_bin_count (eps : K) (cbrt : Int → K) (data : Mat (Val K)) (xs : List K) (hd : IsCells data (xs.map some))
    (wd : data.Wf) (hne : xs ≠ []) (hc : 0 ≤ cbrt xs.length) (mn mx : K) (hm : mn < mx) (mult : K) :
    ∃ (data' : Mat (Val K)) (ys : List K) (q1 q3 : K), IsCells data' (ys.map some) ∧ ys.Perm xs ∧ ys.Pairwise (· ≤ ·) ∧
      De.quantileSorted data' (1 / 4) = .ok (some q1) ∧ De.quantileSorted data' (3 / 4) = .ok (some q3) ∧ q1 ≤ q3 ∧
      (mx - mn < eps → computeSize eps cbrt data 0 (some mn) (some mx) mult false none = .ok ⟨data', 1, mn, mx, 2⟩) ∧
      (eps ≤ mx - mn → q1 < q3 → ∃ n, computeSize eps cbrt data 0 (some mn) (some mx) mult false none =
          .ok ⟨data', n, mn, mx, n + 1⟩ ∧ (n : K) ≤ cbrt xs.length * (mx - mn) / (2 * (q3 - q1)) ∧
          cbrt xs.length * (mx - mn) / (2 * (q3 - q1)) < (n : K) + 1) ∧
      (eps ≤ mx - mn → q1 = q3 → computeSize eps cbrt data 0 (some mn) (some mx) mult false none = .ub) := by
  obtain ⟨data', ys, e1, s1, i1, p1, o1⟩ := sortData_spec hd wd
  have hy : ys ≠ [] := by rintro rfl; exact hne (List.nil_perm.1 p1)
  have hlen := hd.len
  rw [List.length_map] at hlen
  have h0 : ¬ data.length = 0 := by
    have := List.length_pos_iff.2 hne
    omega
  have hl' : data'.length = (xs.length : Int) := by
    unfold Mat.length; rw [s1.rows, s1.cols]; exact hlen.symm
  have q := fun t => De.C80_value data' ys i1 hy t
  obtain ⟨q1, q3, h1, h3, h13⟩ := De.C80_monotone data' ys i1 hy o1 (1 / 4) (3 / 4) (by norm_num)
  have comp : computeSize eps cbrt data 0 (some mn) (some mx) mult false none = (do
      let n ← binCount eps (cbrt xs.length) 0 mn mx (some (q3 - q1)) none
      pure (finish data' n mn mx)) := by
    unfold computeSize ranges
    rw [clean_false]
    simp only [Outcome.ok_bind, if_neg h0, vle, decide_eq_true_eq, if_neg (not_le.2 hm), e1, le_refl, if_true, h1, h3, q 0, q 1,
      Option.isNone_some, Bool.false_eq_true, if_false, vsub, hl']
  refine ⟨data', ys, q1, q3, i1, p1, o1, h1, h3, h13, fun h => ?_, fun h hlt => ?_, fun h heq => ?_⟩
  · rw [comp]
    unfold binCount finish
    simp only [if_true, if_pos h, Outcome.ok_bind, if_neg hm.ne]
    rfl
  · refine ⟨trunc (cbrt xs.length * (mx - mn) / (2 * (q3 - q1))), ?_, ?_, ?_⟩
    · rw [comp]
      unfold binCount finish
      simp only [if_true, if_neg (not_lt.2 h), if_neg (sub_pos.2 hlt).ne', Outcome.ok_bind, if_neg hm.ne]
      rfl
    all_goals
      have nn : 0 ≤ cbrt xs.length * (mx - mn) / (2 * (q3 - q1)) :=
        div_nonneg (mul_nonneg hc (sub_pos.2 hm).le) (by linarith)
      unfold trunc
      rw [if_pos nn]
    · exact Int.floor_le _
    · exact Int.lt_floor_add_one _
  · rw [comp]
    unfold binCount
    simp [not_lt.2 h, heq]

/-- **C86 is violated by a negative number of bins**, which is not replaced: the size of the axis is not positive. -/
theorem C86_violated_negative (eps : K) (cbrt : Int → K) (data : Mat (Val K)) (xs : List K) (hd : IsCells data (xs.map some))
    (wd : data.Wf) (hne : xs ≠ []) (n : Int) (hn : n < 0) (mn mx : K) (hm : mn < mx) (mult : K) :
    ∃ data', computeSize eps cbrt data n (some mn) (some mx) mult false none = .ok ⟨data', n, mn, mx, n + 1⟩ ∧ n + 1 ≤ 0 := by
  obtain ⟨data', ys, e1, s1, i1, p1, o1⟩ := sortData_spec hd wd
  have hy : ys ≠ [] := by rintro rfl; exact hne (List.nil_perm.1 p1)
  refine ⟨data', ?_, by omega⟩
  have hlen := hd.len
  rw [List.length_map] at hlen
  have h0 : ¬ data.length = 0 := by
    have := List.length_pos_iff.2 hne
    omega
  have q := fun t => De.C80_value data' ys i1 hy t
  unfold computeSize ranges finish
  rw [clean_false]
  simp only [Outcome.ok_bind, if_neg h0, vle, decide_eq_true_eq, if_neg (not_le.2 hm), e1, if_pos hn.le, q,
    Option.isNone_some, Bool.false_eq_true, if_false, binCount, if_neg hn.ne, Outcome.pure_eq, if_neg hm.ne]

end

/-- **C86 is violated at a break in between**: the greatest datum on a break is counted below it, an equal datum in front
of it would be counted above. -/
theorem C86_violated_inner_break :
    computeV (⟨2, 1, some [some (1 / 2 : ℚ), some 2]⟩ : Mat (Val ℚ)) ⟨4, 1, some [some 0, some 1, some 2, some 3]⟩
      ⟨5, 1, some [0, 0, 0, 0, 0]⟩ false =
        .ok (2, ⟨2, 1, some [some (1 / 2), some 2]⟩, ⟨5, 1, some [0, 1, 1, 0, 0]⟩) ∧
    computeV (⟨3, 1, some [some (1 / 2 : ℚ), some 2, some 2]⟩ : Mat (Val ℚ)) ⟨4, 1, some [some 0, some 1, some 2, some 3]⟩
      ⟨5, 1, some [0, 0, 0, 0, 0]⟩ false =
        .ok (3, ⟨3, 1, some [some (1 / 2), some 2, some 2]⟩, ⟨5, 1, some [0, 1, 0, 2, 0]⟩) := by
  constructor <;> decide +kernel

/-- **C86 is violated at the last break**: of two equal data on the last break one is counted inside and one outside. -/
theorem C86_violated_last_break :
    computeV (⟨2, 1, some [some (1 : ℚ), some 1]⟩ : Mat (Val ℚ)) ⟨2, 1, some [some 0, some 1]⟩ ⟨3, 1, some [0, 0, 0]⟩ false =
      .ok (2, ⟨2, 1, some [some 1, some 1]⟩, ⟨3, 1, some [0, 1, 1]⟩) := by decide +kernel

/-- Non-vacuity of the theorems above: two bins over 0..2 with an epsilon of 1/10, and missing cells that are removed. -/
example :
    compute (1 / 10) (⟨4, 1, some [some (0 : ℚ), some (1 / 2), some 1, some 2]⟩ : Mat (Val ℚ)) ⟨3, 1, some [none, none, none]⟩
      ⟨4, 1, some [7, 7, 7, 7]⟩ 2 (some 0) (some 2) none false =
        .ok (4, ⟨3, 1, some [some 0, some 1, some (21 / 10)]⟩, ⟨4, 1, some [0, 2, 2, 0]⟩) ∧
    removeNanIn (⟨2, 2, some [none, some 3, none, some 1]⟩ : Mat (Val ℚ)) =
      .ok ⟨1, 2, some [some 3, some 1, none, some 1]⟩ ∧
    computeV (⟨3, 1, some [some 3, none, some (1 : ℚ)]⟩ : Mat (Val ℚ)) ⟨2, 1, some [some 0, some 2]⟩ ⟨3, 1, some [7, 7, 7]⟩ true =
      .ok (2, ⟨2, 1, some [some 1, some 3, some 1]⟩, ⟨3, 1, some [0, 1, 1]⟩) := by
  refine ⟨?_, ?_, ?_⟩ <;> decide +kernel

end Hi
end LDT
