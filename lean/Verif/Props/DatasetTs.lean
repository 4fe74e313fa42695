import Verif.Model.DatasetTs
import Verif.Props.Array
import Verif.Props.Dataset
namespace LDT
namespace Mx
open Arr

variable {K : Type}

/-- Number of series and of time points. -/
def nSer (byRow : Bool) (m : Mat (Val K)) : Int := if byRow then m.rows else m.cols
/-- See `nSer`. -/
def nTime (byRow : Bool) (m : Mat (Val K)) : Int := if byRow then m.cols else m.rows
/-- The value of series `k` at time `t`, through `Get`. -/
def valAt (byRow : Bool) (m : Mat (Val K)) (k t : Int) : Outcome (Val K) := if byRow then m.get k t else m.get t k

/-- Series `k` is observed at time `t`. -/
def ObsT (byRow : Bool) (m : Mat (Val K)) (k t : Int) : Prop := ∃ x, valAt byRow m k t = .ok (some x)

theorem mapM_ok_exists {ι β : Type} (f : ι → Outcome β) (l : List ι) (h : ∀ a ∈ l, ∃ v, f a = .ok v) :
    ∃ r, l.mapM f = .ok r ∧ r.length = l.length ∧ ∀ (k : Nat) a, l[k]? = some a → ∃ v, r[k]? = some v ∧ f a = .ok v := by
  rw [← List.mapM'_eq_mapM]
  induction l with
  | nil => exact ⟨[], rfl, rfl, by simp⟩
  | cons a l ih =>
    obtain ⟨v, hv⟩ := h a (by simp)
    obtain ⟨r, e, el, ev⟩ := ih (fun b hb => h b (List.mem_cons_of_mem _ hb))
    refine ⟨v :: r, ?_, by simp [el], ?_⟩
    · rw [List.mapM'_cons, hv, e]; rfl
    · intro k b hb
      cases k with
      | zero => simp at hb; subst hb; exact ⟨v, rfl, hv⟩
      | succ k => simpa using ev k b (by simpa using hb)

/-- What the scan of one series knows about it. -/
structure SeriesOk (byRow : Bool) (m : Mat (Val K)) (k : Int) (s : List (Val K)) : Prop where
  len : (s.length : Int) = nTime byRow m
  val : ∀ (t : Nat) v, s[t]? = some v ↔ ((t : Int) < nTime byRow m ∧ valAt byRow m k t = .ok v)

theorem seriesAt_ok (byRow : Bool) (m : Mat (Val K)) (w : m.Wf) (k : Int) (h0 : 0 ≤ k) (h1 : k < nSer byRow m) :
    ∃ s, seriesAt byRow m k = .ok s ∧ SeriesOk byRow m k s := by
  have hT : 0 ≤ nTime byRow m := by
    unfold nTime; cases byRow <;> simp [w.rows_nonneg, w.cols_nonneg]
  have hin : ∀ t, 0 ≤ t → t < nTime byRow m → if byRow then m.InR k t else m.InR t k := by
    intro t ht0 ht1
    cases byRow <;> simp [nSer, nTime] at * <;> exact ⟨by omega, by omega, by omega, by omega⟩
  have hval : ∀ t, 0 ≤ t → t < nTime byRow m →
      (if byRow then m.get0 k t else m.get0 t k) = valAt byRow m k t ∧ ∃ v, valAt byRow m k t = .ok v := by
    intro t ht0 ht1
    have := hin t ht0 ht1
    unfold valAt
    cases byRow <;> simp only [Bool.false_eq_true, if_false, if_true] at * <;>
      exact ⟨(get_eq_get0 w this).symm, by rw [get_eq_get0 w this]; exact get0_ok w this⟩
  obtain ⟨s, e, el, ev⟩ := mapM_ok_exists (fun t => if byRow then m.get0 k t else m.get0 t k)
    (upTo 0 (if byRow then m.cols else m.rows)) (by
      intro t ht
      have ht' := mem_upTo.1 ht
      obtain ⟨a, b⟩ := hval t ht'.1 ht'.2
      rw [a]; exact b)
  have hlen : (s.length : Int) = nTime byRow m := by
    rw [el, length_upTo]; unfold nTime at *; omega
  refine ⟨s, e, hlen, ?_⟩
  intro t v
  constructor
  · intro hs
    have hlt := lt_length_of_some hs
    obtain ⟨v', hv', hf⟩ := ev t t (by rw [getElem?_upTo, if_pos (by unfold nTime at hlen; omega)]; simp)
    rw [hs] at hv'
    have hvv := Option.some.inj hv'
    refine ⟨by omega, ?_⟩
    rw [(hval t (by omega) (by omega)).1] at hf
    rw [hf, hvv]
  · rintro ⟨hlt, hv⟩
    obtain ⟨v', hv', hf⟩ := ev t t (by rw [getElem?_upTo, if_pos (by unfold nTime at hlt; omega)]; simp)
    rw [(hval t (by omega) (by omega)).1, hv] at hf
    have hvv : v = v' := by simpa using hf
    rw [hv', hvv]

theorem SeriesOk.obs {byRow : Bool} {m : Mat (Val K)} {k : Int} {s : List (Val K)} (h : SeriesOk byRow m k s)
    (t : Nat) : Obs s t ↔ ((t : Int) < nTime byRow m ∧ ObsT byRow m k t) := by
  unfold Obs ObsT
  constructor
  · rintro ⟨x, hx⟩; exact ⟨((h.val t _).1 hx).1, x, ((h.val t _).1 hx).2⟩
  · rintro ⟨h1, x, hx⟩; exact ⟨x, (h.val t _).2 ⟨h1, hx⟩⟩

/-- The range of a series is exactly first to last observation. -/
structure RangeOf (byRow : Bool) (m : Mat (Val K)) (k : Int) (r : Range) : Prop where
  start_nonneg : 0 ≤ r.start
  le : r.start ≤ r.stop
  lt : r.stop < nTime byRow m
  obs_start : ObsT byRow m k r.start
  obs_stop : ObsT byRow m k r.stop
  tight : ∀ t, 0 ≤ t → t < nTime byRow m → ObsT byRow m k t → r.start ≤ t ∧ t ≤ r.stop

/-- Series `k` has a missing value between two observations. -/
def Gap (byRow : Bool) (m : Mat (Val K)) (k : Int) : Prop :=
  ∃ a t b, 0 ≤ a ∧ a < t ∧ t < b ∧ b < nTime byRow m ∧ ObsT byRow m k a ∧ ObsT byRow m k b ∧ valAt byRow m k t = .ok none

theorem range_of_series {byRow : Bool} {m : Mat (Val K)} {k : Int} {s : List (Val K)} (h : SeriesOk byRow m k s)
    (hT : 0 < nTime byRow m) :
    ∃ r b, getRangeM s = .ok (r, b) ∧ (b = true ↔ Gap byRow m k) ∧
      ((∃ t, 0 ≤ t ∧ t < nTime byRow m ∧ ObsT byRow m k t) → r.isNotValid = false ∧ RangeOf byRow m k r) ∧
      ((¬ ∃ t, 0 ≤ t ∧ t < nTime byRow m ∧ ObsT byRow m k t) → r.isNotValid = true) := by
  have hne : s ≠ [] := by
    rintro rfl; have := h.len; simp at this; omega
  obtain ⟨b, e, hb⟩ := C09_missing_flag s hne
  refine ⟨getRange s, b, e, ?_, ?_, ?_⟩
  · rw [hb]
    constructor
    · rintro ⟨a, t, c, h1, h2, o1, mi, o2⟩
      refine ⟨a, t, c, by omega, by omega, by omega, ((h.obs c).1 o2).1, ((h.obs a).1 o1).2, ((h.obs c).1 o2).2, ?_⟩
      exact ((h.val t none).1 mi).2
    · rintro ⟨a, t, c, h0, h1, h2, h3, o1, o2, mi⟩
      refine ⟨a.toNat, t.toNat, c.toNat, by omega, by omega, ?_, ?_, ?_⟩
      · rw [h.obs, show ((a.toNat : Nat) : Int) = a by omega]; exact ⟨by omega, o1⟩
      · refine (h.val _ _).2 ?_
        rw [show ((t.toNat : Nat) : Int) = t by omega]; exact ⟨by omega, mi⟩
      · rw [h.obs, show ((c.toNat : Nat) : Int) = c by omega]; exact ⟨by omega, o2⟩
  · rintro ⟨t, h0, h1, ho⟩
    obtain ⟨hv, a, c, er, hac, hcl, oa, oc, tight⟩ := C09_range_tight s ⟨t.toNat, by
      rw [h.obs, show ((t.toNat : Nat) : Int) = t by omega]; exact ⟨h1, ho⟩⟩
    refine ⟨hv, ?_⟩
    rw [er]
    refine ⟨by simp, by simpa using hac, by simp only; rw [← h.len]; omega, ((h.obs a).1 oa).2, ((h.obs c).1 oc).2, ?_⟩
    intro u hu0 hu1 hu
    have := tight u.toNat (by rw [h.obs, show ((u.toNat : Nat) : Int) = u by omega]; exact ⟨hu1, hu⟩)
    simp only; omega
  · intro hno
    rw [C09_invalid_iff_partial s hne]
    intro i hi
    have hg : s[i]? = some s[i] := List.getElem?_eq_getElem hi
    cases hx : s[i] with
    | none => unfold Miss; rw [hg, hx]
    | some x =>
      exfalso; apply hno
      have := h.len
      refine ⟨i, by omega, by omega, ((h.obs i).1 ⟨x, by rw [hg, hx]⟩).2⟩

/-- Loading the data rejects it when some series has no observation at all; otherwise the ranges are the
first-to-last-observation ranges of the series and the flag tells whether any has a gap. -/
theorem C45_ranges (byRow : Bool) (d : DsTs K) (hn : d.hasNaN = true) (hm : d.hasMissing = false)
    (m : Mat (Val K)) (w : m.Wf) (hT : 0 < nTime byRow m) :
    ((∃ k, 0 ≤ k ∧ k < nSer byRow m ∧ ¬ ∃ t, 0 ≤ t ∧ t < nTime byRow m ∧ ObsT byRow m k t) →
      d.setData byRow m = .throws) ∧
    ((∀ k, 0 ≤ k → k < nSer byRow m → ∃ t, 0 ≤ t ∧ t < nTime byRow m ∧ ObsT byRow m k t) →
      ∃ d', d.setData byRow m = .ok d' ∧ d'.pData = m ∧ d'.hasNaN = true ∧ d'.select = d.select ∧
        d'.storageSize = d.storageSize ∧ (d'.ranges.length : Int) = nSer byRow m ∧
        (∀ (k : Nat) r, d'.ranges[k]? = some r → RangeOf byRow m k r) ∧
        (d'.hasMissing = true ↔ ∃ k, 0 ≤ k ∧ k < nSer byRow m ∧ Gap byRow m k)) := by
  have hS : 0 ≤ nSer byRow m := by unfold nSer; cases byRow <;> simp [w.rows_nonneg, w.cols_nonneg]
  have hser : ∀ k ∈ upTo 0 (nSer byRow m), ∃ v, (do let s ← seriesAt byRow m k; getRangeM s) = .ok v := by
    intro k hk
    obtain ⟨s, e, hs⟩ := seriesAt_ok byRow m w k (mem_upTo.1 hk).1 (mem_upTo.1 hk).2
    obtain ⟨r, b, er, _⟩ := range_of_series hs hT
    exact ⟨(r, b), by rw [e, Outcome.ok_bind, er]⟩
  obtain ⟨rs, e, el, ev⟩ := mapM_ok_exists _ _ hser
  have key : ∀ (k : Nat) r b, rs[k]? = some (r, b) → ((k : Int) < nSer byRow m ∧ (b = true ↔ Gap byRow m k) ∧
      ((∃ t, 0 ≤ t ∧ t < nTime byRow m ∧ ObsT byRow m k t) → r.isNotValid = false ∧ RangeOf byRow m k r) ∧
      ((¬ ∃ t, 0 ≤ t ∧ t < nTime byRow m ∧ ObsT byRow m k t) → r.isNotValid = true)) := by
    intro k r b hk
    have hlt := lt_length_of_some hk
    rw [el, length_upTo] at hlt
    obtain ⟨v, hv, hf⟩ := ev k k (by rw [getElem?_upTo, if_pos (by omega)]; simp)
    rw [hk] at hv
    have hvv := Option.some.inj hv
    subst hvv
    obtain ⟨s, es, hs⟩ := seriesAt_ok byRow m w k (by omega) (by omega)
    obtain ⟨r', b', er, h1, h2, h3⟩ := range_of_series hs hT
    rw [es, Outcome.ok_bind, er] at hf
    simp only [Outcome.ok.injEq, Prod.mk.injEq] at hf
    obtain ⟨rfl, rfl⟩ := hf
    exact ⟨by omega, h1, h2, h3⟩
  have hlen : (rs.length : Int) = nSer byRow m := by rw [el, length_upTo]; omega
  have hset : d.setData byRow m = if rs.any (fun r => r.1.isNotValid) then .throws
      else .ok { d with pData := m, ranges := rs.map Prod.fst, hasMissing := d.hasMissing || rs.any (fun r => r.2) } := by
    unfold DsTs.setData
    rw [if_pos hn]
    unfold nSer at e
    rw [e, Outcome.ok_bind]
  constructor
  · rintro ⟨k, h0, h1, hno⟩
    rw [hset, if_pos]
    have hk : k.toNat < rs.length := by omega
    rw [List.any_eq_true]
    refine ⟨rs[k.toNat], List.getElem_mem hk, ?_⟩
    have := key k.toNat rs[k.toNat].1 rs[k.toNat].2 (List.getElem?_eq_getElem hk)
    rw [Int.toNat_of_nonneg h0] at this
    exact this.2.2.2 hno
  · intro hall
    rw [hset, if_neg]
    · refine ⟨_, rfl, rfl, hn, rfl, rfl, by simpa using hlen, ?_, ?_⟩
      · intro k r hk
        simp only [List.getElem?_map, Option.map_eq_some_iff] at hk
        obtain ⟨⟨r', b⟩, hk, rfl⟩ := hk
        obtain ⟨a, _, c, _⟩ := key k r' b hk
        exact (c (hall k (by omega) a)).2
      · simp only [hm, Bool.false_or, List.any_eq_true]
        constructor
        · rintro ⟨⟨r, b⟩, hmem, hb⟩
          obtain ⟨k, hk⟩ := List.getElem?_of_mem hmem
          obtain ⟨a, g, _⟩ := key k r b hk
          exact ⟨k, by omega, a, g.1 hb⟩
        · rintro ⟨k, h0, h1, hg⟩
          have hk : k.toNat < rs.length := by omega
          refine ⟨rs[k.toNat], List.getElem_mem hk, ?_⟩
          have := key k.toNat rs[k.toNat].1 rs[k.toNat].2 (List.getElem?_eq_getElem hk)
          rw [Int.toNat_of_nonneg h0] at this
          exact this.2.1.2 hg
    · rw [Bool.not_eq_true, List.any_eq_false]
      intro x hx
      obtain ⟨k, hk⟩ := List.getElem?_of_mem hx
      obtain ⟨a, _, c, _⟩ := key k x.1 x.2 hk
      rw [(c (hall k (by omega) a)).1]; simp

/-- The window `[S, E]` is the largest one: it starts at the latest first observation and ends at the
earliest last observation of the listed ranges. -/
structure Window (rs : List Range) (S E : Int) : Prop where
  ge : ∀ r ∈ rs, r.start ≤ S ∧ E ≤ r.stop
  start_at : ∃ r ∈ rs, r.start = S
  stop_at : ∃ r ∈ rs, r.stop = E

theorem bigFold (rs : List Range) : ∀ se : Int × Int,
    (∀ r ∈ rs, r.start ≤ (rs.foldl bigStep se).1 ∧ (rs.foldl bigStep se).2 ≤ r.stop) ∧
    se.1 ≤ (rs.foldl bigStep se).1 ∧ (rs.foldl bigStep se).2 ≤ se.2 ∧
    ((rs.foldl bigStep se).1 = se.1 ∨ ∃ r ∈ rs, r.start = (rs.foldl bigStep se).1) ∧
    ((rs.foldl bigStep se).2 = se.2 ∨ ∃ r ∈ rs, r.stop = (rs.foldl bigStep se).2) := by
  induction rs with
  | nil => intro se; simp
  | cons r rs ih =>
    intro se
    obtain ⟨h1, h2, h3, h4, h5⟩ := ih (bigStep se r)
    rw [List.foldl_cons]
    generalize rs.foldl bigStep (bigStep se r) = out at *
    have hb1 : r.start ≤ (bigStep se r).1 ∧ se.1 ≤ (bigStep se r).1 ∧
        ((bigStep se r).1 = se.1 ∨ (bigStep se r).1 = r.start) := by
      unfold bigStep; simp only; split_ifs <;> omega
    have hb2 : (bigStep se r).2 ≤ r.stop ∧ (bigStep se r).2 ≤ se.2 ∧
        ((bigStep se r).2 = se.2 ∨ (bigStep se r).2 = r.stop) := by
      unfold bigStep; simp only; split_ifs <;> omega
    refine ⟨?_, by omega, by omega, ?_, ?_⟩
    · intro x hx
      rcases List.mem_cons.1 hx with rfl | hx
      · constructor <;> omega
      · exact h1 x hx
    · rcases h4 with h4 | ⟨x, hx, h4⟩
      · rcases hb1.2.2 with h | h
        · left; omega
        · right; exact ⟨r, by simp, by omega⟩
      · right; exact ⟨x, by simp [hx], h4⟩
    · rcases h5 with h5 | ⟨x, hx, h5⟩
      · rcases hb2.2.2 with h | h
        · left; omega
        · right; exact ⟨r, by simp, by omega⟩
      · right; exact ⟨x, by simp [hx], h5⟩

theorem window_of_fold (rs : List Range) (hne : rs ≠ []) (h : ∀ r ∈ rs, 0 ≤ r.start ∧ r.stop ≤ intMax) :
    Window rs (rs.foldl bigStep (0, intMax)).1 (rs.foldl bigStep (0, intMax)).2 := by
  obtain ⟨h1, h2, h3, h4, h5⟩ := bigFold rs (0, intMax)
  generalize rs.foldl bigStep (0, intMax) = out at *
  simp only at h2 h3 h4 h5
  obtain ⟨x, hx⟩ := List.exists_mem_of_ne_nil rs hne
  refine ⟨h1, ?_, ?_⟩
  · rcases h4 with h4 | h4
    · refine ⟨x, hx, ?_⟩
      have := h1 x hx; have := h x hx; omega
    · exact h4
  · rcases h5 with h5 | h5
    · refine ⟨x, hx, ?_⟩
      have := h1 x hx; have := h x hx; omega
    · exact h5

theorem biggest_select (ranges : List Range) (sel : List Int) :
    (∀ k ∈ sel, 0 ≤ k ∧ k < ranges.length) → ∀ se,
    sel.foldlM (fun se i => do
      let r ← rangesAt ranges i
      pure (bigStep se r)) se = .ok ((sel.filterMap (fun k => ranges[k.toNat]?)).foldl bigStep se) := by
  induction sel with
  | nil => intro _ se; rfl
  | cons k sel ih =>
    intro h se
    have hk := h k (by simp)
    have hr : ranges[k.toNat]? = some ranges[k.toNat] := List.getElem?_eq_getElem (by omega)
    rw [List.foldlM_cons]
    have hra : rangesAt ranges k = .ok ranges[k.toNat] := by
      unfold rangesAt; rw [if_pos hk.1, hr]; rfl
    simp only [hra, Outcome.ok_bind, Outcome.pure_eq, List.filterMap_cons, hr, List.foldl_cons]
    have := ih (fun x hx => h x (List.mem_cons_of_mem _ hx)) (bigStep se ranges[k.toNat])
    simpa only [Outcome.pure_eq] using this

/-- **C45**: the estimation sample of selected series is the window from the latest first observation to the
earliest last observation of the selected series; every window in which all selected series are observed
lies inside it; the result holds exactly the values in that window; and it has no missing value unless a
selected series has a gap.  Proved when that window is not empty (the code does not check this). -/
theorem C45_window_partial (byRow : Bool) (R C : Int) (d0 d : DsTs K) (hmk : DsTs.make R C true true = .ok d0)
    (m : Mat (Val K)) (w : m.Wf) (hT : 0 < nTime byRow m) (hTmax : nTime byRow m ≤ intMax)
    (hR : m.rows ≤ R) (hC : m.cols ≤ C)
    (hset : d0.setData byRow m = .ok d) (sel : List Int) (hsel : ∀ k ∈ sel, 0 ≤ k ∧ k < nSer byRow m)
    (hne : sel ≠ []) (hnd : (sel.length : Int) ≤ nSer byRow m)
    (storage : List (Val K)) (hst : (storage.length : Int) = d.storageSize) :
    ∃ S E, biggestWithoutNaN d.ranges (some sel) = .ok (S, E) ∧
      (∀ s e, 0 ≤ s → s ≤ e → e < nTime byRow m → (∀ k ∈ sel, ∀ t, s ≤ t → t ≤ e → ObsT byRow m k t) → S ≤ s ∧ e ≤ E) ∧
      (∃ k ∈ sel, ObsT byRow m k S ∧ ∀ t, 0 ≤ t → t < S → ¬ ObsT byRow m k t) ∧
      (∃ k ∈ sel, ObsT byRow m k E ∧ ∀ t, E < t → t < nTime byRow m → ¬ ObsT byRow m k t) ∧
      (S ≤ E → ∃ res, d.update byRow (some sel) storage = .ok (S, E, res) ∧
        nTime byRow res = E - S + 1 ∧ nSer byRow res = sel.length ∧
        (∀ (b : Nat) (k t : Int), sel[b]? = some k → 0 ≤ t → t ≤ E - S →
          valAt byRow res b t = valAt byRow m k (S + t)) ∧
        ((∀ k ∈ sel, ¬ Gap byRow m k) → ∀ (b t : Int), 0 ≤ b → b < sel.length → 0 ≤ t → t ≤ E - S →
          ObsT byRow res b t)) := by
  unfold DsTs.make at hmk
  split_ifs at hmk with hneg
  have hmk' := Outcome.ok.inj hmk
  subst hmk'
  obtain ⟨c1, c2⟩ := C45_ranges byRow (⟨true, true, R * C, ⟨0, 0, none⟩, [], false⟩ : DsTs K) rfl rfl m w hT
  by_cases hall : ∀ k, 0 ≤ k → k < nSer byRow m → ∃ t, 0 ≤ t ∧ t < nTime byRow m ∧ ObsT byRow m k t
  swap
  · exfalso
    rw [c1 (by
      push Not at hall
      obtain ⟨k, h0, h1, h2⟩ := hall
      exact ⟨k, h0, h1, by push Not; exact h2⟩)] at hset
    simp at hset
  obtain ⟨d', e', hp, hhn, hse, hss, hlen, hrange, -⟩ := c2 hall
  rw [e'] at hset
  have := Outcome.ok.inj hset
  subst this
  simp only at hse hss
  have hsel' : ∀ k ∈ sel, 0 ≤ k ∧ k < (d'.ranges.length : Int) := by rw [hlen]; exact hsel
  have hbig := biggest_select d'.ranges sel hsel' (0, intMax)
  have hrs : ∀ r, r ∈ sel.filterMap (fun k => d'.ranges[k.toNat]?) ↔ ∃ k ∈ sel, d'.ranges[k.toNat]? = some r := by
    intro r; simp [List.mem_filterMap]
  have hof : ∀ r ∈ sel.filterMap (fun k => d'.ranges[k.toNat]?), ∃ k ∈ sel, RangeOf byRow m k r := by
    intro r hr
    obtain ⟨k, hk, hkr⟩ := (hrs r).1 hr
    have := hrange k.toNat r hkr
    rw [show ((k.toNat : Nat) : Int) = k by have := hsel k hk; omega] at this
    exact ⟨k, hk, this⟩
  have hto : ∀ k ∈ sel, ∃ r ∈ sel.filterMap (fun k => d'.ranges[k.toNat]?), RangeOf byRow m k r := by
    intro k hk
    have hk' := hsel' k hk
    have hr : d'.ranges[k.toNat]? = some d'.ranges[k.toNat] := List.getElem?_eq_getElem (by omega)
    refine ⟨_, (hrs _).2 ⟨k, hk, hr⟩, ?_⟩
    have := hrange k.toNat _ hr
    rwa [show ((k.toNat : Nat) : Int) = k by omega] at this
  have hwin := window_of_fold (sel.filterMap (fun k => d'.ranges[k.toNat]?))
    (by
      obtain ⟨k, hk⟩ := List.exists_mem_of_ne_nil sel hne
      obtain ⟨r, hr, _⟩ := hto k hk
      exact List.ne_nil_of_mem hr)
    (by
      intro r hr
      obtain ⟨k, hk, ho⟩ := hof r hr
      have := ho.lt
      exact ⟨ho.start_nonneg, by omega⟩)
  generalize hout : (sel.filterMap (fun k => d'.ranges[k.toNat]?)).foldl bigStep (0, intMax) = out at hbig hwin
  obtain ⟨S, E⟩ := out
  simp only at hwin
  have hS0 : 0 ≤ S ∧ E < nTime byRow m := by
    obtain ⟨r, hr, e1⟩ := hwin.start_at
    obtain ⟨r2, hr2, e2⟩ := hwin.stop_at
    obtain ⟨k, hk, ho⟩ := hof r hr
    obtain ⟨k2, hk2, ho2⟩ := hof r2 hr2
    have := ho.start_nonneg; have := ho2.lt
    constructor <;> omega
  refine ⟨S, E, hbig, ?_, ?_, ?_, ?_⟩
  · intro s e hs hse' he hobs
    obtain ⟨r, hr, e1⟩ := hwin.start_at
    obtain ⟨r2, hr2, e2⟩ := hwin.stop_at
    obtain ⟨k, hk, ho⟩ := hof r hr
    obtain ⟨k2, hk2, ho2⟩ := hof r2 hr2
    have h1 := ho.tight s hs (by omega) (hobs k hk s (le_refl _) hse')
    have h2 := ho2.tight e (by omega) he (hobs k2 hk2 e hse' (le_refl _))
    constructor <;> omega
  · obtain ⟨r, hr, e1⟩ := hwin.start_at
    obtain ⟨k, hk, ho⟩ := hof r hr
    refine ⟨k, hk, e1 ▸ ho.obs_start, ?_⟩
    intro t ht0 ht1 hob
    have := ho.tight t ht0 (by have := ho.lt; have := ho.le; omega) hob
    omega
  · obtain ⟨r, hr, e1⟩ := hwin.stop_at
    obtain ⟨k, hk, ho⟩ := hof r hr
    refine ⟨k, hk, e1 ▸ ho.obs_stop, ?_⟩
    intro t ht0 ht1 hob
    have := ho.tight t (by have := ho.start_nonneg; have := ho.le; omega) ht1 hob
    omega
  · intro hSE
    have hwf : ∀ r ∈ sel.filterMap (fun k => d'.ranges[k.toNat]?), r.start ≤ S ∧ E ≤ r.stop := hwin.ge
    have hr0 := w.rows_nonneg
    have hc0 := w.cols_nonneg
    obtain ⟨res, hcopy, hres⟩ : ∃ res, d'.pData.getSubIdx S (E - S + 1) sel (byRow == false)
        (if byRow then ⟨sel.length, E - S + 1, some storage⟩ else ⟨E - S + 1, sel.length, some storage⟩) 0 0 false
          = .ok res ∧ Copied m (if byRow then ⟨sel.length, E - S + 1, some storage⟩ else ⟨E - S + 1, sel.length, some storage⟩)
            (if byRow then sel else upTo S (S + (E - S + 1))) (if byRow then upTo S (S + (E - S + 1)) else sel) 0 0 res := by
      rw [hp]
      have hmulA : ∀ a b, 0 ≤ a → a ≤ R → 0 ≤ b → b ≤ C → a * b ≤ (storage.length : Int) := by
        intro a b ha1 ha2 hb1 hb2
        rw [hst, hss]
        exact mul_le_mul ha2 hb2 hb1 (by omega)
      cases byRow with
      | true =>
        simp only [if_true, nSer, nTime] at *
        obtain ⟨res, e, cp⟩ := C35_get_sub_range m ⟨sel.length, E - S + 1, some storage⟩ w
          (.of_storage storage (by omega) (by omega) (hmulA _ _ (by omega) (by omega) (by omega) (by omega)))
          S (E - S + 1) sel false false 0 0 (le_refl _) (le_refl _) hS0.1 (by omega) (by simp only [Bool.false_eq_true, if_false]; omega)
          (by simpa using hsel) (by simp) sel (by simp) (by simp) (by simp)
        exact ⟨res, e, by simpa using cp⟩
      | false =>
        simp only [Bool.false_eq_true, if_false, nSer, nTime] at *
        obtain ⟨res, e, cp⟩ := C35_get_sub_range m ⟨E - S + 1, sel.length, some storage⟩ w
          (.of_storage storage (by omega) (by omega) (hmulA _ _ (by omega) (by omega) (by omega) (by omega)))
          S (E - S + 1) sel true false 0 0 (le_refl _) (le_refl _) hS0.1 (by omega) (by simp only [if_true]; omega)
          (by simpa using hsel) (by simp) sel (by simp) (by simp) (by simp)
        exact ⟨res, e, by simpa using cp⟩
    have hvals : ∀ (b : Nat) (k t : Int), sel[b]? = some k → 0 ≤ t → t ≤ E - S →
        valAt byRow res b t = valAt byRow m k (S + t) := by
      intro b k t hb ht0 ht1
      have hup : (upTo S (S + (E - S + 1)))[t.toNat]? = some (S + t) := by
        rw [getElem?_upTo, if_pos (by omega)]; congr 1; omega
      cases byRow with
      | true =>
        simp only [if_true] at hres
        have := hres.block b t.toNat k (S + t) hb hup
        rw [show ((t.toNat : Nat) : Int) = t by omega] at this
        simpa [valAt] using this
      | false =>
        simp only [Bool.false_eq_true, if_false] at hres
        have := hres.block t.toNat b (S + t) k hup hb
        rw [show ((t.toNat : Nat) : Int) = t by omega] at this
        simpa [valAt] using this
    refine ⟨res, ?_, ?_, ?_, hvals, ?_⟩
    · unfold DsTs.update
      have hb' : biggestWithoutNaN d'.ranges (some sel) = .ok (S, E) := hbig
      simp only [hse, hhn, if_true, hb', Outcome.ok_bind, hcopy]
      rfl
    · have h1 := hres.shape.rows
      have h2 := hres.shape.cols
      cases byRow <;> simp only [Bool.false_eq_true, if_false, if_true, nTime] at * <;> assumption
    · have h1 := hres.shape.rows
      have h2 := hres.shape.cols
      cases byRow <;> simp only [Bool.false_eq_true, if_false, if_true, nSer] at * <;> assumption
    · intro hgap b t hb0 hb1 ht0 ht1
      have hbn : b.toNat < sel.length := by omega
      have hg : sel[b.toNat]? = some sel[b.toNat] := List.getElem?_eq_getElem hbn
      have hk := List.getElem_mem hbn
      generalize sel[b.toNat] = k at hg hk
      unfold ObsT
      rw [show b = ((b.toNat : Nat) : Int) by omega, hvals b.toNat k t hg ht0 ht1]
      obtain ⟨r, hr, ho⟩ := hto k hk
      have hin := hwf r hr
      have hkin := hsel k hk
      obtain ⟨s, es, hs⟩ := seriesAt_ok byRow m w k hkin.1 hkin.2
      have ht : (S + t).toNat < s.length := by have := hs.len; omega
      have hv := (hs.val (S + t).toNat s[(S + t).toNat]).1 (List.getElem?_eq_getElem ht)
      rw [show (((S + t).toNat : Nat) : Int) = S + t by omega] at hv
      rw [hv.2]
      cases hx : s[(S + t).toNat] with
      | some x => exact ⟨x, rfl⟩
      | none =>
        exfalso
        rw [hx] at hv
        apply hgap k hk
        have hne1 : r.start ≠ S + t := by
          intro h
          obtain ⟨x, ho1⟩ := ho.obs_start
          rw [h, hv.2] at ho1; simp at ho1
        have hne2 : r.stop ≠ S + t := by
          intro h
          obtain ⟨x, ho1⟩ := ho.obs_stop
          rw [h, hv.2] at ho1; simp at ho1
        exact ⟨r.start, S + t, r.stop, ho.start_nonneg, by omega, by omega, ho.lt, ho.obs_start, ho.obs_stop, hv.2⟩

/-- Series without a common period are not rejected: the result gets a negative number of rows. -/
theorem C45_violated_disjoint :
    (do
      let d0 ← DsTs.make (K := Rat) 3 2 true true
      let d ← d0.setData false ⟨3, 2, some [some 1, none, none, none, none, some 2]⟩
      let r ← d.update false (some [0, 1]) (List.replicate 6 none)
      pure (r.1, r.2.1, r.2.2.rows)) = .ok (2, 0, -1) := by
  decide +kernel

/-- The documented "no NaN" does not hold when a series has a gap. -/
theorem C45_violated_gap :
    (do
      let d0 ← DsTs.make (K := Rat) 3 1 true true
      let d ← d0.setData false ⟨3, 1, some [some 1, none, some 3]⟩
      let r ← d.update false (some [0]) (List.replicate 3 none)
      r.2.2.get 1 0) = .ok none := by
  decide +kernel

/-- A concrete case of the hypotheses: the window of two overlapping series. -/
example :
    (do
      let d0 ← DsTs.make (K := Rat) 4 2 true true
      let d ← d0.setData false ⟨4, 2, some [some 1, some 2, some 3, none, none, some 5, some 6, some 7]⟩
      let r ← d.update false (some [0, 1]) (List.replicate 8 none)
      let v ← r.2.2.get 1 1
      pure (r.1, r.2.1, v)) = .ok (1, 2, some 6) := by
  decide +kernel

end Mx
end LDT
