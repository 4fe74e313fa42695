import Verif.Lemmas.Array
import Mathlib.Algebra.Order.Field.Rat
/-!
# C09 data range, C11 interpolation, C12 equal partitioning, C40 extremes and first/last
-/
namespace LDT
namespace Arr
variable {K : Type}

/-- Cell `i` of the array holds an observed number. -/
def Obs (d : List (Val K)) (i : Nat) : Prop := ∃ x, d[i]? = some (some x)

/-- Cell `i` of the array holds NaN. -/
def Miss (d : List (Val K)) (i : Nat) : Prop := d[i]? = some none

theorem getRange_of_obs (d : List (Val K)) (hne : d ≠ []) (h : ∃ i, Obs d i) :
    getRange d = ⟨scanStart d, scanEnd d d.length⟩ ∧ scanStart d ≤ scanEnd d d.length ∧
    scanEnd d d.length < d.length ∧ Obs d (scanStart d) ∧ Obs d (scanEnd d d.length) ∧
      (∀ i, i < scanStart d → Miss d i) ∧ (∀ i, scanEnd d d.length < i → i < d.length → Miss d i) := by
  obtain ⟨i, x, hx⟩ := h
  rcases range_cases d hne with ⟨h1, h2, h3⟩ | ⟨h1, h2, h3, h4, h5, h6⟩
  · have hi : i < d.length := by
      by_contra hc; rw [List.getElem?_eq_none (by omega)] at hx; simp at hx
    rw [h3 i hi] at hx; simp at hx
  · refine ⟨?_, h1, h2, h3, h4, h5, h6⟩
    unfold getRange Range.make
    rw [if_neg (by omega)]

/-! ## C09 -/

/-- **C09**: when some value is observed, the reported range is valid, its two ends are observations, it
lies in the array, and every observation lies inside it. -/
theorem C09_range_tight (d : List (Val K)) (h : ∃ i, Obs d i) :
    (getRange d).isNotValid = false ∧
    ∃ s e : Nat, getRange d = ⟨s, e⟩ ∧ s ≤ e ∧ e < d.length ∧ Obs d s ∧ Obs d e ∧ ∀ i, Obs d i → s ≤ i ∧ i ≤ e := by
  have hne : d ≠ [] := by rintro rfl; obtain ⟨i, x, hx⟩ := h; simp at hx
  obtain ⟨h1, h2, h3, h4, h5, h6, h7⟩ := getRange_of_obs d hne h
  refine ⟨by rw [h1]; simp [Range.isNotValid]; omega, _, _, h1, h2, h3, h4, h5, ?_⟩
  rintro i ⟨x, hx⟩
  constructor
  · by_contra hc
    rw [h6 i (by omega)] at hx; simp at hx
  · by_contra hc
    have : i < d.length := by
      by_contra hc; rw [List.getElem?_eq_none (by omega)] at hx; simp at hx
    rw [h7 i (by omega) this] at hx; simp at hx

/-- **C09**: for a non-empty array the range is invalid exactly when every value is missing.
Partial: for the empty array the range is reported as valid (`C09_violated_empty`). -/
theorem C09_invalid_iff_partial (d : List (Val K)) (hne : d ≠ []) :
    (getRange d).isNotValid = true ↔ ∀ i, i < d.length → Miss d i := by
  constructor
  · intro h i hi
    by_contra hc
    have hg : d[i]? = some d[i] := List.getElem?_eq_getElem hi
    have : Obs d i := by
      cases hx : d[i] with
      | none => exact absurd (by rw [Miss, hg, hx]) hc
      | some x => exact ⟨x, by rw [hg, hx]⟩
    rw [(C09_range_tight d ⟨i, this⟩).1] at h
    exact absurd h (by simp)
  · intro h
    rcases range_cases d hne with ⟨h1, h2, h3⟩ | ⟨h1, h2, ⟨x, h3⟩, h4, h5, h6⟩
    · unfold getRange Range.make
      have := List.length_pos_iff.2 hne
      rw [if_pos (by omega)]
      rfl
    · rw [h (scanStart d) (by omega)] at h3; simp at h3

/-- **C09**: the missing flag is set exactly when a missing value lies strictly between the first and
last observation; the range is the one reported by the version without the flag. -/
theorem C09_missing_flag (d : List (Val K)) (hne : d ≠ []) :
    ∃ m, getRangeM d = .ok (getRange d, m) ∧
      (m = true ↔ ∃ a i b, a < i ∧ i < b ∧ Obs d a ∧ Miss d i ∧ Obs d b) := by
  rcases range_cases d hne with ⟨h1, h2, h3⟩ | ⟨h1, h2, h3, h4, h5, h6⟩
  · refine ⟨false, ?_, ?_⟩
    · unfold getRangeM getRange
      have := List.length_pos_iff.2 hne
      rw [if_pos (by omega)]
    · simp only [Bool.false_eq_true, false_iff]
      rintro ⟨a, i, b, -, -, ⟨x, hx⟩, -, -⟩
      have hi : a < d.length := by
        by_contra hc; rw [List.getElem?_eq_none (by omega)] at hx; simp at hx
      rw [h3 a hi] at hx; simp at hx
  · obtain ⟨m, hm, hiff⟩ := scanMissing_spec d (scanEnd d d.length - scanStart d + 1) (scanStart d) (by omega)
    refine ⟨m, ?_, hiff.trans ?_⟩
    · unfold getRangeM getRange
      rw [if_neg (by omega)]
      simp only [hm, Outcome.ok_bind, Outcome.pure_eq]
    · obtain ⟨x3, h3⟩ := h3
      obtain ⟨x4, h4⟩ := h4
      constructor
      · rintro ⟨j, j1, j2, j3⟩
        refine ⟨scanStart d, j, scanEnd d d.length, ?_, ?_, ⟨x3, h3⟩, j3, ⟨x4, h4⟩⟩
        · rcases Nat.lt_or_eq_of_le j1 with h | h
          · exact h
          · subst h; rw [h3] at j3; simp at j3
        · have : j ≠ scanEnd d d.length := by rintro rfl; rw [h4] at j3; simp at j3
          omega
      · rintro ⟨a, i, b, ai, ib, ⟨xa, ha⟩, hi, ⟨xb, hb⟩⟩
        refine ⟨i, ?_, ?_, hi⟩
        · by_contra hc
          rw [h5 a (by omega)] at ha; simp at ha
        · by_contra hc
          have hbl : b < d.length := by
            by_contra hc; rw [List.getElem?_eq_none (by omega)] at hb; simp at hb
          rw [h6 b (by omega) hbl] at hb; simp at hb

/-- The empty array: the range `(0, 0)` is reported, which counts as valid although there is no
observation, and the version with the flag reads outside the array. -/
theorem C09_violated_empty :
    (getRange ([] : List (Val Rat))).isNotValid = false ∧ getRangeM ([] : List (Val Rat)) = .ub := by
  constructor <;> rfl

/-- A non-trivial array. -/
example : getRange [none, some (1 : Rat), none, some 3, none] = ⟨1, 3⟩ := by decide

/-! ## C11 -/

/-- **C11**: interpolation (of a non-empty array) succeeds and reports the data range; observed values
and the missing values outside the range do not change; every missing value between two observations is
replaced by the value on the straight line through its neighbouring observations; the count is the number
of replaced values. -/
theorem C11_interpolate [Field K] [CharZero K] [DecidableEq K] (d : List (Val K)) (hne : d ≠ []) :
    ∃ out n, interpolate d = .ok (out, getRange d, n) ∧ out.length = d.length ∧
      (∀ i, Obs d i → out[i]? = d[i]?) ∧
      (∀ i, Miss d i → (¬ ∃ a b, a < i ∧ i < b ∧ Obs d a ∧ Obs d b) → Miss out i) ∧
      (∀ i, Miss d i → (∃ a b, a < i ∧ i < b ∧ Obs d a ∧ Obs d b) → OnLine d out i) ∧
      n = ((List.range d.length).filter (fun i => decide (out[i]? ≠ d[i]?))).length := by
  obtain ⟨m, hm, hiff⟩ := C09_missing_flag d hne
  unfold interpolate
  rw [hm]
  simp only [Outcome.ok_bind]
  cases m with
  | false =>
    refine ⟨d, 0, by simp, rfl, fun _ _ => rfl, fun i hi _ => hi, ?_, ?_⟩
    · rintro i hi ⟨a, b, h1, h2, h3, h4⟩
      exact absurd (hiff.2 ⟨a, i, b, h1, h2, h3, hi, h4⟩) (by simp)
    · simp
  | true =>
    obtain ⟨a0, i0, b0, -, -, ho, -, -⟩ := hiff.1 rfl
    obtain ⟨h1, h2, h3, h4, h5, h6, h7⟩ := getRange_of_obs d hne ⟨a0, ho⟩
    have hcnt : (getRange d).count.toNat = scanEnd d d.length - scanStart d + 1 := by
      rw [h1]; simp [Range.count]; omega
    have hst : (getRange d).start.toNat = scanStart d := by rw [h1]; simp
    rw [hcnt, hst]
    simp only [if_true]
    generalize hS : scanStart d = s at *
    generalize hE : scanEnd d d.length = e at *
    -- first iteration
    obtain ⟨xs, hxs⟩ := h4
    have hinit : Inv d s (interStep { data := d, count := 0, inMissing := false, first := none, length := 1 } s) (s + 1) s := by
      unfold interStep
      simp only [hxs, Option.getD_some, Option.isNone_some, Bool.false_eq_true, if_false, false_and]
      refine ⟨Nat.le_refl _, by omega, rfl, ⟨⟨xs, hxs⟩, by intro k h1 h2; omega⟩, ?_, ?_, ?_, ?_, ?_, ?_⟩
      · intro j; exact ⟨fun _ x hx => hx, fun _ => rfl, fun _ => rfl⟩
      · intro j h1 h2; omega
      · simp
      · simp
      · intro h; omega
      · rw [missingIn_self]
    obtain ⟨a, hinv⟩ := inv_loop d s (e - s) _ (s + 1) s hinit (by omega)
    rw [show s + 1 + (e - s) = e + 1 by omega] at hinv
    have hloop : interLoop s (e - s + 1) { data := d, count := 0, inMissing := false, first := none, length := 1 } =
        interLoop (s + 1) (e - s) (interStep { data := d, count := 0, inMissing := false, first := none, length := 1 } s) := rfl
    rw [hloop]
    generalize interLoop (s + 1) (e - s) (interStep ({ data := d, count := 0, inMissing := false, first := none, length := 1 } : IState K) s) = st at *
    have hae : a = e := by
      by_contra hc
      have h8 := hinv.hi
      obtain ⟨xe, hxe⟩ := h5
      rw [hinv.gap.2 e (by omega) (by omega)] at hxe; simp at hxe
    subst hae
    have hmid : ∀ i, Miss d i → ((∃ p q, p < i ∧ i < q ∧ Obs d p ∧ Obs d q) ↔ (s ≤ i ∧ i < a)) := by
      intro i hi
      constructor
      · rintro ⟨p, q, p1, q1, ⟨xp, hp⟩, ⟨xq, hq⟩⟩
        constructor
        · by_contra hc
          rw [h6 p (by omega)] at hp; simp at hp
        · by_contra hc
          have hql : q < d.length := by
            by_contra hc; rw [List.getElem?_eq_none (by omega)] at hq; simp at hq
          rw [h7 q (by omega) hql] at hq; simp at hq
      · rintro ⟨q1, q2⟩
        refine ⟨s, a, ?_, q2, ⟨xs, hxs⟩, h5⟩
        rcases Nat.lt_or_eq_of_le q1 with h | h
        · exact h
        · subst h; rw [Miss, hxs] at hi; simp at hi
    have hobs : ∀ i, Obs d i → st.data[i]? = d[i]? := by
      rintro i ⟨x, hx⟩
      rcases Nat.lt_or_ge a i with h | h
      · exact (hinv.keep i).2.1 h
      · rw [(hinv.keep i).1 h x hx, hx]
    have hout : ∀ i, Miss d i → ¬ (s ≤ i ∧ i < a) → st.data[i]? = d[i]? := by
      intro i hi hc
      have : i ≠ a := by
        rintro rfl; obtain ⟨y, hy⟩ := h5; rw [Miss, hy] at hi; simp at hi
      rcases Nat.lt_or_ge a i with h | h
      · exact (hinv.keep i).2.1 h
      · exact (hinv.keep i).2.2 (by omega)
    refine ⟨st.data, st.count, rfl, hinv.len, hobs, ?_, ?_, ?_⟩
    · intro i hi hc
      rw [hmid i hi] at hc
      show st.data[i]? = some none
      rw [hout i hi hc]; exact hi
    · intro i hi hc
      rw [hmid i hi] at hc
      exact hinv.fill i hc.1 hc.2 hi
    · rw [hinv.cnt]
      unfold missingIn
      have hsplit : List.range d.length = List.range s ++ (List.range' s (a - s) ++ List.range' a (d.length - a)) := by
        rw [List.range_eq_range', List.range_eq_range']
        have e1 : List.range' s (a - s) ++ List.range' a (d.length - a) = List.range' s (d.length - s) := by
          have := List.range'_append (s := s) (m := a - s) (n := d.length - a) (step := 1)
          rw [show s + 1 * (a - s) = a by omega, show a - s + (d.length - a) = d.length - s by omega] at this
          exact this
        rw [e1]
        have := List.range'_append (s := 0) (m := s) (n := d.length - s) (step := 1)
        rw [show 0 + 1 * s = s by omega, show s + (d.length - s) = d.length by omega] at this
        exact this.symm
      rw [hsplit, List.filter_append, List.filter_append, List.length_append, List.length_append]
      have z1 : (List.range s).filter (fun i => decide (st.data[i]? ≠ d[i]?)) = [] := by
        rw [List.filter_eq_nil_iff]
        intro i hi
        have hi := List.mem_range.1 hi
        simp only [decide_eq_true_eq, not_not]
        exact (hinv.keep i).2.2 hi
      have z2 : (List.range' a (d.length - a)).filter (fun i => decide (st.data[i]? ≠ d[i]?)) = [] := by
        rw [List.filter_eq_nil_iff]
        intro i hi
        have hi := List.mem_range'_1.1 hi
        simp only [decide_eq_true_eq, not_not]
        rcases Nat.lt_or_eq_of_le hi.1 with h | h
        · exact (hinv.keep i).2.1 h
        · subst h; exact hobs _ h5
      rw [z1, z2]
      simp only [List.length_nil, Nat.zero_add, Nat.add_zero]
      congr 1
      apply List.filter_congr
      intro i hi
      have hi := List.mem_range'_1.1 hi
      have hg : d[i]? = some d[i] := List.getElem?_eq_getElem (by omega)
      cases hx : d[i] with
      | some x =>
        rw [hx] at hg
        have := hobs i ⟨x, hg⟩
        simp [this, hg]
      | none =>
        rw [hx] at hg
        obtain ⟨_, _, _, _, _, _, _, _, _, q⟩ := hinv.fill i hi.1 (by omega) hg
        simp [hg, q]

/-- A non-trivial interpolation. -/
example : interpolate [none, some (1 : Rat), none, none, some 4, none] =
    .ok ([none, some 1, some 2, some 3, some 4, none], ⟨1, 4⟩, 2) := by
  decide +kernel

/-! ## C12 -/
section
variable {α : Type}

/-- **C12**, forward direction: the chunks put together are the data, none is empty, all but the last
have the requested size. -/
theorem C12_forward (d : List α) (size : Nat) (hs : 0 < size) :
    ∃ r, partitionEqual d size false = .ok r ∧ r.flatten = d ∧
      (∀ c ∈ r, c ≠ [] ∧ c.length ≤ size) ∧ (∀ c ∈ r.dropLast, c.length = size) := by
  obtain ⟨r, h1, h2, h3, h4⟩ := partFwd_spec d size hs (d.length + 2) 0 [] (by omega) rfl (by simp) (by simp) (by simp)
  exact ⟨r, h1, h2, fun c hc => ⟨List.length_pos_iff.1 (h3 c hc).1, (h3 c hc).2⟩, h4⟩

/-- **C12**, from the end: the chunks put together are the data and all but the first have the requested
size; the first has the remainder.  Partial: the first chunk is empty whenever the size divides the
length (`C12_violated_fromEnd`). -/
theorem C12_fromEnd_partial (d : List α) (size : Nat) (hs : 0 < size) :
    ∃ h t, partitionEqual d size true = .ok (h :: t) ∧ (h :: t).flatten = d ∧
      h.length = d.length % size ∧ (∀ c ∈ t, c.length = size) := by
  obtain ⟨h, t, h1, h2, h3, h4⟩ := partBack_spec d size hs (d.length + 2) d.length [] (by omega) (by omega) (by simp)
    (by simp)
  exact ⟨h, t, h1, h2, h3, h4⟩

/-- **C12** holds from the end when the size does not divide the length: no chunk is empty. -/
theorem C12_fromEnd_indivisible_partial (d : List α) (size : Nat) (hs : 0 < size) (hd : ¬ size ∣ d.length) :
    ∃ r, partitionEqual d size true = .ok r ∧ r.flatten = d ∧ (∀ c ∈ r, c ≠ []) ∧
      (∀ c ∈ r.tail, c.length = size) := by
  obtain ⟨h, t, h1, h2, h3, h4⟩ := C12_fromEnd_partial d size hs
  refine ⟨_, h1, h2, ?_, h4⟩
  intro c hc hn
  subst hn
  rcases List.mem_cons.1 hc with e | e
  · subst e
    exact hd (Nat.dvd_of_mod_eq_zero (by simpa using h3.symm))
  · have := h4 _ e; simp at this; omega

/-- The first chunk is empty whenever the size divides the length, for every such array. -/
theorem C12_violated_fromEnd (d : List α) (size : Nat) (hs : 0 < size) (hd : size ∣ d.length) :
    ∃ t, partitionEqual d size true = .ok ([] :: t) := by
  obtain ⟨h, t, h1, -, h3, -⟩ := C12_fromEnd_partial d size hs
  rw [Nat.mod_eq_zero_of_dvd hd] at h3
  rw [List.length_eq_zero_iff.1 h3] at h1
  exact ⟨t, h1⟩

/-- Size 0 is not rejected: the loop never ends (forward: for non-empty data). -/
theorem C12_size_zero (d : List α) (hne : d ≠ []) :
    partitionEqual d 0 true = .diverges ∧ partitionEqual d 0 false = .diverges := by
  have hb : ∀ fuel (i : Int) acc, 0 ≤ i → partBack d 0 fuel i acc = .diverges := by
    intro fuel
    induction fuel with
    | zero => intros; rfl
    | succ fuel ih =>
      intro i acc hi
      unfold partBack
      rw [if_pos (by omega)]
      exact ih _ _ (by simpa using hi)
  have hf : ∀ fuel i acc, i < d.length → partFwd d 0 fuel i acc = .diverges := by
    intro fuel
    induction fuel with
    | zero => intros; rfl
    | succ fuel ih =>
      intro i acc hi
      unfold partFwd
      rw [if_pos hi]
      exact ih _ _ (by simpa using hi)
  exact ⟨hb _ _ _ (by omega), hf _ _ _ (List.length_pos_iff.2 hne)⟩

example : partitionEqual [1, 2, 3, 4, 5] 2 true = .ok [[1], [2, 3], [4, 5]] ∧
    partitionEqual [1, 2, 3, 4, 5] 2 false = .ok [[1, 2], [3, 4], [5]] ∧
    partitionEqual [1, 2, 3, 4] 2 true = .ok [[], [1, 2], [3, 4]] := ⟨rfl, rfl, rfl⟩

end

/-! ## C40: extremes, first and last -/
section
variable [LinearOrder K]

/-- State of the minimum search after a prefix. -/
def MinInv (p : List (Val K)) (s : Ext K × Int) : Prop :=
  (s = (.posInf, -1) ∧ ∀ v ∈ p, v = none) ∨
  (∃ (x : K) (i : Nat), s = (.val x, (i : Int)) ∧ p[i]? = some (some x) ∧ (∀ y, some y ∈ p → x ≤ y) ∧
    ∀ (j : Nat) y, j < i → p[j]? = some (some y) → x < y)

theorem minLoop (skip : Bool) (r : List (Val K)) : ∀ (p : List (Val K)) s, MinInv p s →
    MinInv (p ++ r) (extremeLoop ltMin skip p.length r s) := by
  induction r with
  | nil => intro p s h; simpa [extremeLoop] using h
  | cons v r ih =>
    intro p s h
    have key : ∀ s', MinInv (p ++ [v]) s' →
        MinInv (p ++ v :: r) (extremeLoop ltMin skip (p.length + 1) r s') := by
      intro s' h'
      have := ih (p ++ [v]) s' h'
      simpa using this
    unfold extremeLoop
    cases v with
    | none =>
      have hk : MinInv (p ++ [none]) s := by
        rcases h with ⟨h1, h2⟩ | ⟨x, i, h1, h2, h3, h4⟩
        · left; refine ⟨h1, ?_⟩
          intro v hv
          rcases List.mem_append.1 hv with h | h
          · exact h2 v h
          · simpa using h
        · right
          have hi : i < p.length := by
            by_contra hc; rw [List.getElem?_eq_none (by omega)] at h2; simp at h2
          refine ⟨x, i, h1, by rw [List.getElem?_append_left hi, h2], ?_, ?_⟩
          · intro y hy; simp at hy; exact h3 y hy
          · intro j y hj hy
            rw [List.getElem?_append_left (by omega)] at hy
            exact h4 j y hj hy
      by_cases hs : skip = true ∧ (none : Val K).isNone = true
      · rw [if_pos hs]; exact key s hk
      · rw [if_neg hs]
        simp only [ltMin, Bool.false_eq_true, if_false]
        exact key s hk
    | some y =>
      rw [if_neg (by simp)]
      have hlast : (p ++ [some y])[p.length]? = some (some y) := by simp
      rcases h with ⟨h1, h2⟩ | ⟨x, i, h1, h2, h3, h4⟩
      · rw [h1]
        simp only [ltMin, if_true]
        refine key _ (Or.inr ⟨y, p.length, rfl, hlast, ?_, ?_⟩)
        · intro z hz
          rcases List.mem_append.1 hz with h | h
          · have := h2 _ h; simp at this
          · simp at h; rw [h]
        · intro j z hj hz
          rw [List.getElem?_append_left hj] at hz
          have := h2 _ (List.mem_of_getElem? hz); simp at this
      · have hi : i < p.length := by
          by_contra hc; rw [List.getElem?_eq_none (by omega)] at h2; simp at h2
        rw [h1]
        simp only [ltMin, decide_eq_true_eq]
        by_cases hlt : y < x
        · rw [if_pos hlt]
          refine key _ (Or.inr ⟨y, p.length, rfl, hlast, ?_, ?_⟩)
          · intro z hz
            rcases List.mem_append.1 hz with h | h
            · exact le_of_lt (lt_of_lt_of_le hlt (h3 z h))
            · simp at h; rw [h]
          · intro j z hj hz
            rw [List.getElem?_append_left hj] at hz
            exact lt_of_lt_of_le hlt (h3 z (List.mem_of_getElem? hz))
        · rw [if_neg hlt]
          refine key _ (Or.inr ⟨x, i, rfl, by rw [List.getElem?_append_left hi, h2], ?_, ?_⟩)
          · intro z hz
            rcases List.mem_append.1 hz with h | h
            · exact h3 z h
            · simp at h; rw [h]; exact not_lt.1 hlt
          · intro j z hj hz
            rw [List.getElem?_append_left (by omega)] at hz
            exact h4 j z hj hz

/-- **C40**, minimum: when some value is observed, the result is the smallest observed value together with
the first position where it occurs, whether or not skipping of missing values was requested. -/
theorem C40_min (skip : Bool) (d : List (Val K)) (h : ∃ i, Obs d i) :
    ∃ (x : K) (i : Nat), minIndex skip d = (.val x, (i : Int)) ∧ d[i]? = some (some x) ∧
      (∀ y, some y ∈ d → x ≤ y) ∧ ∀ j < i, d[j]? ≠ some (some x) := by
  have hne : d.length ≠ 0 := by
    intro h0; obtain ⟨i, x, hx⟩ := h
    rw [List.length_eq_zero_iff.1 h0] at hx; simp at hx
  have := minLoop skip d [] (.posInf, -1) (Or.inl ⟨rfl, by simp⟩)
  simp only [List.nil_append, List.length_nil] at this
  unfold minIndex
  rw [if_neg hne]
  rcases this with ⟨-, h2⟩ | ⟨x, i, h1, h2, h3, h4⟩
  · obtain ⟨i, x, hx⟩ := h
    have := h2 _ (List.mem_of_getElem? hx); simp at this
  · exact ⟨x, i, h1, h2, h3, fun j hj hx => lt_irrefl _ (h4 j x hj hx)⟩

/-- State of the maximum search after a prefix. -/
def MaxInv (p : List (Val K)) (s : Ext K × Int) : Prop :=
  (s = (.negInf, -1) ∧ ∀ v ∈ p, v = none) ∨
  (∃ (x : K) (i : Nat), s = (.val x, (i : Int)) ∧ p[i]? = some (some x) ∧ (∀ y, some y ∈ p → y ≤ x) ∧
    ∀ (j : Nat) y, j < i → p[j]? = some (some y) → y < x)

theorem maxLoop (skip : Bool) (r : List (Val K)) : ∀ (p : List (Val K)) s, MaxInv p s →
    MaxInv (p ++ r) (extremeLoop gtMax skip p.length r s) := by
  induction r with
  | nil => intro p s h; simpa [extremeLoop] using h
  | cons v r ih =>
    intro p s h
    have key : ∀ s', MaxInv (p ++ [v]) s' →
        MaxInv (p ++ v :: r) (extremeLoop gtMax skip (p.length + 1) r s') := by
      intro s' h'
      have := ih (p ++ [v]) s' h'
      simpa using this
    unfold extremeLoop
    cases v with
    | none =>
      have hk : MaxInv (p ++ [none]) s := by
        rcases h with ⟨h1, h2⟩ | ⟨x, i, h1, h2, h3, h4⟩
        · left; refine ⟨h1, ?_⟩
          intro v hv
          rcases List.mem_append.1 hv with h | h
          · exact h2 v h
          · simpa using h
        · right
          have hi : i < p.length := by
            by_contra hc; rw [List.getElem?_eq_none (by omega)] at h2; simp at h2
          refine ⟨x, i, h1, by rw [List.getElem?_append_left hi, h2], ?_, ?_⟩
          · intro y hy; simp at hy; exact h3 y hy
          · intro j y hj hy
            rw [List.getElem?_append_left (by omega)] at hy
            exact h4 j y hj hy
      by_cases hs : skip = true ∧ (none : Val K).isNone = true
      · rw [if_pos hs]; exact key s hk
      · rw [if_neg hs]
        simp only [gtMax, Bool.false_eq_true, if_false]
        exact key s hk
    | some y =>
      rw [if_neg (by simp)]
      have hlast : (p ++ [some y])[p.length]? = some (some y) := by simp
      rcases h with ⟨h1, h2⟩ | ⟨x, i, h1, h2, h3, h4⟩
      · rw [h1]
        simp only [gtMax, if_true]
        refine key _ (Or.inr ⟨y, p.length, rfl, hlast, ?_, ?_⟩)
        · intro z hz
          rcases List.mem_append.1 hz with h | h
          · have := h2 _ h; simp at this
          · simp at h; rw [h]
        · intro j z hj hz
          rw [List.getElem?_append_left hj] at hz
          have := h2 _ (List.mem_of_getElem? hz); simp at this
      · have hi : i < p.length := by
          by_contra hc; rw [List.getElem?_eq_none (by omega)] at h2; simp at h2
        rw [h1]
        simp only [gtMax, decide_eq_true_eq]
        by_cases hlt : x < y
        · rw [if_pos hlt]
          refine key _ (Or.inr ⟨y, p.length, rfl, hlast, ?_, ?_⟩)
          · intro z hz
            rcases List.mem_append.1 hz with h | h
            · exact le_of_lt (lt_of_le_of_lt (h3 z h) hlt)
            · simp at h; rw [h]
          · intro j z hj hz
            rw [List.getElem?_append_left hj] at hz
            exact lt_of_le_of_lt (h3 z (List.mem_of_getElem? hz)) hlt
        · rw [if_neg hlt]
          refine key _ (Or.inr ⟨x, i, rfl, by rw [List.getElem?_append_left hi, h2], ?_, ?_⟩)
          · intro z hz
            rcases List.mem_append.1 hz with h | h
            · exact h3 z h
            · simp at h; rw [h]; exact not_lt.1 hlt
          · intro j z hj hz
            rw [List.getElem?_append_left (by omega)] at hz
            exact h4 j z hj hz

/-- **C40**, maximum: when some value is observed, the result is the largest observed value together with
the first position where it occurs. -/
theorem C40_max (skip : Bool) (d : List (Val K)) (h : ∃ i, Obs d i) :
    ∃ (x : K) (i : Nat), maxIndex skip d = (.val x, (i : Int)) ∧ d[i]? = some (some x) ∧
      (∀ y, some y ∈ d → y ≤ x) ∧ ∀ j < i, d[j]? ≠ some (some x) := by
  have hne : d.length ≠ 0 := by
    intro h0; obtain ⟨i, x, hx⟩ := h
    rw [List.length_eq_zero_iff.1 h0] at hx; simp at hx
  have := maxLoop skip d [] (.negInf, -1) (Or.inl ⟨rfl, by simp⟩)
  simp only [List.nil_append, List.length_nil] at this
  unfold maxIndex
  rw [if_neg hne]
  rcases this with ⟨-, h2⟩ | ⟨x, i, h1, h2, h3, h4⟩
  · obtain ⟨i, x, hx⟩ := h
    have := h2 _ (List.mem_of_getElem? hx); simp at this
  · exact ⟨x, i, h1, h2, h3, fun j hj hx => lt_irrefl _ (h4 j x hj hx)⟩

/-- Without any observation: NaN for an empty array, but infinities for an array of NaNs. -/
theorem C40_no_observation (skip : Bool) (d : List (Val K)) (h : ∀ v ∈ d, v = none) :
    minIndex skip d = (if d = [] then .nan else .posInf, -1) ∧
    maxIndex skip d = (if d = [] then .nan else .negInf, -1) := by
  by_cases hd : d = []
  · subst hd; exact ⟨rfl, rfl⟩
  · have hl : d.length ≠ 0 := by simpa using hd
    have h1 := minLoop skip d [] (.posInf, -1) (Or.inl ⟨rfl, by simp⟩)
    have h2 := maxLoop skip d [] (.negInf, -1) (Or.inl ⟨rfl, by simp⟩)
    simp only [List.nil_append, List.length_nil] at h1 h2
    unfold minIndex maxIndex
    rw [if_neg hl, if_neg hl, if_neg hd, if_neg hd]
    constructor
    · rcases h1 with ⟨h1, -⟩ | ⟨x, i, -, h3, -, -⟩
      · exact h1
      · have := h _ (List.mem_of_getElem? h3); simp at this
    · rcases h2 with ⟨h2, -⟩ | ⟨x, i, -, h3, -, -⟩
      · exact h2
      · have := h _ (List.mem_of_getElem? h3); simp at this

end

theorem firstLoop_spec (d : List (Val K)) : firstLoop d = (d[scanStart d]?).join := by
  induction d with
  | nil => rfl
  | cons v r ih =>
    cases v with
    | some x => rfl
    | none => simp [firstLoop, scanStart, ih]

theorem lastLoop_spec (d : List (Val K)) (e : Nat) (he : e ≤ d.length) :
    (lastLoop d e = none ∧ ∀ i, i < e → Miss d i) ∨
    ∃ i x, i < e ∧ lastLoop d e = some x ∧ d[i]? = some (some x) ∧ ∀ j, i < j → j < e → Miss d j := by
  induction e with
  | zero => left; simp [lastLoop]
  | succ e ih =>
    have hg : d[e]? = some d[e] := List.getElem?_eq_getElem (by omega)
    unfold lastLoop
    cases hx : d[e] with
    | some x =>
      rw [hg, hx]; right
      exact ⟨e, x, by omega, rfl, by rw [hg, hx], by intro j h1 h2; omega⟩
    | none =>
      rw [hg, hx]
      simp only
      rcases ih (by omega) with ⟨h1, h2⟩ | ⟨i, x, h1, h2, h3, h4⟩
      · left
        refine ⟨h1, fun i hi => ?_⟩
        rcases Nat.lt_succ_iff_lt_or_eq.1 hi with h | h
        · exact h2 i h
        · subst h; rw [Miss, hg, hx]
      · right
        refine ⟨i, x, by omega, h2, h3, fun j hj1 hj2 => ?_⟩
        rcases Nat.lt_succ_iff_lt_or_eq.1 hj2 with h | h
        · exact h4 j hj1 h
        · subst h; rw [Miss, hg, hx]

/-- **C40**, first and last with skipping: the first (last) observed value, NaN when there is none;
without skipping: the first (last) cell. -/
theorem C40_first_last (d : List (Val K)) :
    (∀ (i : Nat) x, d[i]? = some (some x) → (∀ j < i, Miss d j) → first true d = some x) ∧
    (∀ (i : Nat) x, d[i]? = some (some x) → (∀ j, i < j → j < d.length → Miss d j) → last true d = some x) ∧
    ((∀ v ∈ d, v = none) → first true d = none ∧ last true d = none) ∧
    first false d = d.head?.join ∧ last false d = d.getLast?.join := by
  have hnil : ∀ (i : Nat) (x : K), d[i]? = some (some x) → d.length ≠ 0 := by
    intro i x hx h0
    rw [List.length_eq_zero_iff.1 h0] at hx; simp at hx
  have hlt : ∀ (i : Nat) (x : K), d[i]? = some (some x) → i < d.length := by
    intro i x hx
    by_contra hc; rw [List.getElem?_eq_none (by omega)] at hx; simp at hx
  refine ⟨?_, ?_, ?_, ?_, ?_⟩
  · intro i x hx hm
    unfold first
    rw [if_neg (hnil i x hx), if_pos rfl, firstLoop_spec]
    obtain ⟨s1, s2, s3⟩ := scanStart_spec d
    have : scanStart d = i := by
      rcases Nat.lt_trichotomy (scanStart d) i with h | h | h
      · obtain ⟨y, hy⟩ := s3 (by have := hlt i x hx; omega)
        rw [hm _ h] at hy; simp at hy
      · exact h
      · rw [s2 i h] at hx; simp at hx
    rw [this, hx]; rfl
  · intro i x hx hm
    unfold last
    rw [if_neg (hnil i x hx), if_pos rfl]
    rcases lastLoop_spec d d.length (Nat.le_refl _) with ⟨-, h2⟩ | ⟨k, y, h1, h2, h3, h4⟩
    · rw [h2 i (hlt i x hx)] at hx; simp at hx
    · rcases Nat.lt_trichotomy k i with h | h | h
      · rw [h4 i h (hlt i x hx)] at hx; simp at hx
      · subst h; rw [h2]; rw [hx] at h3; simpa using h3.symm
      · rw [hm k h h1] at h3; simp at h3
  · intro hall
    unfold first last
    by_cases h0 : d.length = 0
    · rw [if_pos h0, if_pos h0]; exact ⟨rfl, rfl⟩
    · rw [if_neg h0, if_neg h0, if_pos rfl, if_pos rfl]
      constructor
      · rw [firstLoop_spec]
        cases hd : d[scanStart d]? with
        | none => rfl
        | some v => rw [hall v (List.mem_of_getElem? hd)]; rfl
      · rcases lastLoop_spec d d.length (Nat.le_refl _) with ⟨h1, -⟩ | ⟨k, y, h1, h2, h3, h4⟩
        · exact h1
        · have := hall _ (List.mem_of_getElem? h3); simp at this
  · unfold first
    cases d with
    | nil => rfl
    | cons v r => simp
  · unfold last
    cases d with
    | nil => rfl
    | cons v r =>
      simp only [List.length_cons, Nat.add_one_sub_one]
      rw [if_neg (by omega), if_neg (by simp), List.getLast?_eq_getElem?]
      simp only [List.length_cons, Nat.add_one_sub_one]
      cases (v :: r)[r.length]? with
      | none => rfl
      | some v => rfl

example : minIndex true [none, some (2 : Rat), some 1, some 1] = (.val 1, 2) := by decide

end Arr
end LDT
