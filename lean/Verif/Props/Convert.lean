import Verif.Lemmas.Convert
import Verif.Lemmas.Variable
/-!
# C14 conversions of daily, daily-in-week and date-list variables

Vocabulary: `dated day data` pairs every observation with its day number (the first has day `day`, then
one day later each).
-/
namespace LDT
namespace Var
open Cal Fq Arr
variable {K : Type}

/-- A daily start frequency. -/
def IsDaily (f : Freq) (day : Int) : Prop := f = .week ⟨.daily, day, DRange.default, 1⟩

/-- Day `d` lies in part `p` of `x` equal parts of year `y`: `(p-1)/x ≤ (d - Jan 1)/(length of y) < p/x`. -/
def InYearPart (x d y p : Int) : Prop :=
  jan1 y ≤ d ∧ d < jan1 (y + 1) ∧
  (p - 1) * yearLen y ≤ (d - jan1 y) * x ∧ (d - jan1 y) * x < p * yearLen y

instance (x d y p : Int) : Decidable (InYearPart x d y p) := by unfold InYearPart; infer_instance

theorem inYearPart_iff (x d y p : Int) (h : -32044 ≤ d) (hx : 1 ≤ x) :
    InYearPart x d y p ↔ (fromDayNumber d).y = y ∧ getPart d x = p := by
  have hb := year_bounds d h
  unfold InYearPart
  constructor
  · rintro ⟨h1, h2, h3, h4⟩
    have hy := year_unique hb.1 hb.2 h1 h2
    refine ⟨hy, ?_⟩
    rw [getPart_eq d x h (by omega), hy]
    have hl := yearLen_pos y
    have := Int.le_ediv_of_mul_le (show 0 < yearLen y by omega) h3
    have := Int.ediv_lt_of_lt_mul (show 0 < yearLen y by omega) h4
    omega
  · rintro ⟨hy, hp⟩
    rw [getPart_eq d x h (by omega), hy] at hp
    rw [hy] at hb
    have hl := yearLen_pos y
    refine ⟨hb.1, hb.2, ?_, ?_⟩
    · rw [show p - 1 = (d - jan1 y) * x / yearLen y by omega]
      exact Int.ediv_mul_le _ (by omega)
    · rw [← hp]
      exact Int.lt_ediv_add_one_mul_self _ (by omega)

/-! ## Multi-daily -/

/-- **C14**, daily to multi-daily counted from the start: output `i` aggregates exactly the observations of the
days `[s + ik, s + (i+1)k)`, in order, where `s + ik` is the day of the `i`-th output period; no observation is
lost or used twice; no period is empty.
Partial: counted from the end the periods are wrong (`C14_violated_from_end`). -/
theorem C14_multi_daily_partial (v : Variable K) (day : Int) (hd : IsDaily v.start day) (k : Nat) (hk : 0 < k)
    (agg : List (Val K) → Val K) :
    ∃ (c : Conv K) (gs : List (List (Val K))), v.toMultiDaily k (some agg) false = .ok c ∧ c.data = gs.map agg ∧ gs.flatten = v.data ∧
      (∀ g ∈ gs, g ≠ []) ∧
      ∀ (i : Nat) g, gs[i]? = some g → ∃ p : WB, c.start.next i = .ok (.week p) ∧
        g = ((dated day v.data).filter (fun o => decide (p.day ≤ o.1 ∧ o.1 < p.day + k))).map (·.2) := by
  obtain ⟨gs, h1, h2, h3, h4⟩ := C12_forward v.data k hk
  obtain ⟨w, hw, hwd, hwf, hwc⟩ : ∃ w : WB, WB.make day false none true k = .ok w ∧ w.day = day ∧ w.WF ∧
      w.unit = k ∧ w.cls ≠ .dailyInWeek := by
    unfold WB.make
    by_cases hk1 : (k : Int) = 1
    · refine ⟨⟨.daily, day, DRange.default, k⟩, by simp [hk1], rfl, .inr (.inr (.inl ⟨rfl, hk1⟩)), rfl, by simp⟩
    · refine ⟨⟨.multiDaily, day, DRange.default, k⟩, by simp [hk1], rfl, .inr (.inr (.inr (.inl ⟨rfl, by simp; omega⟩))),
        rfl, by simp⟩
  refine ⟨⟨gs.map agg, .week w⟩, gs, ?_, rfl, h2, fun g hg => (h3 g hg).1, ?_⟩
  · unfold Variable.toMultiDaily
    rw [hd]
    simp only [if_true, h1, hw, Outcome.ok_bind, Outcome.pure_eq]
  · intro i g hg
    have hda : w.dayAfter i = day + i * k := by
      unfold WB.dayAfter
      split
      · exact absurd ‹_› hwc.2
      · rw [hwc.1, hwd]
    refine ⟨{ w with day := w.dayAfter i }, by simp [Freq.next, wb_next w hwf], ?_⟩
    show g = ((dated day v.data).filter (fun o => decide (w.dayAfter i ≤ o.1 ∧ o.1 < w.dayAfter i + k))).map (·.2)
    have hle : day ≤ day + (i : Int) * k := by
      have : (0 : Int) ≤ (i : Int) * k := Int.mul_nonneg (by omega) (by omega)
      omega
    rw [hda, dated_filter v.data day _ _ hle (by omega)]
    rw [chunk_eq k gs h4 (fun c hc => (h3 c hc).2) i g hg, h2]
    congr 2 <;> omega

/-! ## Weekly -/

/-- **C14**, daily to weekly: output `i` aggregates exactly the observations of the seven days of the `i`-th output
week, in order; the output weeks begin on the requested weekday and the first contains the first
observation, preceded in the aggregated list by one missing value per day of that week before the start. -/
theorem C14_weekly (v : Variable K) (day : Int) (hd : IsDaily v.start day) (first : DOW)
    (agg : List (Val K) → Val K) :
    ∃ (c : Conv K) (gs : List (List (Val K))) (pad : Nat), v.toWeekly first (some agg) = .ok c ∧
      c.data = gs.map agg ∧ pad < 7 ∧ gs.flatten = List.replicate pad none ++ v.data ∧
      ∀ (i : Nat) g, gs[i]? = some g → ∃ p : WB, c.start.next i = .ok (.week p) ∧ dow p.day = first ∧
        p.day = day - pad + 7 * i ∧
        g = (if i = 0 then List.replicate pad none else []) ++
          ((dated day v.data).filter (fun o => decide (p.day ≤ o.1 ∧ o.1 < p.day + 7))).map (·.2) := by
  have hdist : ∀ a b : Fin 7, 0 ≤ DRange.distance a b true ∧ DRange.distance a b true < 7 ∧
      ((b.val : Int) - DRange.distance a b true - a.val) % 7 = 0 := by decide +kernel
  obtain ⟨d0, d1, d2⟩ := hdist first (dow day)
  have hdow : dow (day - DRange.distance first (dow day) true) = first := by
    generalize DRange.distance first (dow day) true = D at *
    apply Fin.ext
    have hv : ((dow day).val : Int) = (day + 1) % 7 := by unfold dow; simp; omega
    have hf := first.isLt
    unfold dow; simp only; omega
  obtain ⟨pad, hpad⟩ : ∃ pad : Nat, DRange.distance first (dow day) true = pad := ⟨_, (Int.toNat_of_nonneg d0).symm⟩
  rw [hpad] at hdow d1
  obtain ⟨gs, h1, h2, h3, h4⟩ := C12_forward (List.replicate pad none ++ v.data) 7 (by omega)
  have hpart : (if (pad : Int) = 0 then partitionEqual v.data 7 false
      else partitionEqual (List.replicate (pad : Int).toNat none ++ v.data) 7 false) = .ok gs := by
    split
    · have : pad = 0 := by omega
      subst this; simpa using h1
    · simpa using h1
  have hmk : WB.make (day - pad) true none true 1 = .ok ⟨.weekly, day - pad, DRange.default, 1⟩ := by
    unfold WB.make; simp
  refine ⟨⟨gs.map agg, .week ⟨.weekly, day - pad, DRange.default, 1⟩⟩, gs, pad, ?_, rfl, by omega, h2, ?_⟩
  · unfold Variable.toWeekly
    rw [hd]
    simp only [if_true, hpad, hpart, hmk, Outcome.ok_bind, Outcome.pure_eq]
  · intro i g hg
    refine ⟨⟨.weekly, day - pad + 7 * i * 1, DRange.default, 1⟩, rfl, ?_, by simp, ?_⟩
    · apply Fin.ext
      have := congrArg Fin.val hdow
      unfold dow at *; simp only at *; omega
    · show g = _ ++ ((dated day v.data).filter (fun o => decide (day - pad + 7 * i * 1 ≤ o.1 ∧ o.1 < day - pad + 7 * i * 1 + 7))).map (·.2)
      rw [chunk_eq 7 gs h4 (fun c hc => (h3 c hc).2) i g hg, h2]
      cases i with
      | zero =>
        have hc : (dated day v.data).filter (fun o => decide (day - pad + 7 * ((0 : Nat) : Int) * 1 ≤ o.1 ∧
            o.1 < day - pad + 7 * ((0 : Nat) : Int) * 1 + 7)) =
            (dated day v.data).filter (fun o => decide (day ≤ o.1 ∧ o.1 < day + (7 - pad))) := by
          apply List.filter_congr
          intro o ho
          obtain ⟨n, hn⟩ := dated_ge _ _ o ho
          rw [hn]; congr 1; apply propext; omega
        rw [hc, dated_filter v.data day day _ (by omega) (by omega)]
        simp only [Nat.zero_mul, List.drop_zero, if_true, Int.sub_self, Int.toNat_zero]
        rw [List.take_append, List.take_of_length_le (by simp; omega)]
        congr 2
        simp
      | succ i =>
        rw [dated_filter v.data day _ _ (by push_cast; omega) (by omega)]
        rw [if_neg (by omega), List.nil_append, List.drop_append, List.drop_of_length_le (by simp; omega), List.nil_append]
        have e1 : (i + 1) * 7 - (List.replicate pad (none : Val K)).length = (day - pad + 7 * ((i + 1 : Nat) : Int) * 1 - day).toNat := by
          simp only [List.length_replicate]; push_cast; omega
        rw [e1]
        congr 1
        omega

/-! ## Parts of a year -/

/-- **C14**, daily to `x` times a year, `2 ≤ x ≤ 365`: output `i` aggregates exactly the observations whose day
lies in the `i`-th output period (the given part of the given year), in order; nothing is lost or used twice, no
period is empty.
Partial: false for `x = 1` (`C14_violated_yearly`) and for `x > 365` (`C14_violated_many_parts`); for `x = 12` the
periods are labelled as months although they are twelfths of a year (`C14_violated_monthly`). -/
theorem C14_year_parts_partial (v : Variable K) (day : Int) (hd : IsDaily v.start day) (hday : -32044 ≤ day)
    (x : Int) (hx : 2 ≤ x) (hx' : x ≤ 365) (agg : List (Val K) → Val K) :
    ∃ (c : Conv K) (gs : List (List (Val K))), v.toXxYear x (some agg) = .ok c ∧ c.data = gs.map agg ∧
      gs.flatten = v.data ∧ (∀ g ∈ gs, g ≠ []) ∧
      ∀ (i : Nat) g, gs[i]? = some g → ∃ p : YB, c.start.next i = .ok (.year p) ∧ p.partitionCount = x ∧
        1 ≤ p.position ∧ p.position ≤ x ∧
        g = ((dated day v.data).filter (fun o => decide (InYearPart x o.1 p.year p.position))).map (·.2) := by
  have hb := getPart_bounds day x hday (by omega)
  let f : YB := ⟨YB.classOf x 1, (fromDayNumber day).y, x, getPart day x, 1⟩
  have hf : f.WF := ⟨rfl, Int.one_pos, hb.1, hb.2⟩
  have hmk : YB.make (fromDayNumber day).y x (getPart day x) 1 = .ok f := by
    unfold YB.make
    rw [if_neg (by omega), if_neg (by omega), if_neg (by omega)]
  -- the groups
  obtain ⟨gs, g1, g2, g3, g4⟩ : ∃ gs : List (List (Val K)),
      yearLoop agg x day v.data (getPart day x) [] [] = gs.map agg ∧ gs.flatten = v.data ∧ (∀ g ∈ gs, g ≠ []) ∧
      ∀ (i : Nat) g, gs[i]? = some g →
        g = ((dated day v.data).filter (fun p => decide (partOrd x p.1 = partOrd x day + i))).map (·.2) := by
    cases hdat : v.data with
    | nil => exact ⟨[], by simp [yearLoop], rfl, by simp, by simp⟩
    | cons a as =>
      obtain ⟨gs, g1, g2, g3, g4⟩ := yearLoop_groups agg x hx hx' as day [a] [] hday (by simp)
      refine ⟨gs, ?_, by simpa using g2, g3, ?_⟩
      · unfold yearLoop
        simpa using g1
      · intro i g hg
        rw [g4 i g hg]
        simp only [dated]
        cases i with
        | zero => rw [List.filter_cons_of_pos (by simp)]; simp
        | succ i => rw [List.filter_cons_of_neg (by simp only [decide_eq_true_eq]; push_cast; omega)]; simp
  refine ⟨⟨gs.map agg, .year f⟩, gs, ?_, rfl, g2, g3, ?_⟩
  · unfold Variable.toXxYear
    rw [hd]
    simp only [if_true, hmk, g1, Outcome.ok_bind, Outcome.pure_eq]
  · intro i g hg
    have hwf := yb_adv_wf f hf i
    refine ⟨f.adv i, by simp [Freq.next, yb_next_adv f hf], rfl, hwf.2.2.1, hwf.2.2.2, ?_⟩
    rw [g4 i g hg]
    congr 1
    apply List.filter_congr
    intro o ho
    obtain ⟨n, hn⟩ := dated_ge _ _ o ho
    have ho' : -32044 ≤ o.1 := by omega
    have hbo := getPart_bounds o.1 x ho' (by omega)
    congr 1
    apply propext
    rw [inYearPart_iff x o.1 _ _ ho' (by omega)]
    have hpos := hwf.2.2
    have hsum : (f.adv i).year * x + ((f.adv i).position - 1) = partOrd x day + i := by
      have := Int.mul_ediv_add_emod (getPart day x - 1 + i) x
      simp only [YB.adv, f, partOrd]
      rw [Int.add_mul, Int.mul_one, Int.mul_comm (_ / x) x]
      omega
    rw [← hsum]
    have hpc : (f.adv i).partitionCount = x := rfl
    rw [hpc] at hpos
    generalize (f.adv i).year = Y at *
    generalize (f.adv i).position = P at *
    unfold partOrd
    constructor
    · intro h
      have hy : (fromDayNumber o.1).y = Y := by
        rcases lt_trichotomy (fromDayNumber o.1).y Y with hlt | heq | hgt
        · have : ((fromDayNumber o.1).y + 1) * x ≤ Y * x := Int.mul_le_mul_of_nonneg_right (by omega) (by omega)
          rw [Int.add_mul] at this; omega
        · exact heq
        · have : (Y + 1) * x ≤ (fromDayNumber o.1).y * x := Int.mul_le_mul_of_nonneg_right (by omega) (by omega)
          rw [Int.add_mul] at this; omega
      rw [hy] at h
      exact ⟨hy, by omega⟩
    · rintro ⟨h1, h2⟩
      rw [h1, h2]

/-! ## Daily in a week to daily -/

/-- **C14**, daily-in-week to daily: every observation keeps its date, and all other days in between are missing.
Partial: the range has more than one weekday and the series starts on the first weekday of the range; otherwise
dates are wrong (`C14_violated_mid_week`, `C14_violated_single_day`). -/
theorem C14_daily_in_week_partial (v : Variable K) (f : WB) (hs : v.start = .week f) (hc : f.cls = .dailyInWeek)
    (hns : f.range.start ≠ f.range.stop) (hfirst : dow f.day = f.range.start) :
    ∃ c : Conv K, v.toDaily = .ok c ∧ IsDaily c.start f.day ∧
      (∀ (i : Nat) x, v.data[i]? = some x → ∃ (j : Nat) (p q : WB), c.data[j]? = some x ∧
        v.start.next i = .ok (.week p) ∧ c.start.next j = .ok (.week q) ∧ p.day = q.day) ∧
      (∀ (j : Nat), j < c.data.length →
        (∀ (i : Nat) (p : WB), i < v.data.length → v.start.next i = .ok (.week p) → p.day ≠ f.day + j) →
        c.data[j]? = some none) := by
  have hL : f.range.getLength = f.range.len := len_table _ _ hns
  obtain ⟨l1, l7⟩ := len_bounds f.range
  have l2 : 2 ≤ f.range.len := by
    unfold DRange.len
    have : f.range.start.val ≠ f.range.stop.val := fun e => hns (Fin.ext e)
    have := f.range.start.isLt; have := f.range.stop.isLt
    omega
  obtain ⟨L, hLn⟩ : ∃ L : Nat, f.range.len = L := ⟨_, (Int.toNat_of_nonneg (by omega)).symm⟩
  have hwf : f.WF := by
    refine .inr (.inr (.inr (.inr ⟨hc, ?_⟩)))
    unfold WorkDay InWeek; rw [hfirst]; simp; omega
  have hoff : f.range.off f.day = 0 := by
    rw [← offD_dow, hfirst]; unfold DRange.offD; simp
  have hdate : ∀ i : Nat, f.dayAfter i = f.day + ((7 * (i / L) + i % L : Nat) : Int) := by
    intro i
    have hu := unrank_rank f.range f.day (by unfold DRange.InD; omega)
    unfold WB.dayAfter
    rw [hc]
    simp only
    unfold DRange.unrank DRange.rank at *
    have hLpos : (0 : Int) < L := by omega
    rw [hoff, hLn, add_zero] at hu ⊢
    rw [Int.mul_ediv_cancel_left _ (by omega), Int.mul_emod_right] at hu
    rw [Int.add_comm ((L : Int) * _) (i : Int), Int.add_mul_ediv_left _ _ (by omega), Int.add_mul_emod_self_left]
    push_cast
    omega
  have hnext : ∀ i : Nat, v.start.next i = .ok (.week { f with day := f.dayAfter i }) := by
    intro i; rw [hs]; simp [Freq.next, wb_next f hwf]
  have hceil : (((v.data.length : Int) + (L : Int) - 1) / (L : Int)).toNat = (v.data.length - 0 + L - 1) / L := by
    have : ((v.data.length : Int) + (L : Int) - 1) = ((v.data.length - 0 + L - 1 : Nat) : Int) := by omega
    rw [this, ← Int.natCast_ediv, Int.toNat_natCast]
  have hget := weekLoop_get v.data L (by omega) (by omega) ((v.data.length - 0 + L - 1) / L) 0 (by omega) rfl
  refine ⟨⟨weekLoop v.data L (7 - L) ((v.data.length - 0 + L - 1) / L) (0 : Nat), dailyF f.day⟩, ?_, rfl, ?_, ?_⟩
  · unfold Variable.toDaily
    rw [hs]
    simp only [hc, if_true, hL, hLn, hceil]
    rfl
  · intro i x hx
    have hml : i % L < L := Nat.mod_lt _ (by omega)
    refine ⟨7 * (i / L) + i % L, { f with day := f.dayAfter i }, ⟨.daily, f.day + ((7 * (i / L) + i % L : Nat) : Int) * 1, DRange.default, 1⟩,
      ?_, hnext i, rfl, ?_⟩
    · show (weekLoop v.data L (7 - L) ((v.data.length - 0 + L - 1) / L) (0 : Nat))[_]? = _
      rw [hget]
      have e1 : (7 * (i / L) + i % L) % 7 = i % L := by omega
      have e2 : (7 * (i / L) + i % L) / 7 = i / L := by omega
      rw [e1, e2, if_pos hml, Nat.zero_add, Nat.mul_comm, Nat.div_add_mod]
      exact hx
    · simp [hdate]
  · intro j hj hno
    have hj : j < (weekLoop v.data L (7 - L) ((v.data.length - 0 + L - 1) / L) (0 : Nat)).length := hj
    show (weekLoop v.data L (7 - L) ((v.data.length - 0 + L - 1) / L) (0 : Nat))[j]? = _
    have hsome := List.getElem?_eq_getElem hj
    rw [hget] at hsome ⊢
    by_cases h7 : j % 7 < L
    · exfalso
      rw [if_pos h7] at hsome
      have hi : 0 + (j / 7 * L + j % 7) < v.data.length := (List.getElem?_eq_some_iff.1 hsome).1
      refine hno (j / 7 * L + j % 7) _ (by omega) (hnext _) ?_
      show f.dayAfter _ = _
      rw [hdate]
      have e1 : (j / 7 * L + j % 7) / L = j / 7 := by
        rw [Nat.mul_comm, Nat.mul_add_div (by omega), Nat.div_eq_of_lt h7]; omega
      have e2 : (j / 7 * L + j % 7) % L = j % 7 := by
        rw [Nat.mul_comm, Nat.mul_add_mod, Nat.mod_eq_of_lt h7]
      rw [e1, e2]; congr 1; omega
    · rw [if_neg h7] at hsome ⊢
      by_cases h : 0 + (j / 7 * L + L) < v.data.length
      · rw [if_pos h]
      · rw [if_neg h] at hsome; simp at hsome

/-! ## Date list to daily -/

/-- **C14**, date list to daily: the result runs from the earliest to the latest date of the list, the datum of
every date of the list is in the cell of that day, and days not in the list are missing.
Partial: the series must start at the first item of the list; otherwise the data are attached to the wrong dates
(`C14_violated_list_start`). -/
theorem C14_date_list_partial (v : Variable K) (d0 : Int) (ds : List Int) (hs : v.start = .listD ⟨d0, some (d0 :: ds), 0⟩)
    (hn : (d0 :: ds).Nodup) (hlen : v.data.length = (d0 :: ds).length) :
    ∃ (c : Conv K) (lo hi : Int), v.toDaily = .ok c ∧ IsDaily c.start lo ∧
      lo ∈ d0 :: ds ∧ hi ∈ d0 :: ds ∧ (∀ d ∈ d0 :: ds, lo ≤ d ∧ d ≤ hi) ∧
      (c.data.length : Int) = hi - lo + 1 ∧
      (∀ (i : Nat) d x, (d0 :: ds)[i]? = some d → v.data[i]? = some x → c.data[(d - lo).toNat]? = some x) ∧
      (∀ d, lo ≤ d → d ≤ hi → d ∉ d0 :: ds → c.data[(d - lo).toNat]? = some none) := by
  obtain ⟨m1, m2, m3⟩ := minDate_spec ds d0
  obtain ⟨M1, M2, M3⟩ := maxDate_spec ds d0
  obtain ⟨r, r1, r2, r3, r4⟩ := dateLoop_spec (d0 :: ds) hn v.data (by omega) (maxDate d0 ds - minDate d0 ds + 1).toNat (minDate d0 ds)
  have hbd : ∀ d ∈ d0 :: ds, minDate d0 ds ≤ d ∧ d ≤ maxDate d0 ds := by
    intro d hd
    rcases List.mem_cons.1 hd with rfl | hd
    · exact ⟨m1, M1⟩
    · exact ⟨m2 d hd, M2 d hd⟩
  refine ⟨⟨r, dailyF (minDate d0 ds)⟩, minDate d0 ds, maxDate d0 ds, ?_, rfl, ?_, ?_, hbd, ?_, ?_, ?_⟩
  · unfold Variable.toDaily
    rw [hs]
    simp only [r1, Outcome.ok_bind, Outcome.pure_eq]
  · rcases m3 with h | h <;> rw [List.mem_cons] <;> simp [h]
  · rcases M3 with h | h <;> rw [List.mem_cons] <;> simp [h]
  · show (r.length : Int) = _
    rw [r2]; omega
  · intro i d x hd hx
    have hb := hbd d (List.mem_of_getElem? hd)
    show r[_]? = _
    rw [← hx]
    refine r3 i _ (by omega) ?_
    rw [hd]; congr 1; omega
  · intro d h1 h2 hnm
    show r[_]? = _
    refine r4 _ (by omega) ?_
    rw [show minDate d0 ds + (((d - minDate d0 ds).toNat : Nat) : Int) = d by omega]
    exact hnm

/-! ## Where C14 is false of the code -/

/-- The last value, used as a simple aggregation in the witnesses. -/
def lastAgg (l : List (Val Rat)) : Val Rat := (l.getLast?).getD none

/-- From the end: 3 observations from day 2451600 in pairs give the parts `[1]` and `[2, 3]`, but the result starts at day
2451600 with step 2, so the second period is days 2451602-3 although it aggregates days 2451601-2. -/
theorem C14_violated_from_end :
    ∃ c : Conv Rat, Variable.toMultiDaily (⟨"x".toList, [some 1, some 2, some 3], dailyF 2451600⟩ : Variable Rat) 2
        (some lastAgg) true = .ok c ∧ c.data = [some 1, some 3] ∧
      c.start.next 1 = .ok (.week ⟨.multiDaily, 2451602, DRange.default, 2⟩) := by
  refine ⟨⟨[some 1, some 3], .week ⟨.multiDaily, 2451600, DRange.default, 2⟩⟩, by decide +kernel, rfl, rfl⟩

/-- One part a year: 31 December 1999 and 1 January 2000 end up in one observation of the year 1999. -/
theorem C14_violated_yearly :
    fromDayNumber 2451544 = ⟨1999, 12, 31⟩ ∧ fromDayNumber 2451545 = ⟨2000, 1, 1⟩ ∧
    Variable.toXxYear (⟨"x".toList, [some 1, some 2], dailyF 2451544⟩ : Variable Rat) 1 (some lastAgg)
      = .ok ⟨[some 2], .year ⟨.yearly, 1999, 1, 1, 1⟩⟩ := by decide +kernel

/-- 400 parts a year: 11 and 12 January 2001 are in parts 11 and 13, but the outputs are labelled 11 and 12. -/
theorem C14_violated_many_parts :
    fromDayNumber 2451921 = ⟨2001, 1, 11⟩ ∧
    Variable.toXxYear (⟨"x".toList, [some 1, some 2], dailyF 2451921⟩ : Variable Rat) 400 (some lastAgg)
      = .ok ⟨[some 1, some 2], .year ⟨.xTimesAYear, 2001, 400, 11, 1⟩⟩ ∧
    InYearPart 400 2451922 2001 13 := by decide +kernel

/-- Twelve parts a year: 1 March 2001 is labelled as the month 2001M2. -/
theorem C14_violated_monthly :
    fromDayNumber 2451970 = ⟨2001, 3, 1⟩ ∧
    Variable.toXxYear (⟨"x".toList, [some 1], dailyF 2451970⟩ : Variable Rat) 12 (some lastAgg)
      = .ok ⟨[some 1], .year ⟨.monthly, 2001, 12, 2, 1⟩⟩ := by decide +kernel

/-- Monday-Tuesday series starting on a Tuesday: the second observation (Monday) is put on the Wednesday. -/
theorem C14_violated_mid_week :
    ∃ f g : WB, f.cls = .dailyInWeek ∧ (Freq.week f).WF ∧ (Freq.week f).next 1 = .ok (.week g) ∧ g.day = f.day + 6 ∧
      Variable.toDaily (⟨"x".toList, [some 1, some 2], .week f⟩ : Variable Rat)
        = .ok ⟨[some 1, some 2], dailyF f.day⟩ := by
  refine ⟨⟨.dailyInWeek, 2451618, ⟨1, 2⟩, 1⟩, ⟨.dailyInWeek, 2451624, ⟨1, 2⟩, 1⟩, rfl, ?_, by decide +kernel, by decide, by decide +kernel⟩
  right; right; right; right; decide

/-- A range of one weekday (Mondays): consecutive Mondays are put on consecutive days. -/
theorem C14_violated_single_day :
    ∃ f g : WB, f.cls = .dailyInWeek ∧ (Freq.week f).WF ∧ (Freq.week f).next 1 = .ok (.week g) ∧ g.day = f.day + 7 ∧
      Variable.toDaily (⟨"x".toList, [some 1, some 2], .week f⟩ : Variable Rat)
        = .ok ⟨[some 1, some 2], dailyF f.day⟩ := by
  refine ⟨⟨.dailyInWeek, 2451617, ⟨1, 1⟩, 1⟩, ⟨.dailyInWeek, 2451624, ⟨1, 1⟩, 1⟩, rfl, ?_, by decide +kernel, by decide, by decide +kernel⟩
  right; right; right; right; decide

/-- A series starting at the second item of its date list: the single observation, dated 2451602, is put on the first
date of the list, 2451600 (here the other date has no datum, which is an exception; with two data both dates are wrong). -/
theorem C14_violated_list_start :
    Variable.toDaily (⟨"x".toList, [some 1, some 2], .listD ⟨2451601, some [2451600, 2451601], 0⟩⟩ : Variable Rat)
      = .ok ⟨[some 1, some 2], dailyF 2451600⟩ ∧
    Variable.toDaily (⟨"x".toList, [some 1], .listD ⟨2451601, some [2451600, 2451601], 0⟩⟩ : Variable Rat) = .throws := by
  decide +kernel

/-! ## Non-vacuity -/

/-- A weekly conversion starting mid-week. -/
example : Variable.toWeekly (⟨"x".toList, [some 1, some 2, some 3, some 4, some 5, some 6, some 7, some 8], dailyF 2451619⟩ : Variable Rat)
    1 (some lastAgg) = .ok ⟨[some 5, some 8], .week ⟨.weekly, 2451617, DRange.default, 1⟩⟩ := by decide +kernel

/-- Quarters across a change of year. -/
example : Variable.toXxYear (⟨"x".toList, [some 1, some 2], dailyF 2451544⟩ : Variable Rat) 4 (some lastAgg)
      = .ok ⟨[some 1, some 2], .year ⟨.quarterly, 1999, 4, 4, 1⟩⟩ := by decide +kernel

example : IsDaily (dailyF 2451544) 2451544 ∧ (-32044 : Int) ≤ 2451544 := ⟨rfl, by decide⟩

/-- Monday-Tuesday series starting on a Monday. -/
example : Variable.toDaily (⟨"x".toList, [some 1, some 2, some 3], .week ⟨.dailyInWeek, 2451617, ⟨1, 2⟩, 1⟩⟩ : Variable Rat)
      = .ok ⟨[some 1, some 2, none, none, none, none, none, some 3], dailyF 2451617⟩ ∧ dow 2451617 = 1 := by decide +kernel

example : Variable.toDaily (⟨"x".toList, [some 1, some 2], .listD ⟨2451603, some [2451603, 2451601], 0⟩⟩ : Variable Rat)
      = .ok ⟨[some 2, none, some 1], dailyF 2451601⟩ := by decide +kernel

end Var
end LDT
