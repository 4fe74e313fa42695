import Verif.Lemmas.FreqMinus
/-!
# Properties C01–C04, C06–C08: frequency arithmetic

`Freq.WF` (file `Verif/Spec/Freq.lean`) describes the frequencies the public constructors build; the
theorems `*_wf` show that they do, and that advancing keeps the property.
-/
namespace LDT
namespace Fq
open Text Cal

/-! ## Well-formedness is what the constructors give -/

/-- Year-based constructor: whatever it accepts with a positive year multiple is well formed. -/
theorem yearBased_make_wf (y p k m : Int) (hm : 0 < m) (f : YB) (h : YB.make y p k m = .ok f) :
    (Freq.year f).WF := by
  unfold YB.make at h
  split_ifs at h
  cases h
  exact ⟨rfl, hm, by simp only; omega, by simp only; omega⟩

/-- Week-based constructor with a positive multiple; daily-in-week moves the day into the range. -/
theorem weekBased_make_wf (d : Int) (isWeek : Bool) (r : Option DRange) (fw : Bool) (m : Int)
    (hm : 0 < m) (hr : isWeek = true → r = none) (f : WB) (h : WB.make d isWeek r fw m = .ok f) :
    (Freq.week f).WF := by
  unfold WB.make at h
  cases isWeek with
  | true =>
    rw [hr rfl] at h
    by_cases h1 : m = 1
    · simp [h1] at h; subst h; exact .inl ⟨rfl, rfl⟩
    · simp [h1] at h; subst h; exact .inr (.inl ⟨rfl, hm⟩)
  | false =>
    cases r with
    | none =>
      by_cases h1 : m = 1
      · simp [h1] at h; subst h; exact .inr (.inr (.inl ⟨rfl, rfl⟩))
      · simp [h1] at h; subst h; exact .inr (.inr (.inr (.inl ⟨rfl, hm⟩)))
    | some r =>
      simp at h
      refine .inr (.inr (.inr (.inr ?_)))
      cases fw with
      | true =>
        have e := outF_table r.start r.stop (dow d)
        rw [show (⟨r.start, r.stop⟩ : DRange) = r from rfl, offD_dow] at e
        generalize (match r.isOutsideRange (dow d) true with | .ok (_, k) => k | _ => (0 : Int)) = k at e
        rw [e] at h
        split at h <;> rename_i hi <;> simp at h <;> subst h <;> refine ⟨rfl, (inD_iff _ _).1 ?_⟩
        · exact hi
        · have := len_bounds r
          unfold DRange.InD DRange.off at *; simp only at *; omega
      | false =>
        have e := outB_table r.start r.stop (dow d)
        rw [show (⟨r.start, r.stop⟩ : DRange) = r from rfl, offD_dow] at e
        generalize (match r.isOutsideRange (dow d) false with | .ok (_, k) => k | _ => (0 : Int)) = k at e
        rw [e] at h
        split at h <;> rename_i hi <;> simp at h <;> subst h <;> refine ⟨rfl, (inD_iff _ _).1 ?_⟩
        · exact hi
        · have := len_bounds r
          unfold DRange.InD DRange.off at *; simp only at *; omega

/-- Day-based constructor. -/
theorem dayBased_make_wf (d : WB) (hd : d.WF) (p k : Int) (f : DB) (h : DB.make d p k = .ok f) :
    (Freq.day f).WF := by
  unfold DB.make at h
  split_ifs at h
  cases h
  exact ⟨rfl, hd, by simp only; omega, by simp only; omega⟩

/-- List constructor, for an item of a duplicate-free list. -/
theorem list_make_wf {α : Type} (v : α) (l : List α) (hv : v ∈ l) (hn : l.Nodup) :
    (FL.make v (some l)).WF := ⟨l, rfl, hn, fun _ => hv⟩

/-- Advancing succeeds and keeps well-formedness, class and class text, for every class. -/
theorem next_wf (f : Freq) (h : f.WF) (n : Int) :
    ∃ g, f.next n = .ok g ∧ g.WF ∧ g.cls = f.cls ∧ g.classStr = f.classStr := freq_next f h n

/-! ## C01 -/

/-- C01: advancing by `a` and then by `b` is advancing by `a + b` (all classes, all signs). -/
theorem C01_next_add (f : Freq) (h : f.WF) (a b : Int) :
    ∃ f1 f2 f3, f.next a = .ok f1 ∧ f1.next b = .ok f2 ∧ f.next (a + b) = .ok f3 ∧ f2.Same f3 := by
  cases f with
  | cs p =>
    refine ⟨_, _, _, rfl, rfl, rfl, ?_⟩
    show Freq.cs _ = Freq.cs _
    congr 1; omega
  | year f =>
    refine ⟨.year (f.adv a), .year ((f.adv a).adv b), .year (f.adv (a + b)), ?_, ?_, ?_, ?_⟩
    · simp [Freq.next, yb_next_adv f h]
    · simp [Freq.next, yb_next_adv _ (yb_adv_wf f h a)]
    · simp [Freq.next, yb_next_adv f h]
    · show Freq.year _ = Freq.year _
      rw [yb_adv_add f h]
  | week f =>
    refine ⟨.week { f with day := f.dayAfter a },
      .week { f with day := WB.dayAfter { f with day := f.dayAfter a } b },
      .week { f with day := f.dayAfter (a + b) }, ?_, ?_, ?_, ?_⟩
    · simp [Freq.next, wb_next f h]
    · simp [Freq.next, wb_next _ (wb_next_wf f h a)]
    · simp [Freq.next, wb_next f h]
    · show Freq.week _ = Freq.week _
      rw [dayAfter_add]
  | day f =>
    refine ⟨.day (f.adv a), .day ((f.adv a).adv b), .day (f.adv (a + b)), ?_, ?_, ?_, ?_⟩
    · simp [Freq.next, db_next_adv f h]
    · simp [Freq.next, db_next_adv _ (db_adv_wf f h a)]
    · simp [Freq.next, db_next_adv f h]
    · show Freq.day _ = Freq.day _
      rw [db_adv_add f h]
  | listS f =>
    obtain ⟨f1, f2, f3, h1, h2, h3, h4⟩ := fl_next_add f h a b
    exact ⟨.listS f1, .listS f2, .listS f3, by simp [Freq.next, h1], by simp [Freq.next, h2],
      by simp [Freq.next, h3], h4⟩
  | listD f =>
    obtain ⟨f1, f2, f3, h1, h2, h3, h4⟩ := fl_next_add f h a b
    exact ⟨.listD f1, .listD f2, .listD f3, by simp [Freq.next, h1], by simp [Freq.next, h2],
      by simp [Freq.next, h3], h4⟩

/-- C01: advancing by zero changes nothing. -/
theorem C01_next_zero (f : Freq) (h : f.WF) : ∃ g, f.next 0 = .ok g ∧ g.Same f := by
  cases f with
  | cs p => exact ⟨_, rfl, by show Freq.cs _ = Freq.cs _; simp⟩
  | year f => exact ⟨.year f, by simp [Freq.next, YB.next], rfl⟩
  | week f =>
    refine ⟨.week { f with day := f.dayAfter 0 }, by simp [Freq.next, wb_next f h], ?_⟩
    show Freq.week _ = Freq.week _
    rw [dayAfter_zero f h]
  | day f =>
    refine ⟨.day (f.adv 0), by simp [Freq.next, db_next_adv f h], ?_⟩
    show Freq.day _ = Freq.day _
    obtain ⟨h1, h2, h3, h4⟩ := h
    have e0 : (f.position - 1 + 0) / f.partitionCount = 0 :=
      Int.ediv_eq_zero_of_lt (by omega) (by omega)
    have e1 : (f.position - 1 + 0) % f.partitionCount = f.position - 1 :=
      (Int.emod_eq_of_lt (by omega) (by omega)).trans (by omega)
    simp only [DB.adv, e0, e1, dayAfter_zero f.day h2]
    cases f; simp
  | listS f =>
    obtain ⟨l, g, h1, h2, h3, h4, h5⟩ := fl_next f h 0
    exact ⟨.listS g, by simp [Freq.next, h2], fl_place_inj l g f h3 h1 (fl_place_of_wf g h4 l h3).2
      (fl_place_of_wf f h l h1).2 (by omega)⟩
  | listD f =>
    obtain ⟨l, g, h1, h2, h3, h4, h5⟩ := fl_next f h 0
    exact ⟨.listD g, by simp [Freq.next, h2], fl_place_inj l g f h3 h1 (fl_place_of_wf g h4 l h3).2
      (fl_place_of_wf f h l h1).2 (by omega)⟩

/-- C01: what "same period" means for an observer – same text, same class text, same differences. -/
theorem C01_same_observable (f g : Freq) (h : f.Same g) :
    f.toStr = g.toStr ∧ f.classStr = g.classStr ∧ (∀ k : Freq, f.minus k = g.minus k) ∧
      (∀ k : Freq, k.minus f = k.minus g) := by
  rcases same_cases f g h with rfl | ⟨a, b, rfl, rfl, h⟩ | ⟨a, b, rfl, rfl, h⟩
  · exact ⟨rfl, rfl, fun _ => rfl, fun _ => rfl⟩
  · obtain ⟨h1, h2, h3⟩ := fl_same_obs a b h
    refine ⟨by simp only [Freq.toStr, h1], rfl, fun k => ?_, fun k => ?_⟩ <;>
      cases k <;> simp only [Freq.minus, checkClassEquality, Freq.cls, Freq.classStr, h2, h3] <;> rfl
  · obtain ⟨h1, h2, h3⟩ := fl_same_obs a b h
    refine ⟨by simp only [Freq.toStr, h1], rfl, fun k => ?_, fun k => ?_⟩ <;>
      cases k <;> simp only [Freq.minus, checkClassEquality, Freq.cls, Freq.classStr, h2, h3] <;> rfl

/-! ## C02 -/

/-- C02 (all classes, provided a daily-in-week range is not a single weekday): the difference of `f`
advanced by `a` and `f` advanced by `b` is `a - b`.  Missing for the full property: single-weekday
ranges, where the code is wrong (`C02_violated_single_day_range`). -/
theorem C02_minus_next_partial (f : Freq) (h : f.WF) (hs : f.NotSingle) (a b : Int) :
    ∃ f1 f2, f.next a = .ok f1 ∧ f.next b = .ok f2 ∧ f1.minus f2 = .ok (a - b) := by
  obtain ⟨g1, n1, w1, c1, s1⟩ := freq_next f h a
  obtain ⟨g2, n2, w2, c2, s2⟩ := freq_next f h b
  have hck : checkClassEquality g1 g2 = .ok () := check_of g1 g2 w1 (c1.trans c2.symm) (s1.trans s2.symm)
  refine ⟨g1, g2, n1, n2, ?_⟩
  unfold Freq.minus
  rw [hck]
  cases f with
  | cs p => simp [Freq.next] at n1 n2; subst n1 n2; simp
  | year f =>
    simp [Freq.next, yb_next_adv f h] at n1 n2; subst n1 n2
    simpa using yb_minus f h a b
  | week f =>
    simp [Freq.next, wb_next f h] at n1 n2; subst n1 n2
    simpa using wb_minus f h hs a b
  | day f =>
    simp [Freq.next, db_next_adv f h] at n1 n2; subst n1 n2
    simpa using db_minus f h hs a b
  | listS f =>
    obtain ⟨f1, f2, e1, e2, e3⟩ := fl_minus_next f h a b
    simp [Freq.next, e1, e2] at n1 n2; subst n1 n2
    simpa using e3
  | listD f =>
    obtain ⟨f1, f2, e1, e2, e3⟩ := fl_minus_next f h a b
    simp [Freq.next, e1, e2] at n1 n2; subst n1 n2
    simpa using e3

/-- C02, the special case in the words of the property. -/
theorem C02_minus_next_self_partial (f : Freq) (h : f.WF) (hs : f.NotSingle) (n : Int) :
    ∃ g f0, f.next n = .ok g ∧ f.next 0 = .ok f0 ∧ f0.Same f ∧ g.minus f = .ok n := by
  obtain ⟨f1, f2, h1, h2, h3⟩ := C02_minus_next_partial f h hs n 0
  obtain ⟨g, g1, g2⟩ := C01_next_zero f h
  rw [h2] at g1; cases g1
  refine ⟨f1, f2, h1, h2, g2, ?_⟩
  rw [← (C01_same_observable f2 f g2).2.2.2 f1, h3]; congr 1; omega

/-- C02 is false of the code for a daily-in-week range of one weekday (Monday–Monday): advancing by
one and subtracting gives 8, because `GetLength` returns 8 for such a range. -/
theorem C02_violated_single_day_range :
    ∃ f g : Freq, f.WF ∧ f.next 1 = .ok g ∧ g.minus f = .ok 8 := by
  refine ⟨.week ⟨.dailyInWeek, 2451617, ⟨1, 1⟩, 1⟩, .week ⟨.dailyInWeek, 2451624, ⟨1, 1⟩, 1⟩,
    ?_, ?_, ?_⟩
  · right; right; right; right; decide
  · decide +kernel
  · decide +kernel

/-! ## C03 -/

/-- C03 (all classes but the lists): `f` advanced by `a` compares to `f` advanced by `b` as `a` to `b`. -/
theorem C03_compare_next_partial (f : Freq) (h : f.WF) (hl : f.NotList) (a b : Int) :
    ∃ f1 f2, f.next a = .ok f1 ∧ f.next b = .ok f2 ∧
      f1.compareTo f2 = .ok (if a > b then 1 else if a < b then -1 else 0) := by
  have hsg : (if a > b then (1 : Int) else if a < b then -1 else 0) = sgn (a - b) := by
    unfold sgn; split_ifs <;> omega
  rw [hsg]
  obtain ⟨g1, n1, w1, c1, s1⟩ := freq_next f h a
  obtain ⟨g2, n2, w2, c2, s2⟩ := freq_next f h b
  have hck : checkClassEquality g1 g2 = .ok () := check_of g1 g2 w1 (c1.trans c2.symm) (s1.trans s2.symm)
  refine ⟨g1, g2, n1, n2, ?_⟩
  unfold Freq.compareTo
  rw [hck]
  cases f with
  | cs p =>
    simp [Freq.next] at n1 n2; subst n1 n2; simp only [Outcome.ok_bind, Outcome.pure_eq, sgn]
    congr 1; split_ifs <;> omega
  | year f =>
    simp [Freq.next, yb_next_adv f h] at n1 n2; subst n1 n2
    simpa using yb_compare f h a b
  | week f =>
    simp [Freq.next, wb_next f h] at n1 n2; subst n1 n2
    simp only [Outcome.ok_bind, Outcome.pure_eq, WB.compareRaw, gt_iff_lt, dayAfter_lt f h, sgn]
    congr 1; split_ifs <;> omega
  | day f =>
    simp [Freq.next, db_next_adv f h] at n1 n2; subst n1 n2
    simpa using db_compare f h a b
  | listS f => exact absurd hl id
  | listD f => exact absurd hl id

/-- C03: comparison answers -1, 0 or 1 and swapping the arguments negates it (all classes, lists included,
no well-formedness needed). -/
theorem C03_compare_antisymm (f g : Freq) (c : Int) (h : f.compareTo g = .ok c) :
    g.compareTo f = .ok (-c) ∧ (c = -1 ∨ c = 0 ∨ c = 1) := by
  obtain ⟨hk, hc⟩ := (cmp_iff f g c).1 h
  have hk' := check_symm _ _ hk
  rw [cmp_iff]
  have mk : ∀ {f g : Freq} {c d : Int}, Cmp f g c → c = d → Cmp f g d := by
    intro f g c d h e; rwa [← e]
  cases hc with
  | cs p q => exact ⟨⟨hk', mk (.cs _ _) (by split_ifs <;> omega)⟩, by split_ifs <;> omega⟩
  | year f g =>
    have s1 := yb_cmp_spec f g
    have s2 := yb_cmp_spec g f
    exact ⟨⟨hk', mk (.year _ _) (by omega)⟩, by omega⟩
  | week f g =>
    have s1 := wb_cmp_spec f g
    have s2 := wb_cmp_spec g f
    exact ⟨⟨hk', mk (.week _ _) (by omega)⟩, by omega⟩
  | day f g c h1 h2 =>
    have s1 := db_cmp_spec f g c h2
    have s2 := db_cmp_spec g f _ rfl
    exact ⟨⟨hk', mk (.day _ _ _ (check_symm _ _ h1) rfl) (by omega)⟩, by omega⟩
  | listS f g l1 l2 h1 h2 =>
    exact ⟨⟨hk', mk (.listS g f l2 l1 h2 h1) (by split_ifs <;> omega)⟩, by split_ifs <;> omega⟩
  | listD f g l1 l2 h1 h2 =>
    exact ⟨⟨hk', mk (.listD g f l2 l1 h2 h1) (by split_ifs <;> omega)⟩, by split_ifs <;> omega⟩

/-- C03: comparison is transitive (all classes). -/
theorem C03_compare_trans (f g k : Freq) (c1 c2 : Int) (h1 : f.compareTo g = .ok c1)
    (h2 : g.compareTo k = .ok c2) (l1 : c1 ≤ 0) (l2 : c2 ≤ 0) :
    ∃ c3, f.compareTo k = .ok c3 ∧ c3 ≤ 0 ∧ (c1 < 0 ∨ c2 < 0 → c3 < 0) := by
  obtain ⟨k1, m1⟩ := (cmp_iff f g c1).1 h1
  obtain ⟨k2, m2⟩ := (cmp_iff g k c2).1 h2
  have k3 := check_trans _ _ _ k1 k2
  simp only [cmp_iff, k3, true_and]
  cases m1 with
  | cs p q =>
    cases m2 with
    | cs _ r => refine ⟨_, .cs _ _, ?_⟩; split_ifs at * <;> omega
  | year f g =>
    cases m2 with
    | year _ k =>
      have s1 := yb_cmp_spec f g
      have s2 := yb_cmp_spec g k
      have s3 := yb_cmp_spec f k
      exact ⟨_, .year _ _, by omega⟩
  | week f g =>
    cases m2 with
    | week _ k =>
      have s1 := wb_cmp_spec f g
      have s2 := wb_cmp_spec g k
      have s3 := wb_cmp_spec f k
      exact ⟨_, .week _ _, by omega⟩
  | day f g c a1 a2 =>
    cases m2 with
    | day _ k _ b1 b2 =>
      have s1 := db_cmp_spec f g _ a2
      have s2 := db_cmp_spec g k _ b2
      have s3 := db_cmp_spec f k _ rfl
      exact ⟨_, .day _ _ _ (check_trans _ _ _ a1 b1) rfl, by omega⟩
  | listS f g a b ha hb =>
    cases m2 with
    | listS _ k a' b' ha' hb' =>
      rw [hb] at ha'; cases ha'
      refine ⟨_, .listS _ _ _ _ ha hb', ?_⟩; split_ifs at * <;> omega
  | listD f g a b ha hb =>
    cases m2 with
    | listD _ k a' b' ha' hb' =>
      rw [hb] at ha'; cases ha'
      refine ⟨_, .listD _ _ _ _ ha hb', ?_⟩; split_ifs at * <;> omega

/-- C03: frequencies that compare equal print the same text (all classes but the lists). -/
theorem C03_compare_zero_partial (f g : Freq) (hl : f.NotList)
    (h : f.compareTo g = .ok 0) : f.toStr = g.toStr := by
  obtain ⟨hk, hc⟩ := (cmp_iff f g 0).1 h
  have hcls := ((check_iff f g).1 hk).1
  generalize hz : (0 : Int) = z at hc
  cases hc with
  | cs p q =>
    have : p = q := by split_ifs at hz <;> omega
    rw [this]
  | year f g =>
    have s1 := yb_cmp_spec f g
    have h1 : f.year = g.year := by omega
    have h2 : f.position = g.position := by omega
    have hc : f.cls = g.cls := hcls
    simp only [Freq.toStr, YB.toStr, h1, h2, hc]
  | week f g =>
    have s1 := wb_cmp_spec f g
    have h1 : f.day = g.day := by omega
    simp only [Freq.toStr, WB.toStr, h1]
  | day f g c a1 a2 =>
    have s1 := db_cmp_spec f g _ a2
    have h1 : f.day.day = g.day.day := by omega
    have h2 : f.position = g.position := by omega
    have hc : f.cls = g.cls := hcls
    simp only [Freq.toStr, DB.toStr, WB.toStr, h1, h2, hc]
  | listS f g l1 l2 h1 h2 => exact absurd hl id
  | listD f g l1 l2 h1 h2 => exact absurd hl id

/-- C03 is false of the code for lists: in the list A, B the item after B is reported equal to B
itself and the period before A equal to A. -/
theorem C03_violated_list : ∃ f g : Freq, f.WF ∧ f.next 1 = .ok g ∧ g.compareTo f = .ok 0 ∧
    g.minus f = .ok 1 := by
  refine ⟨.listS ⟨"B".toList, some ["A".toList, "B".toList], 0⟩,
    .listS ⟨"B".toList, some ["A".toList, "B".toList], 1⟩, ?_, ?_, ?_, ?_⟩
  · exact ⟨["A".toList, "B".toList], rfl, by decide, by decide⟩
  · decide
  · decide
  · decide

/-! ## C04 -/

/-- The position and number of partitions of a frequency (if it has them). -/
def posCount : Freq → Option (Int × Int)
  | .year f => some (f.position, f.partitionCount)
  | .day f => some (f.position, f.partitionCount)
  | _ => none

theorem advances_wf (f : Freq) (h : f.WF) (ns : List Int) : ∃ g, advances f ns = .ok g ∧ g.WF := by
  induction ns generalizing f with
  | nil => exact ⟨f, rfl, h⟩
  | cons n ns ih =>
    obtain ⟨g, h1, h2, -, -⟩ := freq_next f h n
    obtain ⟨k, h3, h4⟩ := ih g h2
    exact ⟨k, by simp [advances, h1, h3], h4⟩

/-- C04: after any history of advances the position lies in `1..partitions` (year- and day-based). -/
theorem C04_position_in_range (f : Freq) (h : f.WF) (ns : List Int) :
    ∃ g, advances f ns = .ok g ∧ ∀ p c, posCount g = some (p, c) → 1 ≤ p ∧ p ≤ c := by
  obtain ⟨g, h1, h2⟩ := advances_wf f h ns
  refine ⟨g, h1, fun p c hpc => ?_⟩
  match g, h2 with
  | .year g, h2 => simp [posCount] at hpc; have := h2.2.2; omega
  | .day g, h2 => simp [posCount] at hpc; have := h2.2.2; omega

/-- C04 for the year-based constructor and any year multiple (also zero or negative): every history of
advances succeeds, keeps the number of partitions, and the position stays in range. -/
theorem C04_year_any_multiple (y p k m : Int) (f : YB) (h : YB.make y p k m = .ok f) (ns : List Int) :
    ∃ g : YB, advances (.year f) ns = .ok (.year g) ∧ g.partitionCount = p ∧ 1 ≤ g.position ∧ g.position ≤ p := by
  have hf : f.partitionCount = p ∧ 1 ≤ f.position ∧ f.position ≤ p := by
    unfold YB.make at h
    split_ifs at h
    cases h
    exact ⟨rfl, by simp only; omega, by simp only; omega⟩
  clear h
  induction ns generalizing f with
  | nil => exact ⟨f, rfl, hf⟩
  | cons n ns ih =>
    obtain ⟨h1, h2, h3⟩ := hf
    subst h1
    have hn := yb_next f (by omega) h2 h3 n
    have e1 := Int.emod_nonneg (f.position - 1 + n) (b := f.partitionCount) (by omega)
    have e2 := Int.emod_lt_of_pos (f.position - 1 + n) (b := f.partitionCount) (by omega)
    obtain ⟨g, g1, g2⟩ := ih (f.adv n) ⟨rfl, by simp only [YB.adv]; omega, by simp only [YB.adv]; omega⟩
    exact ⟨g, by simp only [advances, Freq.next, hn, Outcome.ok_bind, Outcome.pure_eq]; exact g1, g2⟩

/-- C04 is false for parsed frequencies: `2000Q7` is accepted as a quarterly frequency with position 7. -/
theorem C04_violated_parse :
    parse "2000Q7".toList "q".toList = .ok (.year ⟨.quarterly, 2000, 4, 7, 1⟩) := by decide +kernel

/-- A year multiple of zero is accepted by the constructor and makes the difference divide by zero. -/
theorem C02_violated_zero_multiple :
    ∃ f : YB, YB.make 2000 1 1 0 = .ok f ∧ (Freq.year f).minus (.year f) = .ub := by
  refine ⟨⟨.multiYear, 2000, 1, 1, 0⟩, by decide, by decide +kernel⟩

/-! ## C06 -/

theorem workDaysIn_unrank (r : DRange) (a b : Int) :
    workDaysIn r (r.unrank a) (r.unrank b) = (b - a).toNat := by
  unfold workDaysIn
  rw [← Int.card_Ioc]
  symm
  apply Finset.card_bij (fun k _ => r.unrank k)
  · intro k hk
    rw [Finset.mem_Ioc] at hk
    rw [Finset.mem_filter, Finset.mem_Ioc]
    refine ⟨⟨(unrank_lt r _ _).2 hk.1, ?_⟩, (inD_iff r _).1 (rank_unrank r k).2⟩
    by_contra hc
    have := (unrank_lt r b k).1 (by omega)
    omega
  · intro k _ k' _ he
    rw [← (rank_unrank r k).1, he, (rank_unrank r k').1]
  · intro d hd
    rw [Finset.mem_filter, Finset.mem_Ioc] at hd
    have hw := (inD_iff r d).2 hd.2
    have hu := unrank_rank r d hw
    refine ⟨r.rank d, ?_, hu⟩
    rw [Finset.mem_Ioc]
    constructor
    · apply (unrank_lt r _ _).1; rw [hu]; exact hd.1.1
    · by_contra hc
      have := (unrank_lt r b (r.rank d)).2 (by omega)
      rw [hu] at this; omega

/-- C06: advancing forward lands on a working day, with exactly `n` working days in the interval
(old day, new day]; so it is the `n`-th working day after the old one. -/
theorem C06_forward (f : WB) (hc : f.cls = .dailyInWeek) (h : WorkDay f.range f.day) (n : Nat) :
    ∃ d, f.next n = .ok { f with day := d } ∧ f.day ≤ d ∧ WorkDay f.range d ∧
      workDaysIn f.range f.day d = n := by
  have hi := (inD_iff _ _).2 h
  refine ⟨_, diw_next f hc hi n, ?_, (inD_iff _ _).1 (rank_unrank _ _).2, ?_⟩
  · have h1 := unrank_lt f.range (f.range.rank f.day + n) (f.range.rank f.day)
    have h2 := unrank_rank _ _ hi
    rw [h2] at h1; omega
  · conv => lhs; arg 2; rw [← unrank_rank f.range f.day hi]
    rw [workDaysIn_unrank]; omega

/-- C06: advancing backward lands on a working day, with exactly `n` working days in (new day, old day]. -/
theorem C06_backward (f : WB) (hc : f.cls = .dailyInWeek) (h : WorkDay f.range f.day) (n : Nat) :
    ∃ d, f.next (-n) = .ok { f with day := d } ∧ d ≤ f.day ∧ WorkDay f.range d ∧
      workDaysIn f.range d f.day = n := by
  have hi := (inD_iff _ _).2 h
  refine ⟨_, diw_next f hc hi (-n), ?_, (inD_iff _ _).1 (rank_unrank _ _).2, ?_⟩
  · have h1 := unrank_lt f.range (f.range.rank f.day) (f.range.rank f.day + -n)
    have h2 := unrank_rank _ _ hi
    rw [h2] at h1; omega
  · conv => lhs; arg 3; rw [← unrank_rank f.range f.day hi]
    rw [workDaysIn_unrank]; omega

/-- C06: the difference of two working days is the signed number of working days between them,
provided the range is not a single weekday (see `C02_violated_single_day_range`). -/
theorem C06_minus_partial (f g : WB) (hc : f.cls = .dailyInWeek) (hc' : g.cls = .dailyInWeek)
    (hr : g.range = f.range) (hne : f.range.start ≠ f.range.stop)
    (hf : WorkDay f.range f.day) (hg : WorkDay f.range g.day) (hle : g.day ≤ f.day) :
    (Freq.week f).minus (.week g) = .ok (workDaysIn f.range g.day f.day : Int) ∧
    (Freq.week g).minus (.week f) = .ok (-(workDaysIn f.range g.day f.day : Int)) := by
  have hi := (inD_iff _ _).2 hf
  have hj := (inD_iff _ _).2 hg
  have wf : (Freq.week f).WF := .inr (.inr (.inr (.inr ⟨hc, hf⟩)))
  have wg : (Freq.week g).WF := .inr (.inr (.inr (.inr ⟨hc', hr ▸ hg⟩)))
  have hs : (Freq.week f).classStr = (Freq.week g).classStr := by
    simp [Freq.classStr, WB.classStr, hc, hc', hr]
  have hk := check_of (.week f) (.week g) wf (by simp [Freq.cls, hc, hc']) hs
  have hk' := check_symm _ _ hk
  have hle' : f.range.rank g.day ≤ f.range.rank f.day := by
    by_contra hcon
    have := (unrank_lt f.range (f.range.rank f.day) (f.range.rank g.day)).2 (by omega)
    rw [unrank_rank _ _ hi, unrank_rank _ _ hj] at this; omega
  have hcount : workDaysIn f.range g.day f.day = (f.range.rank f.day - f.range.rank g.day).toNat := by
    conv => lhs; rw [← unrank_rank f.range f.day hi, ← unrank_rank f.range g.day hj]
    exact workDaysIn_unrank _ _ _
  rw [hcount]
  constructor
  · unfold Freq.minus; rw [hk]
    simp only [Outcome.ok_bind]
    rw [diw_minus f g hc hr hne hi (hr ▸ hj)]; congr 1; omega
  · unfold Freq.minus; rw [hk']
    simp only [Outcome.ok_bind]
    rw [diw_minus g f hc' hr.symm (hr ▸ hne) (hr ▸ hj) hi]; rw [hr]; congr 1; omega

/-! ## C07 -/

/-- Number of weekdays in a range, by counting. -/
def rangeCount (r : DRange) : Nat := ((List.finRange 7).filter (fun v => decide (InWeek r v))).length

/-- C07: membership test is exact and always terminates. -/
theorem C07_isInRange (r : DRange) (v : DOW) : r.isInRange v = .ok (decide (InWeek r v)) := by
  have h := isInRange_table r.start r.stop v
  rw [show (⟨r.start, r.stop⟩ : DRange) = r from rfl] at h
  rw [h]
  have hd : r.offD v < r.len ↔ InWeek r v := by unfold InWeek DRange.offD DRange.len; omega
  simp only [hd]

/-- C07: the out-of-range test never loops forever and is the negation of membership. -/
theorem C07_isOutsideRange (r : DRange) (v : DOW) (fw : Bool) :
    ∃ k, r.isOutsideRange v fw = .ok (decide (¬ InWeek r v), k) := by
  have hd : r.offD v < r.len ↔ InWeek r v := by unfold InWeek DRange.offD DRange.len; omega
  cases fw with
  | true =>
    have h := outF_table r.start r.stop v
    rw [show (⟨r.start, r.stop⟩ : DRange) = r from rfl] at h
    rw [h]; simp only [hd]
    split <;> rename_i hh <;> simp [hh]
  | false =>
    have h := outB_table r.start r.stop v
    rw [show (⟨r.start, r.stop⟩ : DRange) = r from rfl] at h
    rw [h]; simp only [hd]
    split <;> rename_i hh <;> simp [hh]

/-- C07: the length of a range of two different days is the number of its days (whole table). -/
theorem C07_length_partial : ∀ s e : DOW, s ≠ e → DRange.getLength ⟨s, e⟩ = rangeCount ⟨s, e⟩ := by
  decide +kernel

/-- C07 is false for one-day ranges: the length is reported as 8 instead of 1 (whole table). -/
theorem C07_violated_length : ∀ s : DOW, DRange.getLength ⟨s, s⟩ = 8 ∧ rangeCount ⟨s, s⟩ = 1 := by
  decide +kernel

/-- C07: forward distance is the number of forward steps (whole table). -/
theorem C07_distance_forward : ∀ s e : DOW, ∃ k : Fin 7,
    DRange.distance s e true = (k.val : Int) ∧ (nextDOW^[k.val]) s = e := by decide +kernel

/-- C07: backward distance is the number of backward steps when the target is not later in the week. -/
theorem C07_distance_backward_partial : ∀ s e : DOW, e ≤ s → ∃ k : Fin 7,
    DRange.distance s e false = (k.val : Int) ∧ (prevDOW^[k.val]) s = e := by decide +kernel

/-- C07 is false for the backward distance from Sunday to Monday: 8 instead of 6. -/
theorem C07_violated_distance_backward :
    DRange.distance 0 1 false = 8 ∧ (prevDOW^[6]) 0 = (1 : DOW) := by decide

/-! ## C08 -/

/-- C08: inside the list, advancing by `n` moves to the item `n` places away. -/
theorem C08_list_next_inside {α : Type} [DecidableEq α] (l : List α) (hn : l.Nodup) (i : Nat) (n : Int)
    (hi : i < l.length) (j : Nat) (hj : j < l.length) (hij : (j : Int) = i + n) :
    (FL.make l[i] (some l)).next n = .ok (FL.make l[j] (some l)) := by
  obtain ⟨l', g, h1, h2, h3, h4, h5⟩ := fl_next (FL.make l[i] (some l)) ⟨l, rfl, hn, fun _ => List.getElem_mem hi⟩ n
  cases h1
  rw [h2]
  have hp : FL.place l (FL.make l[i] (some l)) = i := by simp [FL.place, FL.make, indexOf_getElem l hn i hi]
  have hp' : FL.place l (FL.make l[j] (some l)) = j := by simp [FL.place, FL.make, indexOf_getElem l hn j hj]
  have hs := fl_place_inj l g (FL.make l[j] (some l)) h3 rfl (fl_place_of_wf g h4 l h3).2
    (fun _ => List.getElem_mem hj) (by omega)
  obtain ⟨e1, e2, e3⟩ := hs
  have e2' : g.outIndex = 0 := e2
  have e3' := e3 e2'
  cases g
  simp_all [FL.make]

/-- C08: leaving the list by any amount and coming back restores the item. -/
theorem C08_list_return {α : Type} [DecidableEq α] (l : List α) (hn : l.Nodup) (v : α) (hv : v ∈ l) (n : Int) :
    ∃ g, (FL.make v (some l)).next n = .ok g ∧ g.next (-n) = .ok (FL.make v (some l)) := by
  have w : (FL.make v (some l)).WF := ⟨l, rfl, hn, fun _ => hv⟩
  obtain ⟨l', g, h1, h2, h3, h4, h5⟩ := fl_next (FL.make v (some l)) w n
  cases h1
  obtain ⟨l'', k, i1, i2, i3, i4, i5⟩ := fl_next g h4 (-n)
  rw [h3] at i1; cases i1
  refine ⟨g, h2, ?_⟩
  rw [i2]
  obtain ⟨e1, e2, e3⟩ := fl_place_inj l k (FL.make v (some l)) i3 rfl (fl_place_of_wf k i4 l i3).2
    (fun _ => hv) (by omega)
  have e2' : k.outIndex = 0 := e2
  have e3' := e3 e2'
  cases k
  simp_all [FL.make]

/-- C08: comparison is right as long as both frequencies are inside the (same) list. -/
theorem C08_list_compare_partial (l : List Str) (hn : l.Nodup) (i j : Nat) (hi : i < l.length)
    (hj : j < l.length) :
    (Freq.listS (FL.make l[i] (some l))).compareTo (.listS (FL.make l[j] (some l))) =
      .ok (if i > j then 1 else if i < j then -1 else 0) := by
  simp [Freq.compareTo, checkClassEquality, Freq.cls, Freq.classStr, areEqualI_refl, FL.compareRaw, FL.make,
    indexOf_getElem l hn _ hi, indexOf_getElem l hn _ hj]

/-! ## Non-vacuity -/

/-- 2000M11, then +3: the hypotheses of C01–C04 hold and the carry is exercised. -/
example : (Freq.year ⟨.monthly, 2000, 12, 11, 1⟩).WF ∧
    (Freq.year ⟨.monthly, 2000, 12, 11, 1⟩).next 3 = .ok (.year ⟨.monthly, 2001, 12, 2, 1⟩) ∧
    (Freq.year ⟨.monthly, 2000, 12, 11, 1⟩).NotSingle ∧ (Freq.year ⟨.monthly, 2000, 12, 11, 1⟩).NotList := by
  refine ⟨⟨by decide, by decide, by decide, by decide⟩, by decide +kernel, trivial, trivial⟩

/-- Wednesday 2000-03-15 in a Monday–Friday week; three steps reach Monday 2000-03-20. -/
example : WB.WF ⟨.dailyInWeek, 2451619, ⟨1, 5⟩, 1⟩ ∧ WB.NotSingle ⟨.dailyInWeek, 2451619, ⟨1, 5⟩, 1⟩ ∧
    WB.next ⟨.dailyInWeek, 2451619, ⟨1, 5⟩, 1⟩ 3 = .ok ⟨.dailyInWeek, 2451624, ⟨1, 5⟩, 1⟩ := by
  refine ⟨?_, by intro; decide, by decide +kernel⟩
  right; right; right; right; decide

/-- An hourly frequency on top of it. -/
example : (Freq.day ⟨.hourly, ⟨.dailyInWeek, 2451621, ⟨1, 5⟩, 1⟩, 24, 23⟩).WF ∧
    (Freq.day ⟨.hourly, ⟨.dailyInWeek, 2451621, ⟨1, 5⟩, 1⟩, 24, 23⟩).next 2 =
      .ok (.day ⟨.hourly, ⟨.dailyInWeek, 2451624, ⟨1, 5⟩, 1⟩, 24, 1⟩) := by
  refine ⟨⟨by decide, ?_, by decide, by decide⟩, by decide +kernel⟩
  right; right; right; right; decide

/-- A list frequency. -/
example : (Freq.listS (FL.make "B".toList (some ["A".toList, "B".toList, "C".toList]))).WF :=
  ⟨["A".toList, "B".toList, "C".toList], rfl, by decide, by decide⟩

/-- Constructor hypotheses are satisfiable. -/
example : ∃ f, YB.make 2000 4 3 1 = .ok f := ⟨_, rfl⟩
example : ∃ f, WB.make 2451622 false (some ⟨1, 5⟩) true 1 = .ok f ∧ f.day = 2451624 := by
  refine ⟨⟨.dailyInWeek, 2451624, ⟨1, 5⟩, 1⟩, by decide +kernel, rfl⟩

end Fq
end LDT
