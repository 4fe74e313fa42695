import Verif.Lemmas.Calendar
import Verif.Spec.Freq
/-!
# C05 frequency text round trip, C38 split/join, C39 calendar
-/
namespace LDT
namespace Fq
open Text Cal

/-! ## Specification vocabulary -/

/-- Fits a 32-bit C++ `int`. -/
def Int32 (i : Int) : Prop := -2147483648 ≤ i ∧ i ≤ 2147483647

/-- A week-based frequency with the fields its class does not use reset: the week range matters only to
daily-in-week frequencies, the multiple does not matter to them. -/
def WB.norm (f : WB) : WB :=
  if f.cls = .dailyInWeek then { f with multi := 1 } else { f with range := DRange.default }

/-- A frequency with unused fields reset. -/
def Freq.norm : Freq → Freq
  | .week f => .week f.norm
  | .day f => .day { f with day := f.day.norm }
  | f => f

/-- Every integer of the frequency fits `int`, every date is in the years 1400–9999. -/
def Freq.Fits : Freq → Prop
  | .cs p => Int32 p
  | .year f => Int32 f.year ∧ Int32 f.partitionCount ∧ Int32 f.position ∧ Int32 f.yearMulti
  | .week f => Supported f.day ∧ Int32 f.multi
  | .day f => Supported f.day.day ∧ Int32 f.day.multi ∧ Int32 f.partitionCount ∧ Int32 f.position
  | .listS f => Int32 f.outIndex
  | .listD f => Int32 f.outIndex ∧ (f.outIndex = 0 → Supported f.value) ∧ ∀ l, f.items = some l → ∀ d ∈ l, Supported d

/-! ## Class strings -/

theorem toStr_cons (i : Int) : ∃ c s, Text.toStr i = c :: s ∧ (isDig c = true ∨ c = '-') := by
  have h := toStr_ne_nil i
  have hc := toStr_chars i
  cases h1 : Text.toStr i with
  | nil => exact absurd h1 h
  | cons c s => exact ⟨c, s, rfl, hc c (by rw [h1]; simp)⟩

theorem notA (c : Char) (h : isDig c = true ∨ c = '-') : ¬ 'a' = c := by
  rcases h with h | h
  · intro e; subst e; revert h; decide
  · subst h; decide

theorem getClass_week (f : WB) (h : f.WF) : ∀ c, f.classStr = .ok c → getClass c = .ok f.cls := by
  intro c hc
  rcases h with ⟨h, -⟩ | ⟨h, -⟩ | ⟨h, -⟩ | ⟨h, -⟩ | ⟨h, -⟩ <;> rw [WB.classStr, h] at hc <;>
    simp only [Outcome.ok.injEq] at hc <;> subst hc <;> rw [h]
  · rfl
  · obtain ⟨d, s, e, hd⟩ := toStr_cons f.multi
    rw [e]; simp [getClass, areEqualI, startsWith]
  · rfl
  · obtain ⟨d, s, e, hd⟩ := toStr_cons f.multi
    rw [e]; simp [getClass, areEqualI, startsWith, notA d hd]
  · simp [getClass, areEqualI, startsWith]

theorem drange_round : ∀ r : DRange, DRange.parse r.toStr = .ok r := by
  rintro ⟨a, b⟩; revert a b; decide +kernel

theorem drange_chars : ∀ r : DRange, ':' ∉ r.toStr ∧ '|' ∉ r.toStr := by
  rintro ⟨a, b⟩; revert a b; decide +kernel

theorem wb_classStr_no_bar (f : WB) (h : f.WF) : ∀ c, f.classStr = .ok c → '|' ∉ c := by
  intro c hc
  have hm := toStr_not_mem f.multi '|' (by decide) (by decide)
  have hr := (drange_chars f.range).2
  rcases h with ⟨h, -⟩ | ⟨h, -⟩ | ⟨h, -⟩ | ⟨h, -⟩ | ⟨h, -⟩ <;> rw [WB.classStr, h] at hc <;>
    simp only [Outcome.ok.injEq] at hc <;> subst hc <;> simp [hm, hr]

theorem wb_classStr_ok (f : WB) (h : f.WF) : ∃ c, f.classStr = .ok c := by
  rcases h with ⟨h, -⟩ | ⟨h, -⟩ | ⟨h, -⟩ | ⟨h, -⟩ | ⟨h, -⟩ <;> simp [WB.classStr, h]

theorem wb_parse (f : WB) (h : f.WF) (hd : Supported f.day) (hm : Int32 f.multi) (c : Str)
    (hc : f.classStr = .ok c) : WB.parse0 f.toStr c f.cls = .ok f.norm := by
  unfold WB.parse0 WB.toStr
  rw [fromIso_toIso _ hd]
  have hst := stoi_toStr' f.multi hm.1 hm.2
  have key : ∀ a : Char, substr (a :: Text.toStr f.multi) 1 = .ok (Text.toStr f.multi) := by
    intro a; simp [substr]
  rcases f with ⟨cls, day, range, multi⟩
  simp only [WB.WF] at h
  simp only [WB.norm] at *
  rcases h with ⟨h, h'⟩ | ⟨h, h'⟩ | ⟨h, h'⟩ | ⟨h, h'⟩ | ⟨h, h'⟩ <;> subst h <;>
    simp only [WB.classStr, Outcome.ok.injEq] at hc <;> subst hc
  · simp [h']
  · simp [key, hst, show "w".toList = ['w'] from rfl]
  · simp [h']
  · simp [key, hst, show "d".toList = ['d'] from rfl]
  · have hs : splitMultiple ":".toList ("i:".toList ++ range.toStr) = ["i".toList, range.toStr] := by
      have := split_cons [':'] ['i'] ':' range.toStr (by decide) (by decide)
      have h2 := split_none [':'] range.toStr (fun x hx hd => by
        simp at hd; subst hd; exact (drange_chars range).1 hx)
      rw [h2] at this
      exact this
    rw [hs]
    simp [at?, Outcome.ofOption, drange_round]

theorem yb_getClass (f : YB) (h : f.WF) : ∀ c, f.classStr = .ok c → getClass c = .ok f.cls := by
  intro c hc
  obtain ⟨hcls, -, -, -⟩ := h
  unfold YB.classOf at hcls
  obtain ⟨d1, s1, e1, hd1⟩ := toStr_cons f.yearMulti
  obtain ⟨d2, s2, e2, hd2⟩ := toStr_cons f.partitionCount
  split_ifs at hcls <;> rw [YB.classStr, hcls] at hc <;> simp only [Outcome.ok.injEq, e1, e2] at hc <;>
    subst hc <;> rw [hcls] <;> simp [getClass, areEqualI, startsWith]

theorem yb_split (y p : Int) (m : Char) (hm : m ∈ "QqMm:".toList) :
    splitMultiple "QqMm:".toList (Text.toStr y ++ [m] ++ Text.toStr p) = [Text.toStr y, Text.toStr p] := by
  have hno : ∀ i : Int, ∀ x ∈ Text.toStr i, x ∉ "QqMm:".toList := by
    intro i x hx hd
    have : isDig x = false ∧ x ≠ '-' := by
      revert hd; simp; rintro (h | h | h | h | h) <;> subst h <;> decide
    exact toStr_not_mem i x this.1 this.2 hx
  rw [List.append_assoc]
  have := split_cons "QqMm:".toList (Text.toStr y) m (Text.toStr p) (hno y) hm
  rw [split_none _ _ (hno p)] at this
  exact this

theorem yb_split1 (y : Int) : splitMultiple "QqMm:".toList (Text.toStr y) = [Text.toStr y] := by
  apply split_none
  intro x hx hd
  have : isDig x = false ∧ x ≠ '-' := by
    revert hd; simp; rintro (h | h | h | h | h) <;> subst h <;> decide
  exact toStr_not_mem y x this.1 this.2 hx

theorem no_z (i : Int) : ∀ x ∈ Text.toStr i, x ∉ "z".toList := by
  intro x hx hd
  simp at hd; subst hd
  exact toStr_not_mem i 'z' (by decide) (by decide) hx

theorem yb_parse (f : YB) (h : f.WF) (hf : (Freq.year f).Fits) (c s : Str) (hc : f.classStr = .ok c)
    (hs : f.toStr = .ok s) : YB.parse0 s c f.cls = .ok f := by
  obtain ⟨hcls, hm, hp1, hp2⟩ := h
  obtain ⟨hy, hpc, hpo, hym⟩ := hf
  have sy := stoi_toStr' f.year hy.1 hy.2
  have spc := stoi_toStr' f.partitionCount hpc.1 hpc.2
  have spo := stoi_toStr' f.position hpo.1 hpo.2
  have sym := stoi_toStr' f.yearMulti hym.1 hym.2
  have kQ := yb_split f.year f.position 'Q' (by decide)
  have kM := yb_split f.year f.position 'M' (by decide)
  have kc := yb_split f.year f.position ':' (by decide)
  have k1 := yb_split1 f.year
  have z1 := split_none "z".toList (Text.toStr f.yearMulti) (no_z _)
  have z2 := split_none "z".toList (Text.toStr f.partitionCount) (no_z _)
  have z3 : splitMultiple "z".toList (Text.toStr f.partitionCount ++ "z".toList ++ Text.toStr f.yearMulti) =
      [Text.toStr f.partitionCount, Text.toStr f.yearMulti] := by
    rw [List.append_assoc]
    have := split_cons "z".toList (Text.toStr f.partitionCount) 'z' (Text.toStr f.yearMulti) (no_z _) (by decide)
    rw [z1] at this
    exact this
  have key : ∀ (a : Char) (t : Str), substr (a :: t) 1 = .ok t := by
    intro a t; simp [substr]
  rcases f with ⟨cls, year, pc, pos, ym⟩
  simp only at *
  unfold YB.classOf at hcls
  split_ifs at hcls <;> subst hcls <;> simp only [YB.classStr, YB.toStr, Outcome.ok.injEq] at hc hs <;>
    subst hc <;> subst hs <;> unfold YB.parse0
  · obtain rfl : pos = 1 := by omega
    rw [k1]; simp [at?, Outcome.ofOption, *]
  · rw [show "Q".toList = ['Q'] from rfl, kQ]; simp [at?, Outcome.ofOption, *]
  · rw [show "M".toList = ['M'] from rfl, kM]; simp [at?, Outcome.ofOption, *]
  · rw [show ":".toList = [':'] from rfl, kc, show "y".toList = ['y'] from rfl]
    simp only [List.cons_append, List.nil_append, key, Outcome.ok_bind, z2]
    simp [at?, Outcome.ofOption, sy, spo, spc, *]
  · obtain rfl : pos = 1 := by omega
    rw [show "z".toList ++ Text.toStr ym = 'z' :: Text.toStr ym from rfl, k1]
    simp only [key, Outcome.ok_bind, z1]
    simp [at?, Outcome.ofOption, sy, sym, *]
  · rw [show ":".toList = [':'] from rfl, kc, show "x".toList = ['x'] from rfl]
    rw [List.append_assoc] at z3
    simp only [List.cons_append, List.nil_append, List.append_assoc, key, Outcome.ok_bind, z3]
    simp [at?, Outcome.ofOption, sy, spo, spc, sym]

/-! ## C05 -/

/-- **C05**, classes other than lists: the class text printed for a frequency selects its class, and
parsing the text and class text printed for it gives the frequency back. -/
theorem C05_text_round_trip (f : Freq) (hw : f.WF) (hl : f.NotList) (hf : f.Fits) :
    ∃ s c, f.toStr = .ok s ∧ f.classStr = .ok c ∧ getClass c = .ok f.cls ∧ parse s c = .ok f.norm := by
  rcases f with p | f | f | f | f | f
  · refine ⟨_, _, rfl, rfl, rfl, ?_⟩
    have : getClass "cs".toList = .ok .crossSection := rfl
    simp only [parse, this, Outcome.ok_bind, stoi_toStr' p hf.1 hf.2, Freq.norm, Outcome.pure_eq]
  · have hc : ∃ c, f.classStr = .ok c := by
      have := hw.1; unfold YB.classOf at this
      split_ifs at this <;> simp [YB.classStr, this]
    have hs : ∃ s, f.toStr = .ok s := by
      have := hw.1; unfold YB.classOf at this
      split_ifs at this <;> simp [YB.toStr, this]
    obtain ⟨c, hc⟩ := hc
    obtain ⟨s, hs⟩ := hs
    have hg := yb_getClass f hw c hc
    have hp := yb_parse f hw hf c s hc hs
    refine ⟨s, c, hs, hc, hg, ?_⟩
    simp only [parse, hg, Outcome.ok_bind]
    have := hw.1; unfold YB.classOf at this
    split_ifs at this <;> rw [this] at hp ⊢ <;> simp [hp, Freq.norm]
  · obtain ⟨c, hc⟩ := wb_classStr_ok f hw
    have hg := getClass_week f hw c hc
    have hp := wb_parse f hw hf.1 hf.2 c hc
    refine ⟨_, c, rfl, hc, hg, ?_⟩
    simp only [parse, hg, Outcome.ok_bind]
    rcases hw with ⟨h, -⟩ | ⟨h, -⟩ | ⟨h, -⟩ | ⟨h, -⟩ | ⟨h, -⟩ <;> rw [h] at hp ⊢ <;>
      simp [hp, Freq.norm]
  · obtain ⟨hcls, hwd, hp1, hp2⟩ := hw
    obtain ⟨hd, hm, hpc, hpo⟩ := hf
    obtain ⟨c, hc⟩ := wb_classStr_ok f.day hwd
    have hg := getClass_week f.day hwd c hc
    have hnb := wb_classStr_no_bar f.day hwd c hc
    have hp := wb_parse f.day hwd hd hm c hc
    have spo := stoi_toStr' f.position hpo.1 hpo.2
    have spc := stoi_toStr' f.partitionCount hpc.1 hpc.2
    have split1 : splitMultiple ":".toList (f.day.toStr ++ ":".toList ++ Text.toStr f.position) =
        [f.day.toStr, Text.toStr f.position] := by
      rw [List.append_assoc]
      have := split_cons ":".toList f.day.toStr ':' (Text.toStr f.position) (fun x hx hm => by
        simp at hm; subst hm
        have := toIso_digits f.day.day hd ':' hx
        revert this; decide) (by decide)
      rw [split_none ":".toList (Text.toStr f.position) (fun x hx hm => by
        simp at hm; subst hm
        exact toStr_not_mem f.position ':' (by decide) (by decide) hx)] at this
      exact this
    have split2 : ∀ a : Str, '|' ∉ a → splitMultiple "|".toList (a ++ "|".toList ++ c) = [a, c] := by
      intro a ha
      rw [List.append_assoc]
      have := split_cons "|".toList a '|' c (fun x hx hm => by
        simp at hm; subst hm; exact ha hx) (by decide)
      rw [split_none "|".toList c (fun x hx hm => by simp at hm; subst hm; exact hnb hx)] at this
      exact this
    have sub2 : ∀ t : Str, substr ('d' :: 'a' :: t) 2 = .ok t := by intro t; simp [substr]
    unfold DB.classOf at hcls
    obtain ⟨d1, s1, e1, hd1⟩ := toStr_cons f.partitionCount
    split_ifs at hcls with h1 h2 h3
    · refine ⟨_, "ho".toList ++ "|".toList ++ c, by show DB.toStr f = _; unfold DB.toStr; rw [hcls],
        by simp [Freq.classStr, DB.classStr, hcls, hc], by
          rw [Freq.cls, hcls]; simp [getClass, areEqualI, startsWith], ?_⟩
      have hgc : getClass ("ho".toList ++ "|".toList ++ c) = .ok .hourly := by
        simp [getClass, areEqualI, startsWith]
      simp only [parse, hgc, Outcome.ok_bind, DB.parse0]
      rw [split2 _ (by decide), split1]
      simp only [at?, Outcome.ofOption, List.getElem?_cons_zero, List.getElem?_cons_succ, Outcome.ok_bind, spo, hg, hp,
        Outcome.pure_eq, Freq.norm]
      congr 2
      rw [← hcls, ← h1]
    · refine ⟨_, "mi".toList ++ "|".toList ++ c, by show DB.toStr f = _; unfold DB.toStr; rw [hcls],
        by simp [Freq.classStr, DB.classStr, hcls, hc], by
          rw [Freq.cls, hcls]; simp [getClass, areEqualI, startsWith], ?_⟩
      have hgc : getClass ("mi".toList ++ "|".toList ++ c) = .ok .minutely := by
        simp [getClass, areEqualI, startsWith]
      simp only [parse, hgc, Outcome.ok_bind, DB.parse0]
      rw [split2 _ (by decide), split1]
      simp only [at?, Outcome.ofOption, List.getElem?_cons_zero, List.getElem?_cons_succ, Outcome.ok_bind, spo, hg, hp,
        Outcome.pure_eq, Freq.norm]
      congr 2
      rw [← hcls, ← h2]
    · refine ⟨_, "se".toList ++ "|".toList ++ c, by show DB.toStr f = _; unfold DB.toStr; rw [hcls],
        by simp [Freq.classStr, DB.classStr, hcls, hc], by
          rw [Freq.cls, hcls]; simp [getClass, areEqualI, startsWith], ?_⟩
      have hgc : getClass ("se".toList ++ "|".toList ++ c) = .ok .secondly := by
        simp [getClass, areEqualI, startsWith]
      simp only [parse, hgc, Outcome.ok_bind, DB.parse0]
      rw [split2 _ (by decide), split1]
      simp only [at?, Outcome.ofOption, List.getElem?_cons_zero, List.getElem?_cons_succ, Outcome.ok_bind, spo, hg, hp,
        Outcome.pure_eq, Freq.norm]
      congr 2
      rw [← hcls, ← h3]
    · have hgc : getClass ("da".toList ++ Text.toStr f.partitionCount ++ "|".toList ++ c) = .ok .xTimesADay := by
        simp [getClass, areEqualI, startsWith]
      refine ⟨_, "da".toList ++ Text.toStr f.partitionCount ++ "|".toList ++ c,
        by show DB.toStr f = _; unfold DB.toStr; rw [hcls],
        by simp [Freq.classStr, DB.classStr, hcls, hc], by
          rw [hgc, Freq.cls, hcls], ?_⟩
      have hb : '|' ∉ "da".toList ++ Text.toStr f.partitionCount := by
        have := toStr_not_mem f.partitionCount '|' (by decide) (by decide)
        simp [this]
      simp only [parse, hgc, Outcome.ok_bind, DB.parse0]
      rw [split2 _ hb, split1]
      simp only [at?, Outcome.ofOption, List.getElem?_cons_zero, List.getElem?_cons_succ, Outcome.ok_bind, spo, hg, hp,
        Outcome.pure_eq, Freq.norm]
      rw [show "da".toList ++ Text.toStr f.partitionCount = 'd' :: 'a' :: Text.toStr f.partitionCount from rfl, sub2]
      simp only [Outcome.ok_bind, spc]
      congr 2
      rw [← hcls]
  · exact absurd hl (by simp [Freq.NotList])
  · exact absurd hl (by simp [Freq.NotList])

/-- Frequencies made by the constructors already have their unused fields reset (for the multiple of
daily-in-week frequencies: when the default multiple is given), so the round trip is exact for them. -/
theorem C05_norm_of_constructor (day : Int) (isWeek : Bool) (range : Option DRange) (forward : Bool) (multi : Int)
    (f : WB) (h : WB.make day isWeek range forward multi = .ok f) (hm : range.isSome → multi = 1)
    (hw : isWeek → range = none) : (Freq.week f).norm = .week f := by
  unfold WB.make at h
  cases range with
  | none =>
    simp at h
    subst h
    cases isWeek <;> by_cases h1 : multi = 1 <;> simp [Freq.norm, WB.norm, h1]
  | some r =>
    have h1 := hm rfl
    have h2 : isWeek = false := by
      cases isWeek
      · rfl
      · exact absurd (hw rfl) (by simp)
    subst h1; subst h2
    simp only [Option.isSome_some, if_true, Option.getD_some] at h
    rw [if_neg (by simp)] at h
    cases ho : DRange.isOutsideRange r (dow day) forward with
    | ok v =>
      simp [ho] at h; subst h
      simp [Freq.norm, WB.norm]
    | _ => simp [ho] at h

/-- A daily-in-week frequency and its text. -/
example : (Freq.week { cls := .dailyInWeek, day := 2451545, range := { start := 4, stop := 0 }, multi := 1 }).WF ∧
    (Freq.week { cls := .dailyInWeek, day := 2451545, range := { start := 4, stop := 0 }, multi := 1 }).Fits := by
  refine ⟨?_, ?_⟩
  · right; right; right; right; refine ⟨rfl, ?_⟩; show WorkDay _ _; decide
  · exact ⟨by unfold Supported; decide, by unfold Int32; decide⟩

/-- The text of a list frequency parses to its value and place. -/
theorem out_parse {α : Type} (pr : α → Str) (f : FL α) (hi : Int32 f.outIndex)
    (hv : f.outIndex = 0 → startsWith "out_item:".toList (pr f.value) = false) :
    FL.parseOut (FL.toStr pr f) = .ok f.outIndex := by
  unfold FL.parseOut
  by_cases ho : f.outIndex = 0
  · have : FL.toStr pr f = pr f.value := by simp [FL.toStr, ho]
    rw [this, hv ho, ho]; rfl
  · have : FL.toStr pr f = "out_item:".toList ++ Text.toStr f.outIndex := by simp [FL.toStr, ho]
    rw [this]
    have hst : startsWith "out_item:".toList ("out_item:".toList ++ Text.toStr f.outIndex) = true := by
      simp [startsWith]
    have hsub : substr ("out_item:".toList ++ Text.toStr f.outIndex) 9 = .ok (Text.toStr f.outIndex) := by
      simp [substr]
    rw [if_pos hst, hsub]
    simp only [Outcome.ok_bind, stoi_toStr' _ hi.1 hi.2]

/-- **C05**, string lists with their item list (`FrequencyList::ParseList`): holds when no item contains
the separator `;`, the current item is not a text of the form `out_item:…`, and the item list is not
empty. Partial: the code does not check or escape these items (see `C05_violated_list_separator`). -/
theorem C05_list_round_trip_partial (f : FL Str) (l : List Str) (hl : f.items = some l) (hne : l ≠ [])
    (hs : ∀ x ∈ l, ';' ∉ x) (hv : f.outIndex = 0 → startsWith "out_item:".toList f.value = false)
    (hi : Int32 f.outIndex) :
    ∃ c g, FL.classStrDetails "Ls".toList id f = .ok c ∧ FL.parseListS (FL.toStr id f) c = .ok g ∧ FL.Same f g := by
  have e3 : substr ("Ls".toList ++ ":".toList ++ join ";".toList (List.map id l)) 3 = .ok (join ";".toList l) := by
    simp [substr]
  have hlen : ("Ls".toList ++ ":".toList ++ join ";".toList (List.map id l)).length > 2 := by simp
  refine ⟨_, { value := if f.outIndex = 0 then FL.toStr id f else [], items := some l, outIndex := f.outIndex },
    by unfold FL.classStrDetails; rw [hl], ?_, ?_⟩
  · unfold FL.parseListS
    rw [out_parse id f hi hv]
    simp only [FL.parseItems, hlen, if_true, e3, Outcome.ok_bind, Outcome.pure_eq]
    rw [show splitMultiple ";".toList (join ";".toList l) = l from split_join ';' l hne hs]
  · refine ⟨hl, rfl, fun h0 => ?_⟩
    simp [FL.toStr, h0]

theorem mapO_toIso (l : List Int) (h : ∀ d ∈ l, Supported d) : mapO fromIso (l.map toIso) = .ok l := by
  induction l with
  | nil => rfl
  | cons d l ih =>
    simp only [List.map_cons, mapO, fromIso_toIso d (h d (by simp)), Outcome.ok_bind,
      ih (fun x hx => h x (by simp [hx])), Outcome.pure_eq]

theorem toIso_not_out (n : Int) (h : Supported n) : startsWith "out_item:".toList (toIso n) = false := by
  have hd := toIso_digits n h
  cases hs : toIso n with
  | nil => rfl
  | cons c s =>
    rw [hs] at hd
    have hc := hd c (by simp)
    have : 'o' ≠ c := by intro e; subst e; revert hc; decide
    simp [startsWith, List.isPrefixOf, this]

/-- **C05**, date lists with their item list: always round trip (the list is not empty, dates are in the
supported years). -/
theorem C05_date_list_round_trip (f : FL Int) (l : List Int) (hl : f.items = some l) (hne : l ≠ [])
    (hf : (Freq.listD f).Fits) :
    ∃ c g, FL.classStrDetails "Ld".toList toIso f = .ok c ∧ FL.parseListD (FL.toStr toIso f) c = .ok g ∧
      FL.Same f g := by
  obtain ⟨hi, hv, hit⟩ := hf
  have hit := hit l hl
  have e3 : substr ("Ld".toList ++ ":".toList ++ join ";".toList (List.map toIso l)) 3 =
      .ok (join ";".toList (l.map toIso)) := by
    simp [substr]
  have hlen : ("Ld".toList ++ ":".toList ++ join ";".toList (List.map toIso l)).length > 2 := by simp
  have hsp : splitMultiple ";".toList (join ";".toList (l.map toIso)) = l.map toIso := by
    apply split_join ';' _ (by simpa using hne)
    intro x hx
    obtain ⟨d, hd, rfl⟩ := List.mem_map.1 hx
    intro hm
    have := toIso_digits d (hit d hd) ';' hm
    revert this; decide
  have hval : (if f.outIndex = 0 then fromIso (FL.toStr toIso f) else .ok 0) =
      (.ok (if f.outIndex = 0 then f.value else 0) : Outcome Int) := by
    by_cases h0 : f.outIndex = 0
    · rw [if_pos h0, if_pos h0]
      have : FL.toStr toIso f = toIso f.value := by simp [FL.toStr, h0]
      rw [this, fromIso_toIso _ (hv h0)]
    · rw [if_neg h0, if_neg h0]
  refine ⟨_, { value := if f.outIndex = 0 then f.value else 0, items := some l, outIndex := f.outIndex },
    by unfold FL.classStrDetails; rw [hl], ?_, ?_⟩
  · unfold FL.parseListD
    rw [out_parse toIso f hi (fun h0 => toIso_not_out _ (hv h0))]
    simp only [FL.parseItems, Outcome.ok_bind, hval, hlen, if_true, e3, hsp, mapO_toIso l hit, Outcome.pure_eq]
  · exact ⟨hl, rfl, fun h0 => by simp [h0]⟩

/-- Items with the separator do not survive: the list `["a;b"]` at its only item comes back as the
two-item list `["a", "b"]` in which the current item does not occur. -/
theorem C05_violated_list_separator :
    ∃ c g, FL.classStrDetails "Ls".toList id (FL.make "a;b".toList (some ["a;b".toList])) = .ok c ∧
      FL.parseListS (FL.toStr id (FL.make "a;b".toList (some ["a;b".toList]))) c = .ok g ∧
      g.items = some ["a".toList, "b".toList] ∧ ¬ FL.Same (FL.make "a;b".toList (some ["a;b".toList])) g := by
  refine ⟨_, _, rfl, rfl, by decide, ?_⟩
  intro h; exact absurd h.1 (by decide)

/-- The general entry point `Frequency::Parse` does not restore the item list: the parsed list frequency
has a null item pointer, so advancing it is undefined behaviour. -/
theorem C05_violated_list_general (s c : Str) (g : Freq) (h : parse s c = .ok g)
    (hc : getClass c = .ok .listString ∨ getClass c = .ok .listDate) (n : Int) : g.next n = .ub := by
  rcases hc with hc | hc
  · simp only [parse, hc, Outcome.ok_bind] at h
    cases hp : FL.parseListS s c with
    | ok f => rw [hp] at h; simp only [Outcome.ok_bind, Outcome.pure_eq, Outcome.ok.injEq] at h; subst h; rfl
    | _ => rw [hp] at h; simp at h
  · simp only [parse, hc, Outcome.ok_bind] at h
    cases hp : FL.parseListD s "Ld".toList with
    | ok f => rw [hp] at h; simp only [Outcome.ok_bind, Outcome.pure_eq, Outcome.ok.injEq] at h; subst h; rfl
    | _ => rw [hp] at h; simp at h

/-- The hypotheses of `C05_violated_list_general` are met. -/
example : getClass "Ls:a;b".toList = .ok .listString ∧ ∃ g, parse "a".toList "Ls:a;b".toList = .ok g :=
  ⟨rfl, _, rfl⟩

end Fq

namespace Text

/-! ## C38 -/

/-- **C38**: splitting the joined text gives the items back. -/
theorem C38_split_join (d : Char) (xs : List Str) (hne : xs ≠ []) (h : ∀ x ∈ xs, d ∉ x) :
    splitMultiple [d] (join [d] xs) = xs := split_join d xs hne h

/-- **C38**: joining the pieces of a split gives the text back, so no character is lost. -/
theorem C38_join_split (d : Char) (s : Str) : join [d] (splitMultiple [d] s) = s := join_split d s

/-- **C38**, several delimiters: no piece contains a delimiter, and there is one piece more than there
are delimiters in the text; the pieces together are the text without its delimiters. -/
theorem C38_split_many (ds s : Str) :
    (∀ p ∈ splitMultiple ds s, ∀ c ∈ p, c ∉ ds) ∧
    (splitMultiple ds s).length = (s.filter (fun c => decide (c ∈ ds))).length + 1 ∧
    (splitMultiple ds s).flatten = s.filter (fun c => decide (c ∉ ds)) := by
  induction s with
  | nil => simp [splitMultiple]
  | cons c s ih =>
    obtain ⟨h1, h2, h3⟩ := ih
    have hne := split_ne_nil ds s
    rw [splitMultiple]
    by_cases hc : c ∈ ds
    · rw [if_pos hc]
      refine ⟨?_, ?_, ?_⟩
      · intro p hp
        rcases List.mem_cons.1 hp with h | h
        · subst h; simp
        · exact h1 p h
      · simp [h2, hc]
      · simp [h3, hc]
    · rw [if_neg hc]
      cases hs : splitMultiple ds s with
      | nil => exact absurd hs hne
      | cons p ps =>
        rw [hs] at h1 h2 h3
        refine ⟨?_, ?_, ?_⟩
        · intro q hq
          rcases List.mem_cons.1 hq with h | h
          · subst h
            intro x hx
            rcases List.mem_cons.1 hx with h | h
            · subst h; exact hc
            · exact h1 p (by simp) x h
          · exact h1 q (by simp [h])
        · simpa [hc] using h2
        · simpa [hc] using h3

example : splitMultiple [';'] "a;;b".toList = ["a".toList, [], "b".toList] := by decide

end Text

namespace Cal
open Text

/-! ## C39 -/

/-- **C39**: a date printed as `YYYYMMDD` and parsed is the same day. -/
theorem C39_iso_round_trip (n : Int) (h : Supported n) : fromIso (toIso n) = .ok n := fromIso_toIso n h

/-- **C39**: printing shows a valid year, month and day of that day, eight digits long. -/
theorem C39_iso_valid (n : Int) (h : Supported n) :
    validYMD (fromDayNumber n) = true ∧ dayNumber (fromDayNumber n) = n ∧ (toIso n).length = 8 ∧
      ∀ c ∈ toIso n, isDig c = true := by
  obtain ⟨hn, hy0, hy1⟩ := h
  obtain ⟨v1, v2, v3, v4⟩ := from_valid n hn
  refine ⟨by unfold validYMD; simp [hy0, hy1, v1, v2, v3, v4], dayNumber_from n hn, ?_, toIso_digits n ⟨hn, hy0, hy1⟩⟩
  unfold toIso
  have hys : toStr (fromDayNumber n).y = dec (fromDayNumber n).y.toNat := by unfold toStr; rw [if_neg (by omega)]
  simp only [hys, List.length_append, dec4 _ (show 1000 ≤ (fromDayNumber n).y.toNat by omega) (by omega), pad2,
    List.length_cons, List.length_nil]

/-- Different days have different texts. -/
theorem C39_iso_injective (m n : Int) (hm : Supported m) (hn : Supported n) (h : toIso m = toIso n) : m = n := by
  have a := fromIso_toIso m hm
  rw [h, fromIso_toIso n hn] at a
  exact (Outcome.ok.inj a).symm

/-- **C39**: consecutive days have consecutive weekdays. -/
theorem C39_weekday_step (n : Int) : (dow (n + 1)).val = ((dow n).val + 1) % 7 := by
  unfold dow; simp only; omega

/-- The weekday computed from the day number is the one Boost computes from year, month and day. -/
theorem C39_weekday_ymd (n : Int) (h : -32044 ≤ n) : ((dow n).val : Int) = dayOfWeekYMD (fromDayNumber n) :=
  dow_ymd n h

/-- 1 January 2000 was a Saturday and is printed 20000101. -/
example : toIso 2451545 = "20000101".toList ∧ dow 2451545 = 6 ∧ Supported 2451545 := by
  refine ⟨by decide, by decide, by unfold Supported; decide⟩

end Cal
end LDT
