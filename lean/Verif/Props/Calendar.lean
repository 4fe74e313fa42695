import Verif.Props.Text
/-! # Calendar dates: the other direction of C39 -/
namespace LDT
namespace Cal
open Text

/-- The first of the next month comes after the last day of the month. -/
theorem next_month (y m : Int) (h1 : 1 ≤ m) (h2 : m ≤ 12) :
    dayNumber ⟨if m = 12 then y + 1 else y, if m = 12 then 1 else m + 1, 1⟩ = dayNumber ⟨y, m, 1⟩ + endOfMonth y m := by
  have hm : m = 1 ∨ m = 2 ∨ m = 3 ∨ m = 4 ∨ m = 5 ∨ m = 6 ∨ m = 7 ∨ m = 8 ∨ m = 9 ∨ m = 10 ∨ m = 11 ∨ m = 12 := by omega
  have e : isLeap y = decide (y % 4 = 0 ∧ (y % 100 ≠ 0 ∨ y % 400 = 0)) := by
    unfold isLeap; simp [Bool.decide_and, Bool.decide_or]
  unfold dayNumber endOfMonth
  rw [e]
  simp only [decide_eq_true_eq]
  rcases hm with h | h | h | h | h | h | h | h | h | h | h | h <;> subst h <;> simp <;>
    (try split_ifs) <;> omega

/-- The first day of month `k = 12·year + month - 1`. -/
def monthStart (k : Int) : Int := dayNumber ⟨k / 12, k % 12 + 1, 1⟩

theorem monthStart_succ (k : Int) : monthStart (k + 1) = monthStart k + endOfMonth (k / 12) (k % 12 + 1) := by
  have h := next_month (k / 12) (k % 12 + 1) (by omega) (by omega)
  unfold monthStart
  rw [← h]
  by_cases hk : k % 12 + 1 = 12
  · rw [if_pos hk, if_pos hk]; congr 2 <;> omega
  · rw [if_neg hk, if_neg hk]; congr 2 <;> omega

theorem endOfMonth_pos (y m : Int) : 28 ≤ endOfMonth y m := by
  unfold endOfMonth; split_ifs <;> omega

theorem monthStart_mono (k : Int) (n : Nat) : monthStart k ≤ monthStart (k + n) := by
  induction n with
  | zero => simp
  | succ n ih =>
    have h := monthStart_succ (k + n)
    have := endOfMonth_pos ((k + n) / 12) ((k + n) % 12 + 1)
    push_cast
    rw [← add_assoc]; omega

theorem dayNumber_eq (v : YMD) (h1 : 1 ≤ v.m) (h2 : v.m ≤ 12) :
    dayNumber v = monthStart (12 * v.y + v.m - 1) + v.d - 1 := by
  obtain ⟨y, m, d⟩ := v
  simp only at *
  unfold monthStart
  rw [show (12 * y + m - 1) / 12 = y by omega, show (12 * y + m - 1) % 12 + 1 = m by omega]
  unfold dayNumber
  simp only
  omega

/-- A real day of the calendar. -/
structure Real (v : YMD) : Prop where
  m1 : 1 ≤ v.m
  m2 : v.m ≤ 12
  d1 : 1 ≤ v.d
  d2 : v.d ≤ endOfMonth v.y v.m

theorem month_le {v w : YMD} (hv : Real v) (hw : Real w) (h : dayNumber v = dayNumber w) :
    12 * v.y + v.m - 1 ≤ 12 * w.y + w.m - 1 := by
  by_contra hc
  rw [dayNumber_eq v hv.m1 hv.m2, dayNumber_eq w hw.m1 hw.m2] at h
  have hs := monthStart_succ (12 * w.y + w.m - 1)
  have e1 : (12 * w.y + w.m - 1) / 12 = w.y := by have := hw.m1; have := hw.m2; omega
  have e2 : (12 * w.y + w.m - 1) % 12 + 1 = w.m := by have := hw.m1; have := hw.m2; omega
  rw [e1, e2] at hs
  have hm := monthStart_mono (12 * w.y + w.m - 1 + 1) (12 * v.y + v.m - 1 - (12 * w.y + w.m - 1 + 1)).toNat
  rw [show 12 * w.y + w.m - 1 + 1 + ((12 * v.y + v.m - 1 - (12 * w.y + w.m - 1 + 1)).toNat : Int)
    = 12 * v.y + v.m - 1 by omega] at hm
  have := hv.d1; have := hw.d2
  omega

/-- Different days of the calendar have different day numbers. -/
theorem C39_dayNumber_injective {v w : YMD} (hv : Real v) (hw : Real w) (h : dayNumber v = dayNumber w) : v = w := by
  have a := month_le hv hw h
  have b := month_le hw hv h.symm
  have e : 12 * v.y + v.m - 1 = 12 * w.y + w.m - 1 := by omega
  rw [dayNumber_eq v hv.m1 hv.m2, dayNumber_eq w hw.m1 hw.m2, e] at h
  have := hv.m1; have := hv.m2; have := hw.m1; have := hw.m2
  obtain ⟨y, m, d⟩ := v
  obtain ⟨y', m', d'⟩ := w
  simp only at *
  simp only [YMD.mk.injEq]
  omega

theorem dayNumber_lower {v : YMD} (hv : Real v) (hy : -4799 ≤ v.y) : -32044 ≤ dayNumber v := by
  have := hv.m1; have := hv.m2; have := hv.d1
  obtain ⟨y, m, d⟩ := v
  unfold dayNumber
  simp only at *
  have h12 : (14 - m) / 12 = 0 ∨ (14 - m) / 12 = 1 := by omega
  rcases h12 with h | h <;> rw [h] <;> omega

/-- Every real date of a year from -4800 on is the date of its day number. -/
theorem C39_date_of_dayNumber {v : YMD} (hv : Real v) (hy : -4799 ≤ v.y) : fromDayNumber (dayNumber v) = v := by
  have hn := dayNumber_lower hv hy
  obtain ⟨a, b, c, d⟩ := from_valid _ hn
  exact C39_dayNumber_injective ⟨a, b, c, d⟩ hv (dayNumber_from _ hn)

theorem digVal_append (s : Str) (c : Char) : digVal (s ++ [c]) = 10 * digVal s + (c.toNat - 48) := by
  unfold digVal; simp [List.foldl_append]; omega

theorem digVal_inj : ∀ (s t : Str), s.length = t.length → (∀ c ∈ s, isDig c = true) → (∀ c ∈ t, isDig c = true) →
    digVal s = digVal t → s = t := by
  intro s
  induction s using List.reverseRecOn with
  | nil => intro t hl _ _ _; cases t <;> simp_all
  | append_singleton s c ih =>
    intro t hl hs ht h
    rcases List.eq_nil_or_concat t with rfl | ⟨t, d, rfl⟩
    · simp at hl
    · rw [List.concat_eq_append] at *
      rw [digVal_append, digVal_append] at h
      have hc := hs c (by simp)
      have hd := ht d (by simp)
      simp only [isDig, Bool.and_eq_true, decide_eq_true_eq] at hc hd
      have e1 : digVal s = digVal t := by omega
      have e2 : c.toNat = d.toNat := by omega
      rw [ih t (by simpa using hl) (fun c h => hs c (by simp [h])) (fun c h => ht c (by simp [h])) e1,
        Char.toNat_inj.1 e2]

/-- Parsing an eight-character text succeeds only for a real date of a supported year, and that date prints back as
the same text. -/
theorem C39_parse_print {s : Str} {n : Int} (hl : s.length = 8) (h : fromIso s = .ok n) :
    Supported n ∧ toIso n = s ∧ (∀ c ∈ s, isDig c = true) ∧
      Real ⟨digVal (s.take 4), digVal ((s.drop 4).take 2), digVal ((s.drop 6).take 2)⟩ := by
  unfold fromIso at h
  simp only at h
  split_ifs at h with h1 h2
  rw [Outcome.ok.injEq] at h
  have h1' : (s.take 4).all isDig = true ∧ ((s.drop 4).take 2).all isDig = true ∧ ((s.drop 6).take 2).all isDig = true := by
    by_contra hc; exact h1 (Or.inr hc)
  simp only [validYMD, Bool.and_eq_true, decide_eq_true_eq] at h2
  obtain ⟨⟨⟨⟨⟨y0, y1⟩, m0⟩, m1⟩, d0⟩, d1⟩ := h2
  have hreal : Real ⟨digVal (s.take 4), digVal ((s.drop 4).take 2), digVal ((s.drop 6).take 2)⟩ := ⟨m0, m1, d0, d1⟩
  have hfrom := C39_date_of_dayNumber hreal (by simp only; omega)
  rw [h] at hfrom
  have hn : -32044 ≤ n := by
    rw [← h]; exact dayNumber_lower hreal (by simp only; omega)
  have hsup : Supported n := ⟨hn, by rw [hfrom]; exact y0, by rw [hfrom]; exact y1⟩
  have hsplit : s = s.take 4 ++ (s.drop 4).take 2 ++ (s.drop 6).take 2 := by
    have e3 : (s.drop 6).take 2 = s.drop 6 := List.take_of_length_le (by simp [hl])
    have e2 : (s.drop 4) = (s.drop 4).take 2 ++ s.drop 6 := by
      conv_lhs => rw [← List.take_append_drop 2 (s.drop 4)]
      rw [List.drop_drop]
    rw [e3, List.append_assoc, ← e2, List.take_append_drop]
  refine ⟨hsup, ?_, ?_, hreal⟩
  · unfold toIso
    simp only [hfrom]
    have ed : endOfMonth (digVal (s.take 4)) (digVal ((s.drop 4).take 2)) ≤ 31 := by
      unfold endOfMonth; split_ifs <;> omega
    have a1 : toStr (digVal (s.take 4) : Int) = s.take 4 := by
      unfold toStr
      rw [if_neg (by omega)]
      apply digVal_inj
      · simp only [Int.toNat_natCast]
        rw [dec4 _ (by omega) (by omega)]; simp [hl]
      · exact dec_digits _
      · exact List.all_eq_true.1 h1'.1
      · rw [digVal_dec, Int.toNat_natCast]
    have a2 : ∀ t : Str, t.length = 2 → t.all isDig = true → (digVal t : Int) < 100 → pad2 (digVal t) = t := by
      intro t ht hd hlt
      apply digVal_inj
      · simp [pad2, ht]
      · exact pad2_dig _
      · exact List.all_eq_true.1 hd
      · have := digVal_pad2 (digVal t) (by omega) hlt
        omega
    rw [a1, a2 _ (by simp [hl]) h1'.2.1 (by omega), a2 _ (by simp [hl]) h1'.2.2 (by omega)]
    exact hsplit.symm
  · intro c hc
    rw [hsplit] at hc
    simp only [List.mem_append] at hc
    rcases hc with (hc | hc) | hc
    · exact List.all_eq_true.1 h1'.1 c hc
    · exact List.all_eq_true.1 h1'.2.1 c hc
    · exact List.all_eq_true.1 h1'.2.2 c hc

/-- Real dates of the supported years are accepted. -/
theorem C39_parse_accepts {v : YMD} (hv : Real v) (hy0 : 1400 ≤ v.y) (hy1 : v.y ≤ 9999) :
    fromIso (toStr v.y ++ pad2 v.m ++ pad2 v.d) = .ok (dayNumber v) := by
  have hf := C39_date_of_dayNumber hv (by omega)
  have hn : Supported (dayNumber v) := by
    exact ⟨dayNumber_lower hv (by omega), by rw [hf]; exact hy0, by rw [hf]; exact hy1⟩
  have := fromIso_toIso _ hn
  unfold toIso at this
  simp only [hf] at this
  exact this

example : fromIso "20240229".toList = .ok 2460370 ∧ fromIso "20231131".toList = .throws ∧
    fromIso "20230229".toList = .throws := by decide +kernel

end Cal
end LDT
