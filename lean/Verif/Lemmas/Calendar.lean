import Verif.Model.Calendar
import Verif.Lemmas.Text
/-! # Lemmas about the Gregorian calendar -/
namespace LDT
namespace Cal
open Text

theorem quarter1 (q r : Int) (h0 : 0 ≤ r) (h1 : r < 4) :
    146097 * (4 * q + r) / 4 = 146097 * q + 36524 * r := by omega

/-- Internal quantities of `from_day_number`. -/
theorem parts_b (a b c : Int) (h : 0 ≤ a) (hb : (4 * a + 3) / 146097 = b) (hc : a - (146097 * b) / 4 = c) :
    0 ≤ b ∧ 0 ≤ c ∧ c ≤ 36524 ∧ (c = 36524 → b % 4 = 3) := by
  refine ⟨by omega, by omega, by omega, fun hx => ?_⟩
  obtain ⟨q, r, rfl, h0, h1⟩ : ∃ q r, b = 4 * q + r ∧ 0 ≤ r ∧ r < 4 := ⟨b / 4, b % 4, (Int.mul_ediv_add_emod b 4).symm, Int.emod_nonneg b (by decide), Int.emod_lt_of_pos b (by decide)⟩
  rw [quarter1 q r h0 h1] at hc
  have hm : (4 * q + r) % 4 = r := by omega
  rw [hm]
  have ha : a = 146097 * q + 36524 * r + 36524 := by omega
  subst ha
  have : r = 0 ∨ r = 1 ∨ r = 2 ∨ r = 3 := by omega
  clear h hc hx hm h0 h1
  rcases this with rfl | rfl | rfl | rfl <;> omega

theorem parts_d (c d e : Int) (h0 : 0 ≤ c) (h1 : c ≤ 36524) (hd : (4 * c + 3) / 1461 = d)
    (he : c - (1461 * d) / 4 = e) :
    0 ≤ d ∧ d ≤ 99 ∧ 0 ≤ e ∧ e ≤ 365 ∧ (e = 365 → d % 4 = 3 ∧ (d = 99 → c = 36524)) := by
  refine ⟨by omega, by omega, by omega, by omega, fun hx => ?_⟩
  obtain ⟨q, r, rfl, h0, h1⟩ : ∃ q r, d = 4 * q + r ∧ 0 ≤ r ∧ r < 4 := ⟨d / 4, d % 4, by omega, by omega, by omega⟩
  have : 1461 * (4 * q + r) / 4 = 1461 * q + 365 * r := by omega
  omega

theorem parts_m (e m : Int) (h0 : 0 ≤ e) (h1 : e ≤ 365) (hm : (5 * e + 2) / 153 = m) :
    0 ≤ m ∧ m ≤ 11 ∧ 0 ≤ e - (153 * m + 2) / 5 ∧ e - (153 * m + 2) / 5 ≤ 30 ∧
    ((m = 1 ∨ m = 3 ∨ m = 6 ∨ m = 8) → e - (153 * m + 2) / 5 ≤ 29) ∧
    (m = 11 → e - (153 * m + 2) / 5 ≤ 28 ∧ (e ≠ 365 → e - (153 * m + 2) / 5 ≤ 27)) := by
  have hm0 : 0 ≤ m := by omega
  have hm1 : m ≤ 11 := by omega
  have : m = 0 ∨ m = 1 ∨ m = 2 ∨ m = 3 ∨ m = 4 ∨ m = 5 ∨ m = 6 ∨ m = 7 ∨ m = 8 ∨ m = 9 ∨ m = 10 ∨ m = 11 := by
    omega
  rcases this with rfl | rfl | rfl | rfl | rfl | rfl | rfl | rfl | rfl | rfl | rfl | rfl <;>
    (refine ⟨by omega, by omega, by omega, by omega, by omega, by omega⟩)

theorem century (b d : Int) (h0 : 0 ≤ d) (h1 : d ≤ 99) :
    (100 * b + d) / 4 = 25 * b + d / 4 ∧ (100 * b + d) / 100 = b ∧ (100 * b + d) / 400 = b / 4 ∧
    146097 * b / 4 = 36524 * b + b / 4 ∧ 1461 * d / 4 = 365 * d + d / 4 := by
  refine ⟨by omega, by omega, by omega, by omega, by omega⟩

/-- The quantities computed by `from_day_number`, with their ranges. -/
structure Parts (n b d e m : Int) : Prop where
  b0 : 0 ≤ b
  d0 : 0 ≤ d
  d1 : d ≤ 99
  e0 : 0 ≤ e
  e1 : e ≤ 365
  m0 : 0 ≤ m
  m1 : m ≤ 11
  r0 : 0 ≤ e - (153 * m + 2) / 5
  r1 : e - (153 * m + 2) / 5 ≤ 30
  r2 : (m = 1 ∨ m = 3 ∨ m = 6 ∨ m = 8) → e - (153 * m + 2) / 5 ≤ 29
  r3 : m = 11 → e - (153 * m + 2) / 5 ≤ 28 ∧ (e ≠ 365 → e - (153 * m + 2) / 5 ≤ 27)
  leap : e = 365 → d % 4 = 3 ∧ (d = 99 → b % 4 = 3)
  sum : n + 32044 = 36524 * b + b / 4 + 365 * d + d / 4 + e
  eq : fromDayNumber n = { d := e - (153 * m + 2) / 5 + 1, m := m + 3 - 12 * (m / 10), y := 100 * b + d - 4800 + m / 10 }

theorem parts (n : Int) (h : -32044 ≤ n) : ∃ b d e m, Parts n b d e m := by
  obtain ⟨b0, c0, c1, cb⟩ := parts_b (n + 32044) _ _ (by omega) rfl rfl
  obtain ⟨d0, d1, e0, e1, ed⟩ := parts_d _ _ _ c0 c1 rfl rfl
  obtain ⟨m0, m1, r0, r1, r2, r3⟩ := parts_m _ _ e0 e1 rfl
  refine ⟨_, _, _, _, ⟨b0, d0, d1, e0, e1, m0, m1, r0, r1, r2, r3, fun h => ⟨(ed h).1, fun h' => cb ((ed h).2 h')⟩, ?_, rfl⟩⟩
  generalize (4 * (n + 32044) + 3) / 146097 = b at *
  generalize hc : n + 32044 - 146097 * b / 4 = c at *
  generalize (4 * c + 3) / 1461 = d at *
  obtain ⟨-, -, -, t1, t2⟩ := century b d d0 d1
  omega

theorem dayNumber_from (n : Int) (h : -32044 ≤ n) : dayNumber (fromDayNumber n) = n := by
  obtain ⟨b, d, e, m, P⟩ := parts n h
  rw [P.eq]
  have hm0 := P.m0
  have hm1 := P.m1
  have hs := P.sum
  unfold dayNumber
  simp only
  have hA : (14 - (m + 3 - 12 * (m / 10))) / 12 = m / 10 := by omega
  rw [hA]
  have hy : 100 * b + d - 4800 + m / 10 + 4800 - m / 10 = 100 * b + d := by omega
  rw [hy]
  have hmm : m + 3 - 12 * (m / 10) + 12 * (m / 10) - 3 = m := by omega
  rw [hmm]
  obtain ⟨t1, t2, t3, -, -⟩ := century b d P.d0 P.d1
  rw [t1, t2, t3]
  omega

theorem from_valid (n : Int) (h : -32044 ≤ n) :
    1 ≤ (fromDayNumber n).m ∧ (fromDayNumber n).m ≤ 12 ∧ 1 ≤ (fromDayNumber n).d ∧
      (fromDayNumber n).d ≤ endOfMonth (fromDayNumber n).y (fromDayNumber n).m := by
  obtain ⟨b, d, e, m, P⟩ := parts n h
  rw [P.eq]
  obtain ⟨b0, d0, d1, e0, e1, m0, m1, r0, r1, r2, r3, leap, -, -⟩ := P
  generalize e - (153 * m + 2) / 5 = q at *
  simp only
  refine ⟨by omega, by omega, by omega, ?_⟩
  unfold endOfMonth isLeap
  by_cases h2 : m + 3 - 12 * (m / 10) = 2
  · rw [if_pos h2]
    have : m = 11 := by omega
    subst this
    simp only [Bool.and_eq_true, Bool.or_eq_true, decide_eq_true_eq]
    obtain ⟨r4, r5⟩ := r3 rfl
    by_cases he : e = 365
    · obtain ⟨l1, l2⟩ := leap he
      rw [if_pos (by by_cases h99 : d = 99 <;> omega)]; omega
    · have := r5 he
      split <;> omega
  · rw [if_neg h2]
    split <;> omega

theorem dow_ymd (n : Int) (h : -32044 ≤ n) : ((dow n).val : Int) = dayOfWeekYMD (fromDayNumber n) := by
  obtain ⟨b, d, e, m, P⟩ := parts n h
  rw [P.eq]
  have hm0 := P.m0
  have hm1 := P.m1
  have hs := P.sum
  unfold dow dayOfWeekYMD
  simp only
  have hA : (14 - (m + 3 - 12 * (m / 10))) / 12 = m / 10 := by omega
  rw [hA]
  have hy : 100 * b + d - 4800 + m / 10 - m / 10 = 100 * (b - 48) + d := by omega
  rw [hy]
  have hmm : m + 3 - 12 * (m / 10) + 12 * (m / 10) - 2 = m + 1 := by omega
  rw [hmm]
  have h31 : 31 * (m + 1) / 12 = (153 * m + 2) / 5 - 28 * m + 2 := by omega
  rw [h31]
  obtain ⟨t1, t2, t3, -, -⟩ := century (b - 48) d P.d0 P.d1
  rw [t1, t2, t3]
  have t4 : (b - 48) / 4 = b / 4 - 12 := by omega
  rw [t4]
  generalize (153 * m + 2) / 5 = q
  generalize b / 4 = b4 at *
  generalize d / 4 = d4 at *
  clear t1 t2 t3 t4 hA hy hmm h31
  omega

theorem pad2_dig (i : Int) : ∀ c ∈ pad2 i, isDig c = true := by
  intro c hc
  unfold pad2 at hc
  simp at hc
  rcases hc with h | h <;> subst h <;> exact isDig_digit _ (by omega)

theorem digVal_pad2 (i : Int) (h0 : 0 ≤ i) (h1 : i < 100) : (digVal (pad2 i) : Int) = i := by
  unfold pad2 digVal
  simp only [List.foldl_cons, List.foldl_nil]
  rw [digit_toNat _ (by omega), digit_toNat _ (by omega)]
  omega

theorem dec4 (n : Nat) (h0 : 1000 ≤ n) (h1 : n ≤ 9999) : (dec n).length = 4 := by
  unfold dec
  obtain ⟨k, rfl⟩ : ∃ k, n = k + 4 := ⟨n - 4, by omega⟩
  rw [decAux, if_neg (by omega), decAux, if_neg (by omega), decAux, if_neg (by omega), decAux, if_pos (by omega)]
  rfl

/-- Dates whose year Boost supports. -/
def Supported (n : Int) : Prop := -32044 ≤ n ∧ 1400 ≤ (fromDayNumber n).y ∧ (fromDayNumber n).y ≤ 9999

theorem fromIso_toIso (n : Int) (h : Supported n) : fromIso (toIso n) = .ok n := by
  obtain ⟨hn, hy0, hy1⟩ := h
  obtain ⟨v1, v2, v3, v4⟩ := from_valid n hn
  have he : endOfMonth (fromDayNumber n).y (fromDayNumber n).m ≤ 31 := by
    unfold endOfMonth; grind
  have hdn := dayNumber_from n hn
  unfold fromIso toIso
  simp only
  generalize hv : fromDayNumber n = v at *
  have hys : toStr v.y = dec v.y.toNat := by unfold toStr; rw [if_neg (by omega)]
  have hl : (dec v.y.toNat).length = 4 := dec4 _ (by omega) (by omega)
  rw [hys]
  have t1 : (dec v.y.toNat ++ pad2 v.m ++ pad2 v.d).take 4 = dec v.y.toNat := by
    rw [List.append_assoc, List.take_left' hl]
  have t2 : ((dec v.y.toNat ++ pad2 v.m ++ pad2 v.d).drop 4).take 2 = pad2 v.m := by
    rw [List.append_assoc, List.drop_left' hl]; rfl
  have t3 : ((dec v.y.toNat ++ pad2 v.m ++ pad2 v.d).drop 6).take 2 = pad2 v.d := by
    rw [List.drop_left' (by simp [hl, pad2])]; rfl
  have hlen : (dec v.y.toNat ++ pad2 v.m ++ pad2 v.d).length = 8 := by simp [hl, pad2]
  rw [t1, t2, t3, hlen]
  have d1 : (dec v.y.toNat).all isDig = true := List.all_eq_true.2 (dec_digits _)
  have d2 : (pad2 v.m).all isDig = true := List.all_eq_true.2 (pad2_dig _)
  have d3 : (pad2 v.d).all isDig = true := List.all_eq_true.2 (pad2_dig _)
  rw [if_neg (by simp [d1, d2, d3])]
  rw [digVal_pad2 _ (by omega) (by omega), digVal_pad2 _ (by omega) (by omega), digVal_dec]
  have hyy : ((v.y.toNat : Nat) : Int) = v.y := by omega
  rw [hyy]
  have hval : validYMD ⟨v.y, v.m, v.d⟩ = true := by
    unfold validYMD; simp [hy0, hy1, v1, v2, v3, v4]
  rw [if_pos hval, hdn]

theorem toIso_digits (n : Int) (h : Supported n) : ∀ c ∈ toIso n, isDig c = true := by
  obtain ⟨hn, hy0, hy1⟩ := h
  intro c hc
  unfold toIso at hc
  simp only at hc
  rcases List.mem_append.1 hc with hc | hc
  · rcases List.mem_append.1 hc with hc | hc
    · unfold toStr at hc; rw [if_neg (by omega)] at hc; exact dec_digits _ _ hc
    · exact pad2_dig _ _ hc
  · exact pad2_dig _ _ hc

end Cal
end LDT
