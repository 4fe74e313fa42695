import Verif.Model.Variable
import Verif.Lemmas.Calendar
import Verif.Lemmas.FreqMinus
import Verif.Props.Array
/-! # Lemmas for the conversions of daily variables -/
namespace LDT
namespace Cal

/-- Day number of the first of January. -/
def jan1 (y : Int) : Int := dayNumber ⟨y, 1, 1⟩

/-- Number of days of a year. -/
def yearLen (y : Int) : Int := if isLeap y then 366 else 365

theorem jan1_eq (y : Int) : jan1 y = 307 + 365 * (y + 4799) + (y + 4799) / 4 - (y + 4799) / 100 + (y + 4799) / 400 - 32045 := by
  unfold jan1 dayNumber
  simp only
  omega

theorem jan1_succ (y : Int) : jan1 (y + 1) = jan1 y + yearLen y := by
  rw [jan1_eq, jan1_eq]
  unfold yearLen isLeap
  simp only [Bool.and_eq_true, Bool.or_eq_true, decide_eq_true_eq]
  have h4 : (y + 1 + 4799) / 4 = (y + 4799) / 4 + (if y % 4 = 0 then 1 else 0) := by split_ifs <;> omega
  have h100 : (y + 1 + 4799) / 100 = (y + 4799) / 100 + (if y % 100 = 0 then 1 else 0) := by split_ifs <;> omega
  have h400 : (y + 1 + 4799) / 400 = (y + 4799) / 400 + (if y % 400 = 0 then 1 else 0) := by split_ifs <;> omega
  rw [h4, h100, h400]
  split_ifs <;> omega

theorem yearLen_pos (y : Int) : 365 ≤ yearLen y ∧ yearLen y ≤ 366 := by unfold yearLen; split <;> omega

theorem jan1_mono {a b : Int} (h : a < b) : jan1 a + 365 ≤ jan1 b := by
  obtain ⟨n, rfl⟩ : ∃ n : Nat, b = a + 1 + n := ⟨(b - a - 1).toNat, by omega⟩
  clear h
  induction n with
  | zero => have := jan1_succ a; have := yearLen_pos a; simp only [Nat.cast_zero, add_zero]; omega
  | succ n ih =>
    have := jan1_succ (a + 1 + n)
    have h1 := yearLen_pos (a + 1 + n)
    have e : a + 1 + ((n + 1 : Nat) : Int) = a + 1 + n + 1 := by push_cast; omega
    rw [e]; omega

/-- The calendar year of a day number: between two first of Januaries. -/
theorem year_bounds (n : Int) (h : -32044 ≤ n) :
    jan1 (fromDayNumber n).y ≤ n ∧ n < jan1 ((fromDayNumber n).y + 1) := by
  have h1 := dayNumber_from n h
  obtain ⟨m1, m2, d1, d2⟩ := from_valid n h
  rw [jan1_succ, jan1_eq]
  generalize fromDayNumber n = v at *
  obtain ⟨y, m, d⟩ := v
  simp only at *
  subst h1
  unfold dayNumber yearLen endOfMonth at *
  simp only at *
  have e : ∀ k : Int, isLeap y = decide (y % 4 = 0 ∧ (y % 100 ≠ 0 ∨ y % 400 = 0)) := by
    intro _; unfold isLeap; simp [Bool.decide_and, Bool.decide_or]
  rw [e 0] at *
  simp only [decide_eq_true_eq] at *
  have hm : m = 1 ∨ m = 2 ∨ m = 3 ∨ m = 4 ∨ m = 5 ∨ m = 6 ∨ m = 7 ∨ m = 8 ∨ m = 9 ∨ m = 10 ∨ m = 11 ∨ m = 12 := by omega
  have h4 : (y + 4800) / 4 = (y + 4799) / 4 + (if y % 4 = 0 then 1 else 0) := by split_ifs <;> omega
  have h100 : (y + 4800) / 100 = (y + 4799) / 100 + (if y % 100 = 0 then 1 else 0) := by split_ifs <;> omega
  have h400 : (y + 4800) / 400 = (y + 4799) / 400 + (if y % 400 = 0 then 1 else 0) := by split_ifs <;> omega
  rcases hm with rfl | rfl | rfl | rfl | rfl | rfl | rfl | rfl | rfl | rfl | rfl | rfl <;>
    norm_num at d2 h4 h100 h400 ⊢ <;> simp only [show y + 4800 - 1 = y + 4799 by omega, h4, h100, h400] <;>
    split_ifs at d2 ⊢ <;> omega

theorem year_unique {n y y' : Int} (h1 : jan1 y ≤ n) (h2 : n < jan1 (y + 1)) (h3 : jan1 y' ≤ n) (h4 : n < jan1 (y' + 1)) :
    y = y' := by
  rcases lt_trichotomy y y' with h | h | h
  · rcases Int.lt_or_eq_of_le (show y + 1 ≤ y' by omega) with h' | h'
    · have := jan1_mono h'; omega
    · rw [h'] at h2; omega
  · exact h
  · rcases Int.lt_or_eq_of_le (show y' + 1 ≤ y by omega) with h' | h'
    · have := jan1_mono h'; omega
    · rw [h'] at h4; omega

theorem dayOfYear_eq (n : Int) : dayOfYear n = n - jan1 (fromDayNumber n).y + 1 := rfl

/-- The next day: same year, or the first of January of the next one. -/
theorem next_day_year (n : Int) (h : -32044 ≤ n) :
    ((fromDayNumber (n + 1)).y = (fromDayNumber n).y ∧ n + 1 < jan1 ((fromDayNumber n).y + 1)) ∨
    ((fromDayNumber (n + 1)).y = (fromDayNumber n).y + 1 ∧ n + 1 = jan1 ((fromDayNumber n).y + 1)) := by
  have h1 := year_bounds n h
  have h2 := year_bounds (n + 1) (by omega)
  by_cases hc : n + 1 < jan1 ((fromDayNumber n).y + 1)
  · left
    exact ⟨year_unique h2.1 h2.2 (by omega) hc, hc⟩
  · right
    have he : n + 1 = jan1 ((fromDayNumber n).y + 1) := by omega
    refine ⟨year_unique h2.1 h2.2 (by omega) ?_, he⟩
    rw [jan1_succ]
    have := yearLen_pos ((fromDayNumber n).y + 1)
    omega

end Cal
end LDT

namespace LDT
namespace Var
open Cal Fq Arr

/-- Ordinal of the `x`-th part of a year a day lies in. -/
def partOrd (x d : Int) : Int := (fromDayNumber d).y * x + (getPart d x - 1)

theorem getPart_eq (d x : Int) (h : -32044 ≤ d) (hx : 0 ≤ x) :
    getPart d x = ((d - jan1 (fromDayNumber d).y) * x) / yearLen (fromDayNumber d).y + 1 := by
  have h1 := year_bounds d h
  unfold getPart
  rw [dayOfYear_eq, show d - jan1 (fromDayNumber d).y + 1 - 1 = d - jan1 (fromDayNumber d).y by omega]
  rw [Int.tdiv_eq_ediv_of_nonneg (Int.mul_nonneg (by omega) hx)]
  rfl

theorem getPart_bounds (d x : Int) (h : -32044 ≤ d) (hx : 1 ≤ x) : 1 ≤ getPart d x ∧ getPart d x ≤ x := by
  have h1 := year_bounds d h
  have hl := yearLen_pos (fromDayNumber d).y
  rw [jan1_succ] at h1
  rw [getPart_eq d x h (by omega)]
  have hk : 0 ≤ d - jan1 (fromDayNumber d).y ∧ d - jan1 (fromDayNumber d).y < yearLen (fromDayNumber d).y := by omega
  generalize d - jan1 (fromDayNumber d).y = k at *
  generalize hL : yearLen (fromDayNumber d).y = L at *
  have e1 : 0 ≤ k * x := Int.mul_nonneg hk.1 (by omega)
  have e2 : k * x < x * L := by rw [Int.mul_comm x L]; exact Int.mul_lt_mul_of_pos_right hk.2 (by omega)
  have e3 := Int.ediv_nonneg e1 (show 0 ≤ L by omega)
  have e4 := Int.ediv_lt_of_lt_mul (show 0 < L by omega) e2
  omega

theorem div_step (k x L : Int) (hL : 0 < L) (hx : 0 ≤ x) (hxL : x ≤ L) :
    ((k + 1) * x) / L = (k * x) / L ∨ ((k + 1) * x) / L = (k * x) / L + 1 := by
  have e : (k + 1) * x = k * x + x := by ring
  rw [e]
  have h1 := Int.mul_ediv_add_emod (k * x) L
  have h2 := Int.emod_nonneg (k * x) (b := L) (by omega)
  have h3 := Int.emod_lt_of_pos (k * x) (b := L) hL
  have h4 := Int.mul_ediv_add_emod (k * x + x) L
  have h5 := Int.emod_nonneg (k * x + x) (b := L) (by omega)
  have h6 := Int.emod_lt_of_pos (k * x + x) (b := L) hL
  generalize (k * x + x) / L = q' at *
  generalize (k * x) / L = q at *
  generalize k * x = z at *
  have hq : q ≤ q' := by
    by_contra hc
    have : L * (q' + 1) ≤ L * q := Int.mul_le_mul_of_nonneg_left (by omega) (by omega)
    rw [Int.mul_add] at this; omega
  have hq' : q' ≤ q + 1 := by
    by_contra hc
    have : L * (q + 2) ≤ L * q' := Int.mul_le_mul_of_nonneg_left (by omega) (by omega)
    rw [Int.mul_add] at this; omega
  omega

theorem partOrd_step (x d : Int) (h : -32044 ≤ d) (hx : 1 ≤ x) (hx' : x ≤ 365) :
    partOrd x (d + 1) = partOrd x d ∨ partOrd x (d + 1) = partOrd x d + 1 := by
  have hl := yearLen_pos (fromDayNumber d).y
  have hb := year_bounds d h
  unfold partOrd
  rw [getPart_eq d x h (by omega), getPart_eq (d + 1) x (by omega) (by omega)]
  rcases next_day_year d h with ⟨h1, h2⟩ | ⟨h1, h2⟩
  · rw [h1]
    rw [show d + 1 - jan1 (fromDayNumber d).y = d - jan1 (fromDayNumber d).y + 1 by omega]
    rcases div_step (d - jan1 (fromDayNumber d).y) x (yearLen (fromDayNumber d).y) (by omega) (by omega) (by omega) with h | h <;>
      omega
  · right
    rw [h1, h2, Int.sub_self]
    have hk : d - jan1 (fromDayNumber d).y = yearLen (fromDayNumber d).y - 1 := by
      rw [jan1_succ] at h2; omega
    rw [hk]
    generalize hL : yearLen (fromDayNumber d).y = L at *
    have e : ((L - 1) * x) / L = x - 1 := by
      have : (L - 1) * x = (L - x) + L * (x - 1) := by ring
      rw [this, Int.add_mul_ediv_left _ _ (by omega), Int.ediv_eq_zero_of_lt (by omega) (by omega)]; omega
    rw [e]; simp; ring_nf

theorem partOrd_mono (x d : Int) (h : -32044 ≤ d) (hx : 1 ≤ x) (hx' : x ≤ 365) (n : Nat) :
    partOrd x d ≤ partOrd x (d + n) := by
  induction n with
  | zero => simp
  | succ n ih =>
    have := partOrd_step x (d + n) (by omega) hx hx'
    rw [show d + ((n + 1 : Nat) : Int) = d + n + 1 by push_cast; omega]
    omega

/-- Parts of consecutive days differ exactly when the ordinals do (needs at least two parts). -/
theorem part_ne_iff (x d : Int) (h : -32044 ≤ d) (hx : 2 ≤ x) (hx' : x ≤ 365) :
    getPart (d + 1) x ≠ getPart d x ↔ partOrd x (d + 1) ≠ partOrd x d := by
  have b1 := getPart_bounds d x h (by omega)
  have b2 := getPart_bounds (d + 1) x (by omega) (by omega)
  have st := partOrd_step x d h (by omega) hx'
  unfold partOrd at *
  rcases next_day_year d h with ⟨h1, h2⟩ | ⟨h1, h2⟩
  · rw [h1] at st ⊢; omega
  · rw [h1] at st ⊢
    have e : ((fromDayNumber d).y + 1) * x = (fromDayNumber d).y * x + x := by ring
    rw [e] at st ⊢
    omega

variable {K : Type}

/-- The observations with their day numbers. -/
def dated (day : Int) : List (Val K) → List (Int × Val K)
  | [] => []
  | a :: as => (day, a) :: dated (day + 1) as

theorem dated_ge (day : Int) (l : List (Val K)) : ∀ p ∈ dated day l, ∃ n : Nat, p.1 = day + n := by
  induction l generalizing day with
  | nil => simp [dated]
  | cons a l ih =>
    intro p hp
    rcases List.mem_cons.1 hp with rfl | hp
    · exact ⟨0, by simp⟩
    · obtain ⟨n, hn⟩ := ih (day + 1) p hp
      exact ⟨n + 1, by rw [hn]; push_cast; omega⟩

theorem dated_snd (day : Int) (l : List (Val K)) : (dated day l).map (·.2) = l := by
  induction l generalizing day with
  | nil => rfl
  | cons a l ih => simp [dated, ih]

/-- The groups the year loop aggregates. -/
theorem yearLoop_groups (agg : List (Val K) → Val K) (x : Int) (hx : 2 ≤ x) (hx' : x ≤ 365) (as : List (Val K)) :
    ∀ (day : Int) (part : List (Val K)) (res : List (Val K)), -32044 ≤ day → part ≠ [] →
    ∃ gs : List (List (Val K)), yearLoop agg x (day + 1) as (getPart day x) part res = res ++ gs.map agg ∧
      gs.flatten = part ++ as ∧ (∀ g ∈ gs, g ≠ []) ∧
      ∀ (i : Nat) g, gs[i]? = some g → g = (if i = 0 then part else []) ++
        ((dated (day + 1) as).filter (fun p => decide (partOrd x p.1 = partOrd x day + i))).map (·.2) := by
  induction as with
  | nil =>
    intro day part res hd hp
    refine ⟨[part], ?_, by simp, by simpa using hp, ?_⟩
    · unfold yearLoop; rw [if_pos (List.length_pos_iff.2 hp)]; simp
    · intro i g hg
      cases i with
      | zero => simp at hg; subst hg; simp [dated]
      | succ i => simp at hg
  | cons a as ih =>
    intro day part res hd hp
    unfold yearLoop
    simp only
    by_cases hc : getPart (day + 1) x ≠ getPart day x
    · rw [if_pos hc]
      have ho : partOrd x (day + 1) = partOrd x day + 1 := by
        have := (part_ne_iff x day hd hx hx').1 hc
        rcases partOrd_step x day hd (by omega) hx' with h | h <;> omega
      obtain ⟨gs, g1, g2, g3, g4⟩ := ih (day + 1) [a] (res ++ [agg part]) (by omega) (by simp)
      refine ⟨part :: gs, by rw [g1]; simp, by simp [g2], ?_, ?_⟩
      · intro g hg
        rcases List.mem_cons.1 hg with rfl | hg
        · exact hp
        · exact g3 g hg
      · intro i g hg
        cases i with
        | zero =>
          simp at hg; subst hg
          have : (dated (day + 1) (a :: as)).filter (fun p => decide (partOrd x p.1 = partOrd x day + (0 : Nat))) = [] := by
            rw [List.filter_eq_nil_iff]
            intro p hp'
            obtain ⟨n, hn⟩ := dated_ge _ _ p hp'
            have := partOrd_mono x (day + 1) (by omega) (by omega) hx' n
            rw [hn]; simp; omega
          rw [this]; simp
        | succ i =>
          simp only [List.getElem?_cons_succ] at hg
          rw [g4 i g hg, ho]
          simp only [dated]
          cases i with
          | zero =>
            rw [List.filter_cons_of_pos (by simp [ho])]
            simp
          | succ i =>
            rw [List.filter_cons_of_neg (by simp only [ho, decide_eq_true_eq]; push_cast; omega)]
            simp only [Nat.add_eq_zero_iff, one_ne_zero, and_false, if_false, List.nil_append]
            congr 2
            funext p; congr 2; push_cast; omega
    · rw [if_neg hc]
      have ho : partOrd x (day + 1) = partOrd x day := by
        by_contra h; exact hc ((part_ne_iff x day hd hx hx').2 h)
      obtain ⟨gs, g1, g2, g3, g4⟩ := ih (day + 1) (part ++ [a]) res (by omega) (by simp)
      refine ⟨gs, g1, by simp [g2], g3, ?_⟩
      intro i g hg
      rw [g4 i g hg, ho]
      simp only [dated]
      cases i with
      | zero => rw [List.filter_cons_of_pos (by simp [ho])]; simp
      | succ i =>
        rw [List.filter_cons_of_neg (by simp only [ho, decide_eq_true_eq]; push_cast; omega)]
        simp

/-- Chunk `i` of the forward partition. -/
theorem chunk_eq {α : Type} (k : Nat) (r : List (List α)) (h : ∀ c ∈ r.dropLast, c.length = k)
    (h' : ∀ c ∈ r, c.length ≤ k) :
    ∀ (i : Nat) c, r[i]? = some c → c = (r.flatten.drop (i * k)).take k := by
  induction r with
  | nil => simp
  | cons a r ih =>
    intro i c hc
    cases i with
    | zero =>
      simp at hc; subst hc
      simp only [Nat.zero_mul, List.drop_zero, List.flatten_cons]
      by_cases hr : r = []
      · subst hr
        simp only [List.flatten_nil, List.append_nil]
        rw [List.take_of_length_le (h' a (by simp))]
      · have : a.length = k := h a (by rw [List.dropLast_cons_of_ne_nil hr]; simp)
        rw [← this, List.take_left']
        rfl
    | succ i =>
      simp only [List.getElem?_cons_succ] at hc
      have hr : r ≠ [] := by rintro rfl; simp at hc
      have ha : a.length = k := h a (by rw [List.dropLast_cons_of_ne_nil hr]; simp)
      rw [List.flatten_cons, Nat.succ_mul, Nat.add_comm, ← ha, ← List.drop_drop, List.drop_left, ha]
      exact ih (fun c hc => h c (by rw [List.dropLast_cons_of_ne_nil hr]; simp [hc]))
        (fun c hc => h' c (by simp [hc])) i c hc

/-- Selecting the days of an interval is slicing. -/
theorem dated_filter (l : List (Val K)) : ∀ (day a b : Int), day ≤ a → a ≤ b →
    ((dated day l).filter (fun p => decide (a ≤ p.1 ∧ p.1 < b))).map (·.2) =
      (l.drop (a - day).toNat).take (b - a).toNat := by
  induction l with
  | nil => intros; simp [dated]
  | cons x l ih =>
    intro day a b h1 h2
    simp only [dated, List.filter_cons]
    by_cases he : day = a
    · subst he
      by_cases hb : day = b
      · subst hb
        rw [if_neg (by simp)]
        have : (dated (day + 1) l).filter (fun p => decide (day ≤ p.1 ∧ p.1 < day)) = [] := by
          rw [List.filter_eq_nil_iff]; intro p _; simp
        rw [this]; simp
      · rw [if_pos (by simp; omega)]
        have hcongr : (dated (day + 1) l).filter (fun p => decide (day ≤ p.1 ∧ p.1 < b)) =
            (dated (day + 1) l).filter (fun p => decide (day + 1 ≤ p.1 ∧ p.1 < b)) := by
          apply List.filter_congr
          intro p hp
          obtain ⟨n, hn⟩ := dated_ge _ _ p hp
          rw [hn]; congr 1; simp; omega
        rw [hcongr, List.map_cons, ih (day + 1) (day + 1) b (by omega) (by omega)]
        have e : (b - day).toNat = (b - (day + 1)).toNat + 1 := by omega
        rw [e]; simp
    · rw [if_neg (by simp; omega), ih (day + 1) a b (by omega) h2]
      have e : (a - day).toNat = (a - (day + 1)).toNat + 1 := by omega
      rw [e, List.drop_succ_cons]

/-- All cells produced by the week loop. -/
theorem weekLoop_get (data : List (Val K)) (L : Nat) (h2 : 2 ≤ L) (h7 : L ≤ 7) (k : Nat) :
    ∀ (pend : Nat), pend ≤ data.length → k = (data.length - pend + L - 1) / L → ∀ q : Nat,
    (weekLoop data L (7 - L) k pend)[q]? =
      if q % 7 < L then data[pend + (q / 7 * L + q % 7)]?
      else if pend + (q / 7 * L + L) < data.length then some none else none := by
  induction k with
  | zero =>
    intro pend hp hk q
    have hz : data.length = pend := by
      by_contra hc
      have : 1 ≤ (data.length - pend + L - 1) / L := (Nat.le_div_iff_mul_le (by omega)).2 (by omega)
      omega
    simp only [weekLoop, List.getElem?_nil]
    split
    · rw [List.getElem?_eq_none (by omega)]
    · rw [if_neg (by omega)]
  | succ k ih =>
    intro pend hp hk q
    have hlt : pend < data.length := by
      by_contra hc
      have : data.length - pend + L - 1 = L - 1 := by omega
      rw [this, Nat.div_eq_of_lt (by omega)] at hk
      omega
    have hstop : min ((pend : Int) + L) data.length = ((min (pend + L) data.length : Nat) : Int) := by omega
    simp only [weekLoop]
    rw [hstop]
    simp only [Int.toNat_natCast]
    have hslice : (data.take (min (pend + L) data.length)).drop pend = (data.drop pend).take L := by
      rw [List.drop_take]
      rcases Nat.le_total (pend + L) data.length with h | h
      · rw [Nat.min_eq_left h]; congr 1; omega
      · rw [Nat.min_eq_right h, List.take_of_length_le (by simp), List.take_of_length_le (by simp; omega)]
    rw [hslice]
    by_cases hmore : pend + L < data.length
    · have hk1 : k = (data.length - (pend + L) + L - 1) / L := by
        have : data.length - pend + L - 1 = (data.length - (pend + L) + L - 1) + L := by omega
        rw [this, Nat.add_div_right _ (by omega)] at hk
        omega
      have hk0 : k ≠ 0 := by
        have : 1 ≤ (data.length - (pend + L) + L - 1) / L := (Nat.le_div_iff_mul_le (by omega)).2 (by omega)
        omega
      have hmin : min (pend + L) data.length = pend + L := by omega
      have hgap : ((7 : Int) - (L : Int)).toNat = 7 - L := by omega
      have hlen1 : ((data.drop pend).take L).length = L := by simp; omega
      rw [hmin, if_pos hk0, hgap]
      by_cases hq1 : q < L
      · rw [List.append_assoc, List.getElem?_append_left (by omega), List.getElem?_take, if_pos hq1,
          List.getElem?_drop]
        have e1 : q % 7 = q := by omega
        have e2 : q / 7 = 0 := by omega
        rw [e1, e2, if_pos hq1]; simp
      · by_cases hq2 : q < 7
        · rw [List.getElem?_append_left (by simp; omega), List.getElem?_append_right (by omega),
            List.getElem?_replicate_of_lt (by omega)]
          have e1 : q % 7 = q := by omega
          have e2 : q / 7 = 0 := by omega
          rw [e1, e2, if_neg hq1, if_pos (by omega)]
        · rw [List.getElem?_append_right (by simp; omega)]
          have e3 : q - ((data.drop pend).take L ++ List.replicate (7 - L) none).length = q - 7 := by
            simp; omega
          rw [e3, ih (pend + L) (by omega) hk1 (q - 7)]
          have e1 : (q - 7) % 7 = q % 7 := by omega
          have e2 : q / 7 = (q - 7) / 7 + 1 := by omega
          rw [e1, e2, Nat.add_mul]
          split
          · congr 1; omega
          · congr 1; apply propext; omega
    · have hk1 : k = 0 := by
        have h1 : data.length - pend + L - 1 < 2 * L := by omega
        have := (Nat.div_lt_iff_lt_mul (show 0 < L by omega)).2 h1
        omega
      subst hk1
      simp only [ne_eq, not_true_eq_false, if_false, List.append_nil, weekLoop]
      rw [List.getElem?_take, List.getElem?_drop]
      by_cases hq : q < 7
      · have e1 : q % 7 = q := by omega
        have e2 : q / 7 = 0 := by omega
        rw [e1, e2]
        by_cases hq1 : q < L
        · rw [if_pos hq1, if_pos hq1]; simp
        · rw [if_neg hq1, if_neg hq1, if_neg (by omega)]
      · have hL : L ≤ q / 7 * L := Nat.le_mul_of_pos_left L (by omega)
        rw [if_neg (by omega)]
        split
        · rw [List.getElem?_eq_none (by omega)]
        · rw [if_neg (by omega)]

theorem minDate_spec (l : List Int) : ∀ a, minDate a l ≤ a ∧ (∀ d ∈ l, minDate a l ≤ d) ∧ (minDate a l = a ∨ minDate a l ∈ l) := by
  induction l with
  | nil => intro a; simp [minDate]
  | cons b l ih =>
    intro a
    obtain ⟨h1, h2, h3⟩ := ih (min a b)
    simp only [minDate]
    refine ⟨by omega, ?_, ?_⟩
    · intro d hd
      rcases List.mem_cons.1 hd with rfl | hd
      · omega
      · exact h2 d hd
    · rcases h3 with h | h
      · by_cases hc : a ≤ b
        · left; omega
        · right; rw [h, Int.min_eq_right (by omega)]; simp
      · right; simp [h]

theorem maxDate_spec (l : List Int) : ∀ a, a ≤ maxDate a l ∧ (∀ d ∈ l, d ≤ maxDate a l) ∧ (maxDate a l = a ∨ maxDate a l ∈ l) := by
  induction l with
  | nil => intro a; simp [maxDate]
  | cons b l ih =>
    intro a
    obtain ⟨h1, h2, h3⟩ := ih (max a b)
    simp only [maxDate]
    refine ⟨by omega, ?_, ?_⟩
    · intro d hd
      rcases List.mem_cons.1 hd with rfl | hd
      · omega
      · exact h2 d hd
    · rcases h3 with h | h
      · by_cases hc : a ≤ b
        · right; rw [h, Int.max_eq_right hc]; simp
        · left; omega
      · right; simp [h]

theorem indexOf_not_mem {α : Type} [DecidableEq α] (l : List α) (x : α) (h : x ∉ l) : Text.indexOf l x = -1 := by
  induction l with
  | nil => rfl
  | cons a l ih =>
    have h1 : a ≠ x := fun e => h (by simp [e])
    have h2 : x ∉ l := fun e => h (by simp [e])
    simp [Text.indexOf, h1, ih h2]

/-- The date loop succeeds when every date has a datum, and each cell is the datum of the first occurrence
of its date, or missing. -/
theorem dateLoop_spec (dates : List Int) (hn : dates.Nodup) (data : List (Val K)) (hlen : dates.length ≤ data.length) (n : Nat) :
    ∀ day : Int, ∃ r, dateLoop dates data day n = .ok r ∧ r.length = n ∧
      (∀ (i j : Nat), j < n → dates[i]? = some (day + j) → r[j]? = data[i]?) ∧
      (∀ j : Nat, j < n → (day + j) ∉ dates → r[j]? = some none) := by
  induction n with
  | zero => intro day; exact ⟨[], rfl, rfl, by simp, by simp⟩
  | succ n ih =>
    intro day
    obtain ⟨r, h1, h2, h3, h4⟩ := ih (day + 1)
    have hhead : ∃ x, (if Text.indexOf dates day = -1 then Outcome.ok none
          else Text.at? data (Text.indexOf dates day).toNat) = .ok x ∧
        (∀ i : Nat, dates[i]? = some day → data[i]? = some x) ∧ (day ∉ dates → x = none) := by
      by_cases hm : day ∈ dates
      · obtain ⟨i, e1, e2, e3⟩ := indexOf_mem dates day hm
        rw [e1, if_neg (by omega)]
        refine ⟨data[i]'(by omega), ?_, ?_, fun h => absurd hm h⟩
        · have hi : i < data.length := by omega
          simp [Text.at?, List.getElem?_eq_getElem hi]
        · intro i' hi'
          obtain ⟨hl, hv⟩ := List.getElem?_eq_some_iff.1 hi'
          have : i' = i := (List.Nodup.getElem_inj_iff hn).1 (by rw [hv, e3])
          subst this
          exact List.getElem?_eq_getElem _
      · rw [indexOf_not_mem dates day hm, if_pos rfl]
        refine ⟨none, rfl, ?_, fun _ => rfl⟩
        intro i hi
        exact absurd (List.mem_of_getElem? hi) hm
    obtain ⟨x, x1, x2, x3⟩ := hhead
    refine ⟨x :: r, ?_, by simp [h2], ?_, ?_⟩
    · simp only [dateLoop, x1, h1, Outcome.ok_bind, Outcome.pure_eq]
    · intro i j hj hi
      cases j with
      | zero => simp at hi; simp [x2 i hi]
      | succ j =>
        rw [List.getElem?_cons_succ]
        exact h3 i j (by omega) (by rw [hi]; congr 1; push_cast; omega)
    · intro j hj hnm
      cases j with
      | zero => simp at hnm; simp [x3 hnm]
      | succ j =>
        rw [List.getElem?_cons_succ]
        refine h4 j (by omega) ?_
        rw [show day + 1 + (j : Int) = day + ((j + 1 : Nat) : Int) by push_cast; omega]
        exact hnm

end Var
end LDT
