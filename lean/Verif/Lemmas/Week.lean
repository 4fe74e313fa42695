import Verif.Model.Freq
/-! # Lemmas about week ranges and week-based frequencies -/
namespace LDT
namespace Fq
open Text Cal

/-- Number of forward steps from the start of the range to weekday `v`. -/
def DRange.offD (r : DRange) (v : DOW) : Int := ((v.val : Int) - r.start.val) % 7

/-- Number of days in the range. -/
def DRange.len (r : DRange) : Int := ((r.stop.val : Int) - r.start.val) % 7 + 1

theorem outF_table : ∀ s e v : Fin 7,
    DRange.isOutsideRange ⟨s, e⟩ v true =
      .ok (if DRange.offD ⟨s, e⟩ v < DRange.len ⟨s, e⟩ then
        (false, match DRange.isOutsideRange ⟨s, e⟩ v true with | .ok (_, k) => k | _ => 0)
        else (true, 7 - DRange.offD ⟨s, e⟩ v)) := by decide +kernel

theorem outB_table : ∀ s e v : Fin 7,
    DRange.isOutsideRange ⟨s, e⟩ v false =
      .ok (if DRange.offD ⟨s, e⟩ v < DRange.len ⟨s, e⟩ then
        (false, match DRange.isOutsideRange ⟨s, e⟩ v false with | .ok (_, k) => k | _ => 0)
        else (true, -(DRange.offD ⟨s, e⟩ v - DRange.len ⟨s, e⟩ + 1))) := by decide +kernel

theorem isInRange_table : ∀ s e v : Fin 7,
    DRange.isInRange ⟨s, e⟩ v = .ok (decide (DRange.offD ⟨s, e⟩ v < DRange.len ⟨s, e⟩)) := by
  decide +kernel

theorem len_table : ∀ s e : Fin 7, s ≠ e → DRange.getLength ⟨s, e⟩ = DRange.len ⟨s, e⟩ := by
  decide +kernel

theorem dist_table : ∀ s e v : Fin 7, DRange.offD ⟨s, e⟩ v < DRange.len ⟨s, e⟩ →
    DRange.distance v e true = DRange.len ⟨s, e⟩ - 1 - DRange.offD ⟨s, e⟩ v := by decide +kernel

theorem len_bounds (r : DRange) : 1 ≤ r.len ∧ r.len ≤ 7 := by unfold DRange.len; omega

/-- Offset of a day number from the start of its (range-)week. -/
def DRange.off (r : DRange) (d : Int) : Int := (d + 1 - r.start.val) % 7
/-- Index of the (range-)week of a day number. -/
def DRange.wk (r : DRange) (d : Int) : Int := (d + 1 - r.start.val) / 7

theorem offD_dow (r : DRange) (d : Int) : r.offD (dow d) = r.off d := by
  unfold DRange.offD DRange.off dow; simp only; omega

/-- The day number lies in the range. -/
def DRange.InD (r : DRange) (d : Int) : Prop := r.off d < r.len

instance (r : DRange) (d : Int) : Decidable (r.InD d) := by unfold DRange.InD; infer_instance

theorem stepF_eq (r : DRange) (d : Int) :
    WB.stepF r d = .ok (if r.InD (d + 1) then d + 1 else d + 1 + (7 - r.off (d + 1))) := by
  unfold WB.stepF
  have h := outF_table r.start r.stop (dow (d + 1))
  rw [show (⟨r.start, r.stop⟩ : DRange) = r from rfl] at h
  rw [offD_dow] at h
  unfold DRange.InD
  generalize hm : (match r.isOutsideRange (dow (d + 1)) true with | .ok (_, k) => k | _ => (0 : Int)) = k at h
  simp only [h, Outcome.ok_bind, Outcome.pure_eq]
  split <;> rename_i h' <;> simp [h']

theorem stepB_eq (r : DRange) (d : Int) :
    WB.stepB r d = .ok (if r.InD (d - 1) then d - 1 else d - 1 - (r.off (d - 1) - r.len + 1)) := by
  unfold WB.stepB
  have h := outB_table r.start r.stop (dow (d - 1))
  rw [show (⟨r.start, r.stop⟩ : DRange) = r from rfl] at h
  rw [offD_dow] at h
  unfold DRange.InD
  generalize hm : (match r.isOutsideRange (dow (d - 1)) false with | .ok (_, k) => k | _ => (0 : Int)) = k at h
  simp only [h, Outcome.ok_bind, Outcome.pure_eq]
  split <;> simp <;> omega

/-- Working-day rank of an in-range day. -/
def DRange.rank (r : DRange) (d : Int) : Int := r.len * r.wk d + r.off d
/-- Day of a rank. -/
def DRange.unrank (r : DRange) (k : Int) : Int := r.start.val - 1 + 7 * (k / r.len) + k % r.len

theorem rank_unrank (r : DRange) (k : Int) : r.rank (r.unrank k) = k ∧ r.InD (r.unrank k) := by
  obtain ⟨h1, h7⟩ := len_bounds r
  unfold DRange.InD DRange.rank DRange.unrank DRange.wk DRange.off
  generalize r.len = L at *
  have : L = 1 ∨ L = 2 ∨ L = 3 ∨ L = 4 ∨ L = 5 ∨ L = 6 ∨ L = 7 := by omega
  rcases this with h | h | h | h | h | h | h <;> subst h <;> omega

theorem unrank_rank (r : DRange) (d : Int) (h : r.InD d) : r.unrank (r.rank d) = d := by
  obtain ⟨h1, h7⟩ := len_bounds r
  unfold DRange.InD at h
  unfold DRange.rank DRange.unrank
  unfold DRange.wk DRange.off at *
  generalize r.len = L at *
  have : L = 1 ∨ L = 2 ∨ L = 3 ∨ L = 4 ∨ L = 5 ∨ L = 6 ∨ L = 7 := by omega
  rcases this with h | h | h | h | h | h | h <;> subst h <;> omega

theorem stepF_unrank (r : DRange) (k : Int) : WB.stepF r (r.unrank k) = .ok (r.unrank (k + 1)) := by
  rw [stepF_eq]
  obtain ⟨h1, h7⟩ := len_bounds r
  congr 1
  split <;> rename_i hi <;> unfold DRange.InD at hi <;> unfold DRange.unrank DRange.off at * <;>
  · generalize r.len = L at *
    have : L = 1 ∨ L = 2 ∨ L = 3 ∨ L = 4 ∨ L = 5 ∨ L = 6 ∨ L = 7 := by omega
    rcases this with h | h | h | h | h | h | h <;> subst h <;> omega

theorem stepB_unrank (r : DRange) (k : Int) : WB.stepB r (r.unrank k) = .ok (r.unrank (k - 1)) := by
  rw [stepB_eq]
  obtain ⟨h1, h7⟩ := len_bounds r
  congr 1
  split <;> rename_i hi <;> unfold DRange.InD at hi <;> unfold DRange.unrank DRange.off at * <;>
  · generalize r.len = L at *
    have : L = 1 ∨ L = 2 ∨ L = 3 ∨ L = 4 ∨ L = 5 ∨ L = 6 ∨ L = 7 := by omega
    rcases this with h | h | h | h | h | h | h <;> subst h <;> omega

theorem iterF_unrank (r : DRange) (n : Nat) (k : Int) :
    iter (WB.stepF r) n (r.unrank k) = .ok (r.unrank (k + n)) := by
  induction n generalizing k with
  | zero => simp [iter]
  | succ n ih => simp only [iter, stepF_unrank, Outcome.ok_bind, ih]; congr 2; push_cast; omega

theorem iterB_unrank (r : DRange) (n : Nat) (k : Int) :
    iter (WB.stepB r) n (r.unrank k) = .ok (r.unrank (k - n)) := by
  induction n generalizing k with
  | zero => simp [iter]
  | succ n ih => simp only [iter, stepB_unrank, Outcome.ok_bind, ih]; congr 2; push_cast; omega

/-- Closed form of the daily-in-week advance. -/
theorem diw_next (f : WB) (hc : f.cls = .dailyInWeek) (h : f.range.InD f.day) (n : Int) :
    f.next n = .ok { f with day := f.range.unrank (f.range.rank f.day + n) } := by
  unfold WB.next
  rw [hc]
  simp only
  conv => lhs; rw [← unrank_rank f.range f.day h]
  split
  · rw [iterF_unrank]; simp only [Outcome.ok_bind, Outcome.pure_eq]; congr 4; omega
  · rw [iterB_unrank]; simp only [Outcome.ok_bind, Outcome.pure_eq]; congr 4; omega

theorem unrank_lt (r : DRange) (j k : Int) : r.unrank j < r.unrank k ↔ j < k := by
  obtain ⟨h1, h7⟩ := len_bounds r
  unfold DRange.unrank
  generalize r.len = L at *
  have : L = 1 ∨ L = 2 ∨ L = 3 ∨ L = 4 ∨ L = 5 ∨ L = 6 ∨ L = 7 := by omega
  rcases this with h | h | h | h | h | h | h <;> subst h <;> omega

/-- Difference of two in-range days for a range whose two ends differ. -/
theorem diw_minus (f g : WB) (hc : f.cls = .dailyInWeek) (hr : g.range = f.range)
    (hne : f.range.start ≠ f.range.stop)
    (hf : f.range.InD f.day) (hg : g.range.InD g.day) :
    WB.minusRaw f g = .ok (f.range.rank f.day - f.range.rank g.day) := by
  unfold WB.minusRaw
  rw [hc]
  simp only
  have e1 := dist_table f.range.start f.range.stop (dow f.day)
  have e2 := dist_table f.range.start f.range.stop (dow g.day)
  have e3 := len_table f.range.start f.range.stop hne
  rw [show (⟨f.range.start, f.range.stop⟩ : DRange) = f.range from rfl] at e1 e2 e3
  rw [hr] at hg
  rw [offD_dow] at e1 e2
  rw [e1 hf, e2 hg, e3]
  have hspan : f.day + (f.range.len - 1 - f.range.off f.day) -
      (g.day + (f.range.len - 1 - f.range.off g.day)) = 7 * (f.range.wk f.day - f.range.wk g.day) := by
    unfold DRange.wk DRange.off; omega
  rw [hspan, Int.mul_assoc, Int.mul_tdiv_cancel_left _ (by decide)]
  congr 1
  unfold DRange.rank
  rw [Int.sub_mul, Int.mul_comm f.range.len, Int.mul_comm f.range.len]
  omega

end Fq
end LDT
