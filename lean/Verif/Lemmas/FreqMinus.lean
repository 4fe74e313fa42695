import Verif.Lemmas.FreqAll
import Mathlib.Tactic.Linarith
/-! # Difference and comparison of advanced frequencies -/
namespace LDT
namespace Fq
open Text Cal

/-- Sign, as returned by `CompareTo`. -/
def sgn (n : Int) : Int := if n > 0 then 1 else if n < 0 then -1 else 0

/-- The year-based frequency after `n` steps. -/
def YB.adv (f : YB) (n : Int) : YB :=
  { f with year := f.year + (f.position - 1 + n) / f.partitionCount * f.yearMulti
           position := (f.position - 1 + n) % f.partitionCount + 1 }

theorem yb_next_adv (f : YB) (h : f.WF) (n : Int) : f.next n = .ok (f.adv n) :=
  yb_next f (by have := h.2.2; omega) h.2.2.1 h.2.2.2 n

theorem yb_adv_wf (f : YB) (h : f.WF) (n : Int) : (f.adv n).WF := by
  obtain ⟨h1, h2, h3, h4⟩ := h
  refine ⟨h1, h2, ?_, ?_⟩
  · have := Int.emod_nonneg (f.position - 1 + n) (b := f.partitionCount) (by omega)
    simp only [YB.adv]; omega
  · have := Int.emod_lt_of_pos (f.position - 1 + n) (b := f.partitionCount) (by omega)
    simp only [YB.adv]; omega

theorem yb_adv_add (f : YB) (h : f.WF) (a b : Int) : (f.adv a).adv b = f.adv (a + b) := by
  obtain ⟨h1, h2, h3, h4⟩ := h
  obtain ⟨c1, c2⟩ := carry_add f.partitionCount (f.position - 1) a b (by omega)
  simp only [YB.adv]
  rw [c1, c2]
  congr 1
  ring

/-- Lexicographic comparison of (quotient, remainder). -/
theorem carry_lt (p x a b : Int) (hp : 0 < p) :
    a < b ↔ ((x + a) / p < (x + b) / p ∨ ((x + a) / p = (x + b) / p ∧ (x + a) % p < (x + b) % p)) := by
  have e1 := Int.mul_ediv_add_emod (x + a) p
  have e2 := Int.mul_ediv_add_emod (x + b) p
  have l1 := Int.emod_lt_of_pos (x + a) hp
  have l2 := Int.emod_lt_of_pos (x + b) hp
  have n1 := Int.emod_nonneg (x + a) (ne_of_gt hp)
  have n2 := Int.emod_nonneg (x + b) (ne_of_gt hp)
  generalize (x + a) / p = q1 at *
  generalize (x + b) / p = q2 at *
  generalize (x + a) % p = r1 at *
  generalize (x + b) % p = r2 at *
  constructor
  · intro hab
    by_contra hcon
    rcases lt_trichotomy q1 q2 with h | h | h
    · exact hcon (.inl h)
    · subst h; apply hcon; right; exact ⟨rfl, by omega⟩
    · have : p * (q2 + 1) ≤ p * q1 := Int.mul_le_mul_of_nonneg_left (by omega) (by omega)
      rw [mul_add] at this; omega
  · rintro (h | ⟨h, h'⟩)
    · have : p * (q1 + 1) ≤ p * q2 := Int.mul_le_mul_of_nonneg_left (by omega) (by omega)
      rw [mul_add] at this; omega
    · subst h; omega

theorem yb_compare (f : YB) (h : f.WF) (a b : Int) : YB.compareRaw (f.adv a) (f.adv b) = sgn (a - b) := by
  obtain ⟨h1, h2, h3, h4⟩ := h
  have hp : 0 < f.partitionCount := by omega
  have l1 := carry_lt f.partitionCount (f.position - 1) a b hp
  have l2 := carry_lt f.partitionCount (f.position - 1) b a hp
  have m1 : ∀ q1 q2 : Int, f.year + q1 * f.yearMulti < f.year + q2 * f.yearMulti ↔ q1 < q2 := by
    intro q1 q2
    constructor
    · intro hl; nlinarith
    · intro hl; nlinarith
  unfold YB.compareRaw sgn
  simp only [YB.adv, gt_iff_lt, m1]
  generalize (f.position - 1 + a) / f.partitionCount = q1 at *
  generalize (f.position - 1 + b) / f.partitionCount = q2 at *
  generalize (f.position - 1 + a) % f.partitionCount = r1 at *
  generalize (f.position - 1 + b) % f.partitionCount = r2 at *
  split_ifs <;> omega

theorem yb_minus (f : YB) (h : f.WF) (a b : Int) : YB.minusRaw (f.adv a) (f.adv b) = .ok (a - b) := by
  have hc := yb_compare f h a b
  obtain ⟨h1, h2, h3, h4⟩ := h
  have hp : 0 < f.partitionCount := by omega
  unfold YB.minusRaw
  rw [hc]
  have e1 := Int.mul_ediv_add_emod (f.position - 1 + a) f.partitionCount
  have e2 := Int.mul_ediv_add_emod (f.position - 1 + b) f.partitionCount
  have key : ∀ u v : Int, (f.year + u * f.yearMulti - (f.year + v * f.yearMulti)).tdiv f.yearMulti = u - v := by
    intro u v
    rw [show f.year + u * f.yearMulti - (f.year + v * f.yearMulti) = (u - v) * f.yearMulti by ring]
    exact Int.mul_tdiv_cancel _ (by omega)
  simp only [YB.adv, key]
  rw [if_neg (by omega)]
  split <;> congr 1 <;> linarith

/-- The day-based frequency after `n` steps. -/
def DB.adv (f : DB) (n : Int) : DB :=
  { f with day := { f.day with day := f.day.dayAfter ((f.position - 1 + n) / f.partitionCount) }
           position := (f.position - 1 + n) % f.partitionCount + 1 }

theorem db_next_adv (f : DB) (h : f.WF) (n : Int) : f.next n = .ok (f.adv n) := by
  obtain ⟨h1, h2, h3, h4⟩ := h
  rw [db_next f (by omega) h3 h4, wb_next _ h2]
  rfl

theorem db_adv_wf (f : DB) (h : f.WF) (n : Int) : (f.adv n).WF := by
  obtain ⟨h1, h2, h3, h4⟩ := h
  refine ⟨h1, wb_next_wf _ h2 _, ?_, ?_⟩
  · have := Int.emod_nonneg (f.position - 1 + n) (b := f.partitionCount) (by omega)
    simp only [DB.adv]; omega
  · have := Int.emod_lt_of_pos (f.position - 1 + n) (b := f.partitionCount) (by omega)
    simp only [DB.adv]; omega

theorem db_adv_add (f : DB) (h : f.WF) (a b : Int) : (f.adv a).adv b = f.adv (a + b) := by
  obtain ⟨h1, h2, h3, h4⟩ := h
  obtain ⟨c1, c2⟩ := carry_add f.partitionCount (f.position - 1) a b (by omega)
  simp only [DB.adv]
  rw [c1, c2]
  congr 2
  exact dayAfter_add f.day _ _

theorem db_check (f : DB) (h : f.WF) (a b : Int) :
    checkClassEquality (.week (f.adv a).day) (.week (f.adv b).day) = .ok () :=
  check_of _ _ (wb_next_wf _ h.2.1 _) rfl rfl

theorem db_compare (f : DB) (h : f.WF) (a b : Int) :
    DB.compareRaw (f.adv a) (f.adv b) = .ok (sgn (a - b)) := by
  unfold DB.compareRaw
  rw [db_check f h]
  obtain ⟨h1, h2, h3, h4⟩ := h
  have hp : 0 < f.partitionCount := by omega
  have l1 := carry_lt f.partitionCount (f.position - 1) a b hp
  have l2 := carry_lt f.partitionCount (f.position - 1) b a hp
  simp only [Outcome.ok_bind, DB.adv, WB.compareRaw, gt_iff_lt, dayAfter_lt f.day h2, Outcome.pure_eq, sgn]
  generalize (f.position - 1 + a) / f.partitionCount = q1 at *
  generalize (f.position - 1 + b) / f.partitionCount = q2 at *
  generalize (f.position - 1 + a) % f.partitionCount = r1 at *
  generalize (f.position - 1 + b) % f.partitionCount = r2 at *
  split_ifs <;> first | (exfalso; omega) | rfl

theorem db_minus (f : DB) (h : f.WF) (hs : f.day.NotSingle) (a b : Int) :
    DB.minusRaw (f.adv a) (f.adv b) = .ok (a - b) := by
  unfold DB.minusRaw
  rw [db_compare f h]
  obtain ⟨h1, h2, h3, h4⟩ := h
  have e1 := Int.mul_ediv_add_emod (f.position - 1 + a) f.partitionCount
  have e2 := Int.mul_ediv_add_emod (f.position - 1 + b) f.partitionCount
  simp only [Outcome.ok_bind, DB.adv, wb_minus f.day h2 hs, Outcome.pure_eq]
  split <;> congr 1 <;> linarith

/-- All classes: closed form of the advance, up to `Same` for lists. -/
theorem freq_next (f : Freq) (h : f.WF) (n : Int) :
    ∃ g, f.next n = .ok g ∧ g.WF ∧ g.cls = f.cls ∧ g.classStr = f.classStr := by
  cases f with
  | cs p => exact ⟨_, rfl, trivial, rfl, rfl⟩
  | year f => exact ⟨.year (f.adv n), by simp [Freq.next, yb_next_adv f h], yb_adv_wf f h n, rfl, rfl⟩
  | week f =>
    exact ⟨.week { f with day := f.dayAfter n }, by simp [Freq.next, wb_next f h], wb_next_wf f h n, rfl, rfl⟩
  | day f =>
    exact ⟨.day (f.adv n), by simp [Freq.next, db_next_adv f h], db_adv_wf f h n, rfl, rfl⟩
  | listS f =>
    obtain ⟨l, g, h1, h2, h3, h4, h5⟩ := fl_next f h n
    exact ⟨.listS g, by simp [Freq.next, h2], h4, rfl, rfl⟩
  | listD f =>
    obtain ⟨l, g, h1, h2, h3, h4, h5⟩ := fl_next f h n
    exact ⟨.listD g, by simp [Freq.next, h2], h4, rfl, rfl⟩

theorem fl_place_of_wf {α : Type} (f : FL α) (h : f.WF) (l : List α) (hl : f.items = some l) :
    l.Nodup ∧ (f.outIndex = 0 → f.value ∈ l) := by
  obtain ⟨l', h1, h2, h3⟩ := h
  rw [hl] at h1
  cases h1
  exact ⟨h2, h3⟩

theorem fl_next_add {α : Type} [DecidableEq α] (f : FL α) (h : f.WF) (a b : Int) :
    ∃ f1 f2 f3, f.next a = .ok f1 ∧ f1.next b = .ok f2 ∧ f.next (a + b) = .ok f3 ∧ FL.Same f2 f3 := by
  obtain ⟨l, f1, i1, n1, j1, w1, p1⟩ := fl_next f h a
  obtain ⟨l', f2, i2, n2, j2, w2, p2⟩ := fl_next f1 w1 b
  obtain ⟨l'', f3, i3, n3, j3, w3, p3⟩ := fl_next f h (a + b)
  rw [i2] at j1; cases j1
  rw [i1] at i3; cases i3
  refine ⟨f1, f2, f3, n1, n2, n3, fl_place_inj l f2 f3 j2 j3 (fl_place_of_wf _ w2 _ j2).2
    (fl_place_of_wf _ w3 _ j3).2 (by omega)⟩

theorem freq_check_next (f g : Freq) (h : f.WF) (hc : g.cls = f.cls) (hs : g.classStr = f.classStr) :
    checkClassEquality g f = .ok () :=
  check_symm _ _ (check_of f g h hc.symm hs.symm)

theorem fl_minus_next {α : Type} [DecidableEq α] (f : FL α) (h : f.WF) (a b : Int) :
    ∃ f1 f2, f.next a = .ok f1 ∧ f.next b = .ok f2 ∧ FL.minusRaw f1 f2 = .ok (a - b) := by
  obtain ⟨l, f1, i1, n1, j1, w1, p1⟩ := fl_next f h a
  obtain ⟨l', f2, i2, n2, j2, w2, p2⟩ := fl_next f h b
  rw [i1] at i2; cases i2
  refine ⟨f1, f2, n1, n2, ?_⟩
  simp only [FL.minusRaw, j1, j2]
  congr 1; omega

end Fq
end LDT

namespace LDT
namespace Fq
open Text Cal

theorem compareTo_check {f g : Freq} {c : Int} (h : f.compareTo g = .ok c) :
    checkClassEquality f g = .ok () := by
  unfold Freq.compareTo at h
  cases hc : checkClassEquality f g with
  | ok u => rfl
  | throws => rw [hc] at h; simp at h
  | ub => rw [hc] at h; simp at h
  | diverges => rw [hc] at h; simp at h

theorem dbCompare_check {f g : DB} {c : Int} (h : DB.compareRaw f g = .ok c) :
    checkClassEquality (.week f.day) (.week g.day) = .ok () := by
  unfold DB.compareRaw at h
  cases hc : checkClassEquality (.week f.day) (.week g.day) with
  | ok u => rfl
  | throws => rw [hc] at h; simp at h
  | ub => rw [hc] at h; simp at h
  | diverges => rw [hc] at h; simp at h

/-- Which concrete comparison a successful `CompareTo` ran. -/
inductive Cmp : Freq → Freq → Int → Prop
  | cs (p q : Int) : Cmp (.cs p) (.cs q) (if p > q then 1 else if p < q then -1 else 0)
  | year (f g : YB) : Cmp (.year f) (.year g) (YB.compareRaw f g)
  | week (f g : WB) : Cmp (.week f) (.week g) (WB.compareRaw f g)
  | day (f g : DB) (c : Int) (h : checkClassEquality (.week f.day) (.week g.day) = .ok ())
      (hc : c = if WB.compareRaw f.day g.day ≠ 0 then WB.compareRaw f.day g.day
      else if f.position < g.position then -1 else if f.position > g.position then 1 else 0) :
      Cmp (.day f) (.day g) c
  | listS (f g : FL Str) (l1 l2 : List Str) (h1 : f.items = some l1) (h2 : g.items = some l2) :
      Cmp (.listS f) (.listS g) (if indexOf l1 f.value > indexOf l2 g.value then 1 else
        if indexOf l1 f.value < indexOf l2 g.value then -1 else 0)
  | listD (f g : FL Int) (l1 l2 : List Int) (h1 : f.items = some l1) (h2 : g.items = some l2) :
      Cmp (.listD f) (.listD g) (if indexOf l1 f.value > indexOf l2 g.value then 1 else
        if indexOf l1 f.value < indexOf l2 g.value then -1 else 0)

theorem dbCompare_eq (f g : DB) (h : checkClassEquality (.week f.day) (.week g.day) = .ok ()) :
    DB.compareRaw f g = .ok (if WB.compareRaw f.day g.day ≠ 0 then WB.compareRaw f.day g.day
      else if f.position < g.position then -1 else if f.position > g.position then 1 else 0) := by
  unfold DB.compareRaw
  rw [h]
  simp only [Outcome.ok_bind, Outcome.pure_eq]
  split_ifs <;> rfl

theorem cmp_iff (f g : Freq) (c : Int) :
    f.compareTo g = .ok c ↔ checkClassEquality f g = .ok () ∧ Cmp f g c := by
  constructor
  · intro h
    have hk := compareTo_check h
    refine ⟨hk, ?_⟩
    unfold Freq.compareTo at h
    rw [hk] at h
    cases f with
    | cs p =>
      cases g <;> simp only [Outcome.ok_bind, Outcome.pure_eq, reduceCtorEq, Outcome.ok.injEq] at h
      subst h; exact .cs _ _
    | year f =>
      cases g <;> simp only [Outcome.ok_bind, Outcome.pure_eq, reduceCtorEq, Outcome.ok.injEq] at h
      subst h; exact .year _ _
    | week f =>
      cases g <;> simp only [Outcome.ok_bind, Outcome.pure_eq, reduceCtorEq, Outcome.ok.injEq] at h
      subst h; exact .week _ _
    | day f =>
      cases g <;> simp only [Outcome.ok_bind, reduceCtorEq] at h
      have hd := dbCompare_check h
      rw [dbCompare_eq _ _ hd] at h
      cases h
      exact .day _ _ _ hd rfl
    | listS f =>
      cases g <;> simp only [Outcome.ok_bind, reduceCtorEq] at h
      rename_i g
      unfold FL.compareRaw at h
      cases hf : f.items <;> cases hg : g.items <;> simp only [hf, hg, reduceCtorEq] at h
      cases h
      exact .listS f g _ _ hf hg
    | listD f =>
      cases g <;> simp only [Outcome.ok_bind, reduceCtorEq] at h
      rename_i g
      unfold FL.compareRaw at h
      cases hf : f.items <;> cases hg : g.items <;> simp only [hf, hg, reduceCtorEq] at h
      cases h
      exact .listD f g _ _ hf hg
  · rintro ⟨hk, hc⟩
    unfold Freq.compareTo
    rw [hk]
    cases hc with
    | cs p q => rfl
    | year f g => rfl
    | week f g => rfl
    | day f g c h hc => simp only [Outcome.ok_bind, dbCompare_eq _ _ h, hc]
    | listS f g l1 l2 h1 h2 => simp only [Outcome.ok_bind, FL.compareRaw, h1, h2]
    | listD f g l1 l2 h1 h2 => simp only [Outcome.ok_bind, FL.compareRaw, h1, h2]

theorem same_cases (f g : Freq) (h : f.Same g) :
    f = g ∨ (∃ a b, f = .listS a ∧ g = .listS b ∧ FL.Same a b) ∨ (∃ a b, f = .listD a ∧ g = .listD b ∧ FL.Same a b) := by
  unfold Freq.Same at h
  split at h
  · exact .inr (.inl ⟨_, _, rfl, rfl, h⟩)
  · exact .inr (.inr ⟨_, _, rfl, rfl, h⟩)
  · exact .inl h

theorem fl_same_obs {α : Type} [DecidableEq α] (f g : FL α) (h : FL.Same f g) :
    (∀ pr : α → Str, FL.toStr pr f = FL.toStr pr g) ∧ (∀ k, FL.minusRaw f k = FL.minusRaw g k) ∧
    (∀ k, FL.minusRaw k f = FL.minusRaw k g) := by
  obtain ⟨h1, h2, h3⟩ := h
  have hp : ∀ l, FL.place l f = FL.place l g := by
    intro l; unfold FL.place
    by_cases h0 : f.outIndex = 0
    · rw [← h2, h3 h0]
    · rw [← h2, if_neg h0, if_neg h0]
  refine ⟨fun pr => ?_, fun k => ?_, fun k => ?_⟩
  · unfold FL.toStr
    by_cases h0 : f.outIndex = 0
    · rw [← h2, h3 h0]
    · rw [← h2, if_pos h0, if_pos h0]
  · unfold FL.minusRaw
    simp only [h1, hp]
  · unfold FL.minusRaw
    simp only [h1, hp]

end Fq
end LDT

namespace LDT
namespace Fq

theorem yb_cmp_spec (f g : YB) :
    (YB.compareRaw f g = -1 ∧ (f.year < g.year ∨ f.year = g.year ∧ f.position < g.position)) ∨
    (YB.compareRaw f g = 0 ∧ f.year = g.year ∧ f.position = g.position) ∨
    (YB.compareRaw f g = 1 ∧ (g.year < f.year ∨ f.year = g.year ∧ g.position < f.position)) := by
  unfold YB.compareRaw; split_ifs <;> omega

theorem wb_cmp_spec (f g : WB) :
    (WB.compareRaw f g = -1 ∧ f.day < g.day) ∨ (WB.compareRaw f g = 0 ∧ f.day = g.day) ∨
    (WB.compareRaw f g = 1 ∧ g.day < f.day) := by
  unfold WB.compareRaw; split_ifs <;> omega

theorem db_cmp_spec (f g : DB) (c : Int)
    (hc : c = if WB.compareRaw f.day g.day ≠ 0 then WB.compareRaw f.day g.day
      else if f.position < g.position then -1 else if f.position > g.position then 1 else 0) :
    (c = -1 ∧ (f.day.day < g.day.day ∨ f.day.day = g.day.day ∧ f.position < g.position)) ∨
    (c = 0 ∧ f.day.day = g.day.day ∧ f.position = g.position) ∨
    (c = 1 ∧ (g.day.day < f.day.day ∨ f.day.day = g.day.day ∧ g.position < f.position)) := by
  rcases wb_cmp_spec f.day g.day with h | h | h <;> simp only [h.1] at hc
  · simp at hc; omega
  · simp at hc; split_ifs at hc <;> omega
  · simp at hc; omega

end Fq
end LDT
