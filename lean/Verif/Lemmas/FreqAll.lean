import Verif.Spec.Freq
import Verif.Lemmas.Week
import Verif.Lemmas.FreqYear
/-! # Lemmas for all frequency classes -/
namespace LDT
namespace Fq
open Text Cal

theorem inD_iff (r : DRange) (d : Int) : r.InD d ↔ WorkDay r d := by
  unfold DRange.InD WorkDay InWeek
  rw [← offD_dow]; unfold DRange.offD DRange.len; omega

/-! ## Week-based -/

/-- ordinal of a week-based frequency -/
def WB.ord (f : WB) : Int :=
  match f.cls with
  | .dailyInWeek => f.range.rank f.day
  | _ => f.day

/-- Step unit in days, 0 for daily-in-week. -/
def WB.unit (f : WB) : Int :=
  match f.cls with
  | .weekly | .multiWeekly => 7 * f.multi
  | .daily | .multiDaily => f.multi
  | _ => 0

/-- Day reached after `n` steps. -/
def WB.dayAfter (f : WB) (n : Int) : Int :=
  match f.cls with
  | .dailyInWeek => f.range.unrank (f.range.rank f.day + n)
  | _ => f.day + n * f.unit

theorem wb_next (f : WB) (h : f.WF) (n : Int) : f.next n = .ok { f with day := f.dayAfter n } := by
  rcases h with ⟨h, h'⟩ | ⟨h, h'⟩ | ⟨h, h'⟩ | ⟨h, h'⟩ | ⟨h, h'⟩
  · unfold WB.next WB.dayAfter WB.unit; rw [h]; simp only; congr 2; ring
  · unfold WB.next WB.dayAfter WB.unit; rw [h]; simp only; congr 2; ring
  · unfold WB.next WB.dayAfter WB.unit; rw [h]
  · unfold WB.next WB.dayAfter WB.unit; rw [h]
  · rw [diw_next f h ((inD_iff _ _).2 h')]; unfold WB.dayAfter; rw [h]

theorem wb_next_wf (f : WB) (h : f.WF) (n : Int) : WB.WF { f with day := f.dayAfter n } := by
  rcases h with ⟨h, h'⟩ | ⟨h, h'⟩ | ⟨h, h'⟩ | ⟨h, h'⟩ | ⟨h, h'⟩
  · exact .inl ⟨h, h'⟩
  · exact .inr (.inl ⟨h, h'⟩)
  · exact .inr (.inr (.inl ⟨h, h'⟩))
  · exact .inr (.inr (.inr (.inl ⟨h, h'⟩)))
  · refine .inr (.inr (.inr (.inr ⟨h, ?_⟩)))
    simp only [WB.dayAfter, h]
    exact (inD_iff _ _).1 (rank_unrank _ _).2

theorem dayAfter_add (f : WB) (a b : Int) :
    WB.dayAfter { f with day := f.dayAfter a } b = f.dayAfter (a + b) := by
  have hu : WB.unit { f with day := f.dayAfter a } = f.unit := rfl
  by_cases hc : f.cls = .dailyInWeek
  · simp only [WB.dayAfter, hc]
    rw [(rank_unrank _ _).1]; congr 1; omega
  · have e : ∀ (g : WB) (k : Int), g.cls ≠ .dailyInWeek → g.dayAfter k = g.day + k * g.unit := by
      intro g k hg
      unfold WB.dayAfter; split
      · exact absurd ‹_› hg
      · rfl
    rw [e _ _ (by exact hc), e f (a + b) hc, hu]
    simp only [e f a hc]; ring

theorem dayAfter_zero (f : WB) (h : f.WF) : f.dayAfter 0 = f.day := by
  unfold WB.dayAfter
  split
  · rename_i hc
    rcases h with ⟨h, h'⟩ | ⟨h, h'⟩ | ⟨h, h'⟩ | ⟨h, h'⟩ | ⟨h, h'⟩ <;> simp [h] at hc
    rw [Int.add_zero, unrank_rank _ _ ((inD_iff _ _).2 h')]
  · simp

theorem dayAfter_lt (f : WB) (h : f.WF) (a b : Int) : f.dayAfter a < f.dayAfter b ↔ a < b := by
  unfold WB.dayAfter
  rcases h with ⟨h, h'⟩ | ⟨h, h'⟩ | ⟨h, h'⟩ | ⟨h, h'⟩ | ⟨h, h'⟩ <;> simp only [h, WB.unit]
  · rw [h']; omega
  · constructor
    · intro hl; nlinarith
    · intro hl; nlinarith
  · rw [h']; omega
  · constructor
    · intro hl; nlinarith
    · intro hl; nlinarith
  · rw [unrank_lt]; omega

theorem dayAfter_inj (f : WB) (h : f.WF) (a b : Int) : f.dayAfter a = f.dayAfter b ↔ a = b := by
  have h1 := dayAfter_lt f h a b
  have h2 := dayAfter_lt f h b a
  omega

theorem wb_minus (f : WB) (h : f.WF) (hs : f.NotSingle) (a b : Int) :
    WB.minusRaw { f with day := f.dayAfter a } { f with day := f.dayAfter b } = .ok (a - b) := by
  by_cases hc : f.cls = .dailyInWeek
  · rw [diw_minus { f with day := f.dayAfter a } { f with day := f.dayAfter b } hc rfl (hs hc)]
    · simp only [WB.dayAfter, hc]
      rw [(rank_unrank _ _).1, (rank_unrank _ _).1]
      congr 1; omega
    · simp only [WB.dayAfter, hc]; exact (rank_unrank _ _).2
    · simp only [WB.dayAfter, hc]; exact (rank_unrank _ _).2
  · unfold WB.minusRaw
    have key : ∀ u : Int, u ≠ 0 → (f.day + a * u - (f.day + b * u)).tdiv u = a - b := by
      intro u hu
      rw [show f.day + a * u - (f.day + b * u) = (a - b) * u by ring]
      exact Int.mul_tdiv_cancel _ hu
    rcases h with ⟨h, h'⟩ | ⟨h, h'⟩ | ⟨h, h'⟩ | ⟨h, h'⟩ | ⟨h, h'⟩ <;>
      simp only [h, WB.dayAfter, WB.unit]
    · rw [h', Int.mul_one, key 7 (by decide)]
    · rw [if_neg (by omega), key _ (by omega)]
    · rw [h']; congr 1; omega
    · rw [if_neg (by simp), if_neg (by omega), key _ (by omega)]
    · exact absurd h hc

theorem wb_classStr_day (f : WB) (d : Int) : WB.classStr { f with day := d } = f.classStr := rfl

theorem wb_classStr_ok (f : WB) (h : f.WF) : ∃ s, f.classStr = .ok s := by
  unfold WB.classStr
  rcases h with ⟨h, h'⟩ | ⟨h, h'⟩ | ⟨h, h'⟩ | ⟨h, h'⟩ | ⟨h, h'⟩ <;> simp [h]

/-! ## Class equality -/

theorem areEqualI_refl (s : Str) : areEqualI s s = true := by simp [areEqualI]

theorem check_iff (f g : Freq) : checkClassEquality f g = .ok () ↔
    f.cls = g.cls ∧ ∃ a b, f.classStr = .ok a ∧ g.classStr = .ok b ∧
      a.map Char.toLower = b.map Char.toLower := by
  unfold checkClassEquality
  by_cases hc : f.cls = g.cls
  · rw [if_neg (by simp [hc])]
    cases hf : f.classStr <;> cases hg : g.classStr <;> simp [hc, areEqualI]
  · simp [hc]

theorem check_cases (f g : Freq) : checkClassEquality f g = .ok () ∨
    (checkClassEquality f g ≠ .ok () ∧ ∀ u, checkClassEquality f g ≠ .ok u) := by
  by_cases h : checkClassEquality f g = .ok ()
  · exact .inl h
  · exact .inr ⟨h, fun u => by cases u; exact h⟩

theorem check_symm (f g : Freq) (h : checkClassEquality f g = .ok ()) :
    checkClassEquality g f = .ok () := by
  rw [check_iff] at *
  obtain ⟨h1, a, b, ha, hb, he⟩ := h
  exact ⟨h1.symm, b, a, hb, ha, he.symm⟩

theorem check_trans (f g k : Freq) (h : checkClassEquality f g = .ok ())
    (h' : checkClassEquality g k = .ok ()) : checkClassEquality f k = .ok () := by
  rw [check_iff] at *
  obtain ⟨h1, a, b, ha, hb, he⟩ := h
  obtain ⟨h1', a', b', ha', hb', he'⟩ := h'
  rw [hb] at ha'
  simp only [Outcome.ok.injEq] at ha'
  subst ha'
  exact ⟨h1.trans h1', a, b', ha, hb', he.trans he'⟩

theorem classStr_ok (f : Freq) (h : f.WF) : ∃ s, f.classStr = .ok s := by
  cases f with
  | cs p => exact ⟨_, rfl⟩
  | listS f => exact ⟨_, rfl⟩
  | listD f => exact ⟨_, rfl⟩
  | week f => exact wb_classStr_ok f h
  | year f =>
    obtain ⟨hc, -⟩ := h
    simp only [Freq.classStr, YB.classStr, hc, YB.classOf]
    split <;> rename_i h' <;> split at h' <;> (try split at h') <;> (try split at h') <;> (try split at h') <;> simp_all
  | day f =>
    obtain ⟨hc, hd, -⟩ := h
    obtain ⟨s, hs⟩ := wb_classStr_ok f.day hd
    simp only [Freq.classStr, DB.classStr, hc, DB.classOf, hs]
    split <;> rename_i h' <;> split at h' <;> (try split at h') <;> (try split at h') <;> simp_all

theorem check_of (f g : Freq) (hf : f.WF) (hc : f.cls = g.cls) (hs : f.classStr = g.classStr) :
    checkClassEquality f g = .ok () := by
  rw [check_iff]
  obtain ⟨s, h⟩ := classStr_ok f hf
  exact ⟨hc, s, s, h, by rw [← hs, h], rfl⟩

/-! ## Lists -/

theorem indexOf_getElem {α : Type} [DecidableEq α] (l : List α) (hn : l.Nodup) (i : Nat) (h : i < l.length) :
    indexOf l l[i] = i := by
  induction l generalizing i with
  | nil => simp at h
  | cons a l ih =>
    rw [List.nodup_cons] at hn
    cases i with
    | zero => simp [indexOf]
    | succ i =>
      have hi : i < l.length := by simpa using h
      have hne : a ≠ l[i] := fun e => hn.1 (e ▸ List.getElem_mem hi)
      simp only [indexOf, List.getElem_cons_succ, if_neg hne, ih hn.2 i hi]
      rw [if_neg (by omega)]; push_cast; rfl

theorem indexOf_mem {α : Type} [DecidableEq α] (l : List α) (x : α) (h : x ∈ l) :
    ∃ i : Nat, indexOf l x = i ∧ ∃ hi : i < l.length, l[i] = x := by
  induction l with
  | nil => simp at h
  | cons a l ih =>
    by_cases hax : a = x
    · exact ⟨0, by simp [indexOf, hax], by simp, by simpa using hax⟩
    · have hx : x ∈ l := by
        rcases List.mem_cons.1 h with h | h
        · exact absurd h.symm hax
        · exact h
      obtain ⟨i, h1, h2, h3⟩ := ih hx
      refine ⟨i + 1, ?_, by simpa using h2, by simpa using h3⟩
      simp only [indexOf, if_neg hax, h1]
      rw [if_neg (by omega)]; push_cast; rfl

/-- The place determines the frequency. -/
theorem fl_place_inj {α : Type} [DecidableEq α] (l : List α) (f g : FL α)
    (hf : f.items = some l) (hg : g.items = some l)
    (vf : f.outIndex = 0 → f.value ∈ l) (vg : g.outIndex = 0 → g.value ∈ l)
    (h : FL.place l f = FL.place l g) : FL.Same f g := by
  unfold FL.place at h
  by_cases h1 : f.outIndex = 0 <;> by_cases h2 : g.outIndex = 0
  · obtain ⟨i, e1, l1, v1⟩ := indexOf_mem l _ (vf h1)
    obtain ⟨j, e2, l2, v2⟩ := indexOf_mem l _ (vg h2)
    rw [if_pos h1, if_pos h2, e1, e2] at h
    have : i = j := by omega
    subst this
    exact ⟨by rw [hf, hg], by rw [h1, h2], fun _ => by rw [← v1, ← v2]⟩
  · obtain ⟨i, e1, l1, v1⟩ := indexOf_mem l _ (vf h1)
    rw [if_pos h1, if_neg h2, e1] at h
    split at h <;> omega
  · obtain ⟨i, e1, l1, v1⟩ := indexOf_mem l _ (vg h2)
    rw [if_neg h1, if_pos h2, e1] at h
    split at h <;> omega
  · rw [if_neg h1, if_neg h2] at h
    refine ⟨by rw [hf, hg], ?_, fun h0 => absurd h0 h1⟩
    split at h <;> split at h <;> omega

/-- `Next` shifts the place. -/
theorem fl_next {α : Type} [DecidableEq α] (f : FL α) (h : f.WF) (n : Int) :
    ∃ l g, f.items = some l ∧ f.next n = .ok g ∧ g.items = some l ∧ g.WF ∧
      FL.place l g = FL.place l f + n := by
  obtain ⟨l, hl, hn, hv⟩ := h
  have key : ∃ g, f.next n = .ok g ∧ g.items = some l ∧ (g.outIndex = 0 → g.value ∈ l) ∧
      FL.place l g = FL.place l f + n := by
    unfold FL.next
    rw [hl]
    simp only
    have hi : (if (if f.outIndex = 0 then indexOf l f.value else -1) = -1 then
        (if f.outIndex > 0 then f.outIndex + ((l.length : Int) - 1) else f.outIndex)
        else (if f.outIndex = 0 then indexOf l f.value else -1)) = FL.place l f := by
      unfold FL.place
      by_cases h1 : f.outIndex = 0
      · obtain ⟨i, e1, l1, v1⟩ := indexOf_mem l _ (hv h1)
        rw [if_pos h1, if_pos h1, e1, if_neg (by omega)]
      · rw [if_neg h1, if_pos rfl, if_neg h1]
        split <;> omega
    rw [hi]
    generalize FL.place l f = p
    by_cases hr : p + n < l.length ∧ p + n ≥ 0
    · rw [if_pos hr]
      have hlt : (p + n).toNat < l.length := by omega
      refine ⟨{ f with value := l[(p + n).toNat], outIndex := 0 }, ?_, hl, ?_, ?_⟩
      · rw [at?, List.getElem?_eq_getElem hlt, hl]; rfl
      · intro _; exact List.getElem_mem hlt
      · simp only [FL.place, if_pos]
        rw [indexOf_getElem l hn _ hlt]; omega
    · rw [if_neg hr]
      refine ⟨_, rfl, rfl, ?_, ?_⟩
      · simp only; intro h0; exfalso; split at h0 <;> omega
      · simp only [FL.place]
        by_cases hb : p + n ≥ l.length
        · simp only [if_pos hb]; rw [if_neg (by omega), if_pos (by omega)]; omega
        · simp only [if_neg hb]; rw [if_neg (by omega), if_neg (by omega)]
  obtain ⟨g, h1, h2, h3, h4⟩ := key
  exact ⟨l, g, hl, h1, h2, ⟨l, h2, hn, h3⟩, h4⟩

end Fq
end LDT
