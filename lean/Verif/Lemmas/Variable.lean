import Verif.Model.Variable
import Verif.Props.Freq
import Verif.Props.Array
/-! # Lemmas about variables and tables -/
namespace LDT
namespace Var
open Fq Arr

/-- A frequency of a class with a working order and difference (see C02, C03 for the excluded ones). -/
structure Grid (f0 : Freq) : Prop where
  wf : f0.WF
  notList : f0.NotList
  notSingle : f0.NotSingle

theorem grid_next {f0 : Freq} (h : Grid f0) (a : Int) : ∃ g, f0.next a = .ok g := by
  obtain ⟨g, hg, -⟩ := freq_next f0 h.wf a
  exact ⟨g, hg⟩

theorem next_notList {f g : Freq} {n : Int} (h : f.NotList) (hn : f.next n = .ok g) : g.NotList := by
  cases f with
  | cs p => simp [Freq.next] at hn; subst hn; trivial
  | year f =>
    simp only [Freq.next] at hn
    cases hx : f.next n <;> rw [hx] at hn <;> simp at hn
    subst hn; trivial
  | week f =>
    simp only [Freq.next] at hn
    cases hx : f.next n <;> rw [hx] at hn <;> simp at hn
    subst hn; trivial
  | day f =>
    simp only [Freq.next] at hn
    cases hx : f.next n <;> rw [hx] at hn <;> simp at hn
    subst hn; trivial
  | listS f => exact absurd h (by simp [Freq.NotList])
  | listD f => exact absurd h (by simp [Freq.NotList])

theorem grid_next_add {f0 : Freq} (h : Grid f0) {a b : Int} {g g' : Freq} (h1 : f0.next a = .ok g)
    (h2 : f0.next (a + b) = .ok g') : g.next b = .ok g' := by
  obtain ⟨f1, f2, f3, e1, e2, e3, hs⟩ := C01_next_add f0 h.wf a b
  rw [h1] at e1; cases e1
  rw [h2] at e3; cases e3
  have hl := next_notList h.notList h2
  rcases same_cases f2 g' hs with h | ⟨x, y, rfl, rfl, -⟩ | ⟨x, y, rfl, rfl, -⟩
  · rw [e2, h]
  · exact absurd hl (by simp [Freq.NotList])
  · exact absurd hl (by simp [Freq.NotList])

theorem grid_minus {f0 : Freq} (h : Grid f0) {a b : Int} {g g' : Freq} (h1 : f0.next a = .ok g)
    (h2 : f0.next b = .ok g') : g.minus g' = .ok (a - b) := by
  obtain ⟨f1, f2, e1, e2, e3⟩ := C02_minus_next_partial f0 h.wf h.notSingle a b
  rw [h1] at e1; cases e1
  rw [h2] at e2; cases e2
  exact e3

theorem grid_newer {f0 : Freq} (h : Grid f0) {a b : Int} {g g' : Freq} (h1 : f0.next a = .ok g)
    (h2 : f0.next b = .ok g') : g.isNewerThan g' = .ok (decide (a > b)) := by
  obtain ⟨f1, f2, e1, e2, e3⟩ := C03_compare_next_partial f0 h.wf h.notList a b
  rw [h1] at e1; cases e1
  rw [h2] at e2; cases e2
  unfold Freq.isNewerThan
  rw [e3]
  simp only [Outcome.ok_bind, Outcome.pure_eq]
  congr 1; split_ifs <;> simp <;> omega

theorem grid_older {f0 : Freq} (h : Grid f0) {a b : Int} {g g' : Freq} (h1 : f0.next a = .ok g)
    (h2 : f0.next b = .ok g') : g.isOlderThan g' = .ok (decide (a < b)) := by
  obtain ⟨f1, f2, e1, e2, e3⟩ := C03_compare_next_partial f0 h.wf h.notList a b
  rw [h1] at e1; cases e1
  rw [h2] at e2; cases e2
  unfold Freq.isOlderThan
  rw [e3]
  simp only [Outcome.ok_bind, Outcome.pure_eq]
  congr 1; split_ifs <;> simp <;> omega

theorem grid_inj {f0 : Freq} (h : Grid f0) {a b : Int} {g : Freq} (h1 : f0.next a = .ok g)
    (h2 : f0.next b = .ok g) : a = b := by
  have e1 := grid_minus h h1 h2
  have e2 := grid_minus h h2 h2
  rw [e1] at e2
  simp at e2; omega

variable {K : Type}

theorem grid_end {f0 : Freq} (h : Grid f0) (v : Variable K) {a : Int} (h1 : f0.next a = .ok v.start) :
    ∃ g, v.endFreq = .ok g ∧ f0.next (a + v.data.length) = .ok g := by
  obtain ⟨g, hg⟩ := grid_next h (a + v.data.length)
  exact ⟨g, grid_next_add h h1 hg, hg⟩

/-- The bounds found by the first loop of the constructor. -/
theorem boundLoop_spec {f0 : Freq} (h : Grid f0) (vs : List (Variable K))
    (hv : ∀ v ∈ vs, ∃ a, f0.next a = .ok v.start) :
    ∀ (m M : Int) (s e : Freq), f0.next m = .ok s → f0.next M = .ok e →
    ∃ m' M' s' e', boundLoop (s, e) vs = .ok (s', e') ∧ f0.next m' = .ok s' ∧ f0.next M' = .ok e' ∧
      m' ≤ m ∧ M ≤ M' ∧
      (∀ v ∈ vs, ∀ a, f0.next a = .ok v.start → m' ≤ a ∧ a + v.data.length ≤ M') ∧
      (m' = m ∨ ∃ v ∈ vs, f0.next m' = .ok v.start) ∧
      (M' = M ∨ ∃ v ∈ vs, ∃ a, f0.next a = .ok v.start ∧ M' = a + v.data.length) := by
  induction vs with
  | nil => intro m M s e h1 h2; exact ⟨m, M, s, e, rfl, h1, h2, le_refl _, le_refl _, by simp, .inl rfl, .inl rfl⟩
  | cons v vs ih =>
    intro m M s e h1 h2
    obtain ⟨a, ha⟩ := hv v (by simp)
    obtain ⟨g, g1, g2⟩ := grid_end h v ha
    have hstep : boundStep (s, e) v = .ok (if m > a then v.start else s, if M < a + v.data.length then g else e) := by
      unfold boundStep
      simp only [grid_newer h h1 ha, g1, grid_older h h2 g2, Outcome.ok_bind, Outcome.pure_eq, decide_eq_true_eq]
    obtain ⟨m', M', s', e', k1, k2, k3, k4, k5, k6, k7, k8⟩ := ih (fun w hw => hv w (List.mem_cons_of_mem _ hw))
      (if m > a then a else m) (if M < a + v.data.length then a + v.data.length else M)
      (if m > a then v.start else s) (if M < a + v.data.length then g else e)
      (by split_ifs <;> assumption) (by split_ifs <;> assumption)
    refine ⟨m', M', s', e', ?_, k2, k3, ?_, ?_, ?_, ?_, ?_⟩
    · simp only [boundLoop, hstep, Outcome.ok_bind, k1]
    · split_ifs at k4 <;> omega
    · split_ifs at k5 <;> omega
    · intro w hw b hb
      rcases List.mem_cons.1 hw with rfl | hw
      · have := grid_inj h hb ha
        subst this
        constructor
        · split_ifs at k4 <;> omega
        · split_ifs at k5 <;> omega
      · exact k6 w hw b hb
    · rcases k7 with k7 | ⟨w, hw, k7⟩
      · by_cases hc : m > a
        · rw [if_pos hc] at k7; subst k7; exact .inr ⟨v, by simp, ha⟩
        · rw [if_neg hc] at k7; exact .inl k7
      · exact .inr ⟨w, by simp [hw], k7⟩
    · rcases k8 with k8 | ⟨w, hw, k8⟩
      · by_cases hc : M < a + v.data.length
        · rw [if_pos hc] at k8; exact .inr ⟨v, by simp, a, ha, k8⟩
        · rw [if_neg hc] at k8; exact .inl k8
      · exact .inr ⟨w, by simp [hw], k8⟩

theorem column_spec {f0 : Freq} (h : Grid f0) (v : Variable K) {m M a : Int} {s e : Freq}
    (hs : f0.next m = .ok s) (he : f0.next M = .ok e) (ha : f0.next a = .ok v.start) :
    column s e v = .ok (List.replicate (a - m).toNat none ++ v.data ++
      List.replicate (M - (a + v.data.length)).toNat none) := by
  obtain ⟨g, g1, g2⟩ := grid_end h v ha
  unfold column
  simp only [grid_minus h ha hs, g1, grid_minus h he g2, Outcome.ok_bind, Outcome.pure_eq]

theorem columns_spec {f0 : Freq} (h : Grid f0) {m M : Int} {s e : Freq} (hs : f0.next m = .ok s)
    (he : f0.next M = .ok e) (vs : List (Variable K))
    (hv : ∀ v ∈ vs, ∃ a, f0.next a = .ok v.start ∧ m ≤ a ∧ a + v.data.length ≤ M) :
    ∃ cells, columns s e vs = .ok cells ∧ cells.length = (M - m).toNat * vs.length ∧
      ∀ (i : Nat) (v : Variable K), vs[i]? = some v → ∀ a, f0.next a = .ok v.start → ∀ r : Nat, r < (M - m).toNat →
        cells[(M - m).toNat * i + r]? = some (if a ≤ m + r then (v.data[(m + r - a).toNat]?).getD none else none) := by
  induction vs with
  | nil => exact ⟨[], rfl, by simp, by simp⟩
  | cons v vs ih =>
    obtain ⟨cells, c1, c2, c3⟩ := ih (fun w hw => hv w (List.mem_cons_of_mem _ hw))
    obtain ⟨a, ha, b1, b2⟩ := hv v (by simp)
    have hcol := column_spec h v hs he ha
    refine ⟨_, by simp only [columns, hcol, c1, Outcome.ok_bind, Outcome.pure_eq]; rfl, ?_, ?_⟩
    · simp only [List.length_append, List.length_replicate, List.length_cons, c2]
      rw [Nat.mul_succ]; omega
    · intro i w hw a' ha' r hr
      cases i with
      | zero =>
        simp at hw; subst hw
        have := grid_inj h ha' ha
        subst this
        rw [Nat.mul_zero, Nat.zero_add, List.getElem?_append_left (by simp; omega)]
        by_cases hle : a' ≤ m + r
        · rw [if_pos hle]
          by_cases hlt : (m + r - a').toNat < v.data.length
          · rw [List.getElem?_append_left (by simp; omega), List.getElem?_append_right (by simp; omega),
              List.length_replicate]
            have : r - (a' - m).toNat = (m + r - a').toNat := by omega
            rw [this, List.getElem?_eq_getElem hlt]; rfl
          · rw [List.getElem?_append_right (by simp; omega), List.getElem?_eq_none (l := v.data) (by omega)]
            rw [List.getElem?_replicate_of_lt (by simp; omega)]; rfl
        · rw [if_neg hle, List.getElem?_append_left (by simp; omega), List.getElem?_append_left (by simp; omega),
            List.getElem?_replicate_of_lt (by omega)]
      | succ i =>
        simp at hw
        rw [List.getElem?_append_right (by simp; rw [Nat.mul_succ]; omega)]
        rw [← c3 i w hw a' ha' r hr]
        congr 1
        simp only [List.length_append, List.length_replicate]
        rw [Nat.mul_succ]; omega

end Var
end LDT
