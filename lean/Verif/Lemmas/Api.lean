import Verif.Spec.Api
import Verif.Props.Variable
import Verif.Lemmas.MatrixRemove
namespace LDT
namespace Var
open Fq Arr Op
open Mx (read write upTo)

variable {K : Type}

/-! ## Trimming -/

theorem same_eq {f g : Freq} (h : f.Same g) (hl : g.NotList) : f = g := by
  rcases same_cases f g h with h | ⟨x, y, -, rfl, -⟩ | ⟨x, y, -, rfl, -⟩
  · exact h
  · exact absurd hl (by simp [Freq.NotList])
  · exact absurd hl (by simp [Freq.NotList])

theorem next_zero_eq {f : Freq} (hw : f.WF) (hl : f.NotList) : f.next 0 = .ok f := by
  obtain ⟨g, h1, h2⟩ := C01_next_zero f hw
  rw [h1, same_eq h2 hl]

theorem trim_start {v v' : Variable K} {r : Range} (h : v.trim = .ok (v', r)) : v'.start = v.start ∨ v.start.next r.start = .ok v'.start := by
  unfold Variable.trim at h
  cases hg : getRangeM v.data with
  | ok p =>
    rw [hg] at h
    simp only [Outcome.ok_bind] at h
    split_ifs at h
    · cases h; exact .inl rfl
    · cases hn : v.start.next p.1.start with
      | ok g => rw [hn] at h; cases h; exact .inr hn
      | _ => rw [hn] at h; cases h
    · cases h; exact .inl rfl
  | _ => rw [hg] at h; cases h

/-- A trimmed series on a grid: the same numbers at the same dates. -/
theorem trim_grid {f0 : Freq} (hf : Grid f0) (v : Variable K) (hv : ∃ a, f0.next a = .ok v.start) (hobs : ∃ i, Obs v.data i) (hw : v.start.WF) :
    ∃ v' r, v.trim = .ok (v', r) ∧ (∃ a, f0.next a = .ok v'.start) ∧ (∀ g x, ValueAt v' g x ↔ ValueAt v g x) ∧
      ∃ l, v'.data.length = l + 1 ∧ Obs v'.data 0 ∧ Obs v'.data l := by
  obtain ⟨v', s, e, ht, -, h2, h3, hlen, ho0, hol, hmiss, hcell⟩ := C10_trim v hw hobs
  obtain ⟨a, ha⟩ := hv
  have hl : v.start.NotList := next_notList hf.notList ha
  have date : ∀ j : ℕ, j ≤ e - s → ∃ g, v.start.next ((s + j : ℕ) : Int) = .ok g ∧ v'.start.next (j : Int) = .ok g := by
    intro j hj
    obtain ⟨-, g, g', h4, h5, h6⟩ := hcell j hj
    rw [same_eq h6 (next_notList hl h4)] at h5
    exact ⟨g, h4, h5⟩
  refine ⟨v', ⟨s, e⟩, ht, ?_, fun g x => ?_, e - s, hlen, ho0, hol⟩
  · rcases trim_start ht with h | h
    · exact ⟨a, by rw [h]; exact ha⟩
    · obtain ⟨g, hg⟩ := grid_next hf (a + s)
      have := grid_next_add hf ha hg
      rw [show v.start.next (s : Int) = .ok v'.start from h] at this
      cases this
      exact ⟨_, hg⟩
  · constructor
    · rintro ⟨j, h1, h4⟩
      have hj : j ≤ e - s := by
        by_contra hn
        rw [List.getElem?_eq_none (by omega)] at h1; cases h1
      obtain ⟨g', h5, h6⟩ := date j hj
      rw [h4] at h6; cases h6
      exact ⟨s + j, by rw [← (hcell j hj).1]; exact h1, h5⟩
    · rintro ⟨i, h1, h4⟩
      have hi : i < v.data.length := by
        by_contra hn
        rw [List.getElem?_eq_none (by omega)] at h1; cases h1
      have hse : s ≤ i ∧ i ≤ e := by
        by_contra hn
        have := hmiss i hi (by omega)
        unfold Miss at this
        rw [h1] at this
        cases this
      have hj : i - s ≤ e - s := by omega
      obtain ⟨g', h5, h6⟩ := date (i - s) hj
      rw [show s + (i - s) = i by omega, h4] at h5; cases h5
      exact ⟨i - s, by rw [(hcell (i - s) hj).1, show s + (i - s) = i by omega]; exact h1, h6⟩

/-! ## Cells of the table -/

/-- The cell of a series at a date. -/
def CellOf (v : Variable K) (g : Freq) (c : Val K) : Prop := ∀ x, ValueAt v g x ↔ c = some x

theorem cellOf_row [Zero K] {f0 : Freq} (hf : Grid f0) {a : Variable K} {start : Freq} (hs : ∃ m, f0.next m = .ok start) (ha : ∃ p, f0.next p = .ok a.start) {n : ℕ}
    {cell : ℕ → Option (Val K)}
    (h1 : ∀ (j : ℕ) (x : Val K), a.data[j]? = some x → ∃ r, r < n ∧ (∃ g, start.next r = .ok g ∧ a.start.next j = .ok g) ∧ cell r = some x)
    (h2 : ∀ r, r < n → (∀ j g, j < a.data.length → a.start.next (j : Int) = .ok g → start.next r ≠ .ok g) → cell r = some none)
    {r : ℕ} (hr : r < n) {g : Freq} (hg : start.next r = .ok g) : ∃ c, cell r = some c ∧ CellOf a g c := by
  obtain ⟨m, hm⟩ := hs
  obtain ⟨p, hp⟩ := ha
  have inj : ∀ {q : Int} {f : Freq}, f0.next q = .ok f → ∀ {i j : ℕ} {g : Freq}, f.next i = .ok g → f.next j = .ok g → i = j := by
    intro q f hq i j g e1 e2
    obtain ⟨g1, k1⟩ := grid_next hf (q + i)
    obtain ⟨g2, k2⟩ := grid_next hf (q + j)
    have l1 := grid_next_add hf hq k1
    have l2 := grid_next_add hf hq k2
    rw [e1] at l1; rw [e2] at l2
    cases l1; cases l2
    have := grid_inj hf k1 k2
    omega
  by_cases hx : ∃ j, j < a.data.length ∧ a.start.next (j : Int) = .ok g
  · obtain ⟨j, hj, hjg⟩ := hx
    obtain ⟨r', h3, ⟨g', h4, h5⟩, h6⟩ := h1 j _ (List.getElem?_eq_getElem hj)
    rw [hjg] at h5; cases h5
    obtain rfl := inj hm h4 hg
    refine ⟨_, h6, fun x => ⟨fun ⟨i, h7, h8⟩ => ?_, fun hc => ⟨j, ?_, hjg⟩⟩⟩
    · obtain rfl := inj hp h8 hjg
      rw [List.getElem?_eq_getElem hj] at h7
      exact Option.some.inj h7
    · rw [List.getElem?_eq_getElem hj, hc]
  · refine ⟨none, h2 r hr fun j g' hj hjg heq => hx ⟨j, hj, ?_⟩, fun x => ⟨fun ⟨i, h7, h8⟩ => ?_, fun hc => by cases hc⟩⟩
    · rw [hg] at heq; cases heq; exact hjg
    · have hi : i < a.data.length := by
        by_contra hn
        rw [List.getElem?_eq_none (by omega)] at h7
        cases h7
      exact absurd ⟨i, hi, h8⟩ hx

/-! ## The loop -/

section
variable [Field K] [LinearOrder K]

theorem change_ne_nan {x y : K} : change x y ≠ .nan ↔ x ≠ 0 ∨ y ≠ 0 := by
  unfold change
  split_ifs with h1 h2
  · simp [h1, h2]
  · simp [h2]
  · simp [h1]

/-- The state after the first `k` rows. -/
structure Reached (c1 c2 : ℕ → Val K) (buf : List (Val K)) (k : ℕ) (s : List (Val K) × Dbl K) : Prop where
  len : s.1.length = buf.length
  done : ∀ i, i < k → s.1[i]? = some (prefer (c1 i) (c2 i))
  rest : ∀ i, k ≤ i → s.1[i]? = buf[i]?
  above : ∀ i x y, i < k → c1 i = some x → c2 i = some y → x ≠ 0 ∨ y ≠ 0 → (change x y).le s.2 = true
  value : s.2 = .num 0 ∨ ∃ i x y, i < k ∧ c1 i = some x ∧ c2 i = some y ∧ (x ≠ 0 ∨ y ≠ 0) ∧ s.2 = change x y

theorem le_of_not_lt {a b : Dbl K} (ha : a ≠ .nan) (hb : b ≠ .nan) (h : b.lt a = false) : a.le b = true := by
  cases a <;> cases b <;> simp_all [Dbl.lt, Dbl.le]

theorem le_trans' {a b c : Dbl K} (h1 : a.le b = true) (h2 : b.lt c = true) : a.le c = true := by
  cases a <;> cases b <;> cases c <;> simp_all [Dbl.lt, Dbl.le]
  exact h1.trans h2.le

theorem combine_loop {t : Table K} {c1 c2 : ℕ → Val K} {n : ℕ} (hn : t.numObs = n) (h1 : ∀ i, i < n → t.data[i]? = some (c1 i))
    (h2 : ∀ i, i < n → t.data[n + i]? = some (c2 i)) (buf : List (Val K)) (hb : n ≤ buf.length) (k : ℕ) (hk : k ≤ n) :
    ∃ s, (upTo 0 (k : Int)).foldlM (combineStep t) (buf, .num 0) = .ok s ∧ Reached c1 c2 buf k s := by
  induction k with
  | zero => exact ⟨(buf, .num 0), rfl, rfl, fun i h => absurd h (by omega), fun _ _ => rfl, fun i _ _ h => absurd h (by omega), .inl rfl⟩
  | succ k ih =>
    obtain ⟨s, e, hs⟩ := ih (by omega)
    rw [Mx.upTo_succ, List.foldlM_append, e, Outcome.ok_bind]
    have r1 : Mx.read t.data (k : Int) = .ok (c1 k) := by
      unfold Mx.read; rw [if_pos (by omega), show (k : Int).toNat = k by omega, h1 k (by omega)]
    have r2 : Mx.read t.data ((k : Int) + t.numObs) = .ok (c2 k) := by
      unfold Mx.read; rw [if_pos (by omega), hn, show ((k : Int) + (n : Int)).toNat = n + k by omega, h2 k (by omega)]
    have hlt : k < s.1.length := by rw [hs.len]; omega
    have w : write s.1 (k : Int) (prefer (c1 k) (c2 k)) = .ok (s.1.set k (prefer (c1 k) (c2 k))) := by
      unfold write; rw [if_pos ⟨by omega, by exact_mod_cast hlt⟩, show (k : Int).toNat = k by omega]
    refine ⟨(s.1.set k (prefer (c1 k) (c2 k)), raise s.2 (c1 k) (c2 k)), ?_, ?_⟩
    · show (combineStep t s (k : Int) >>= fun s => pure s) = _
      unfold combineStep
      rw [r1, Outcome.ok_bind, r2, Outcome.ok_bind, w]; rfl
    have hnn : s.2 ≠ .nan := by
      rcases hs.value with h | ⟨i, x, y, -, -, -, h, e⟩
      · rw [h]; simp
      · rw [e]; exact change_ne_nan.2 h
    refine ⟨by rw [List.length_set]; exact hs.len, fun i hi => ?_, fun i hi => ?_, fun i x y hi hx hy hne => ?_, ?_⟩
    · by_cases hik : i = k
      · subst hik; rw [List.getElem?_set_self hlt]
      · rw [List.getElem?_set_ne (by omega)]; exact hs.done i (by omega)
    · rw [List.getElem?_set_ne (by omega)]; exact hs.rest i (by omega)
    · show (change x y).le (raise s.2 (c1 k) (c2 k)) = true
      by_cases hik : i = k
      · subst hik
        rw [hx, hy]
        unfold raise
        dsimp only
        split_ifs with hlt'
        · cases hc : change x y <;> simp_all [Dbl.le, change_ne_nan.2 hne]
        · exact le_of_not_lt (change_ne_nan.2 hne) hnn (by simpa using hlt')
      · have hle := hs.above i x y (by omega) hx hy hne
        unfold raise
        split
        · split_ifs with hlt'
          · exact le_trans' hle hlt'
          · exact hle
        · exact hle
    · show raise s.2 (c1 k) (c2 k) = .num 0 ∨ _
      have old : s.2 = .num 0 ∨ ∃ i x y, i < k + 1 ∧ c1 i = some x ∧ c2 i = some y ∧ (x ≠ 0 ∨ y ≠ 0) ∧ s.2 = change x y := by
        rcases hs.value with h | ⟨i, x, y, hi, h⟩
        · exact .inl h
        · exact .inr ⟨i, x, y, by omega, h⟩
      unfold raise
      split
      · rename_i x y hx hy
        split_ifs with hlt'
        · refine .inr ⟨k, x, y, by omega, hx, hy, change_ne_nan.1 fun h => ?_, rfl⟩
          rw [h] at hlt'
          cases s.2 <;> simp [Dbl.lt] at hlt'
        · exact old
      · exact old

end
end Var
end LDT
