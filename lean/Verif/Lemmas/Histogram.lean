import Verif.Model.Histogram
import Verif.Spec.Histogram
import Verif.Lemmas.Vector
import Verif.Props.Descriptive
/-!
# Lemmas: histograms
-/
namespace LDT
namespace Hi
open Mx Stat
open Arr (Val)
open De (put put_spec)

section
variable {K : Type} [Field K] [LinearOrder K]

/-- The bin of a number. -/
def binOf (as : List K) (d : K) : Nat := as.countP (fun a => decide (a ≤ d))

theorem binOf_le (as : List K) (d : K) : binOf as d ≤ as.length := List.countP_le_length

theorem binOf_lt {as : List K} (hs : as.Pairwise (· ≤ ·)) (d : K) : ∀ (p : Nat) (a : K), as[p]? = some a →
    (a ≤ d ↔ p < binOf as d) := by
  induction as with
  | nil => intro p a h; simp at h
  | cons b t ih =>
    intro p a h
    rw [List.pairwise_cons] at hs
    by_cases hb : b ≤ d
    · have e : binOf (b :: t) d = binOf t d + 1 := by unfold binOf; rw [List.countP_cons]; simp [hb]
      rw [e]
      cases p with
      | zero => simp at h; subst h; simp [hb]
      | succ p => simp at h; rw [ih hs.2 p a h]; omega
    · have e : binOf (b :: t) d = 0 := by
        unfold binOf
        rw [List.countP_eq_zero]
        intro c hc
        simp only [decide_eq_true_eq, not_le]
        rcases List.mem_cons.1 hc with rfl | hc
        · exact not_le.1 hb
        · exact lt_of_lt_of_le (not_le.1 hb) (hs.1 c hc)
      rw [e]
      constructor
      · intro ha
        exfalso
        have : b ≤ a := by
          cases p with
          | zero => simp at h; rw [h]
          | succ p => simp at h; exact hs.1 a (List.mem_of_getElem? h)
        exact hb (this.trans ha)
      · intro h; omega

theorem binOf_mono (as : List K) {d e : K} (h : d ≤ e) : binOf as d ≤ binOf as e := by
  unfold binOf
  apply List.countP_mono_left
  intro a _ ha
  simp only [decide_eq_true_eq] at ha ⊢
  exact ha.trans h

theorem inBin_iff {as : List K} (hs : as.Pairwise (· ≤ ·)) (d : K) (p : Nat) (hp : p ≤ as.length) :
    InBin as p d ↔ binOf as d = p := by
  have hb := binOf_le as d
  unfold InBin
  constructor
  · rintro ⟨h1, h2⟩
    by_contra hne
    rcases lt_or_gt_of_ne hne with h | h
    · have hp0 : p - 1 < as.length := by omega
      have := h1 as[p - 1] (by omega) (List.getElem?_eq_getElem hp0)
      rw [binOf_lt hs d (p - 1) _ (List.getElem?_eq_getElem hp0)] at this
      omega
    · have hp0 : p < as.length := by omega
      have := h2 as[p] (List.getElem?_eq_getElem hp0)
      rw [← not_le, binOf_lt hs d p _ (List.getElem?_eq_getElem hp0)] at this
      omega
  · rintro rfl
    refine ⟨fun a h0 e => (binOf_lt hs d _ a e).2 (by omega), fun a e => ?_⟩
    rw [← not_le, binOf_lt hs d _ a e]; omega

/-! ## The search -/

theorem upTo_cons' {a b : Int} (h : a < b) : upTo a b = a :: upTo (a + 1) b := by
  unfold upTo
  obtain ⟨n, hn⟩ : ∃ n : Nat, (b - a).toNat = n + 1 := ⟨(b - a).toNat - 1, by omega⟩
  rw [hn, show (b - (a + 1)).toNat = n by omega, List.range_succ_eq_map, List.map_cons, List.map_map]
  congr 1
  · simp
  · apply List.map_congr_left
    intro x _
    simp only [Function.comp]; push_cast; ring

theorem upTo_nil {a b : Int} (h : b ≤ a) : upTo a b = [] := by
  unfold upTo
  rw [show (b - a).toNat = 0 by omega]; rfl

/-- The first break that passes the test. -/
theorem findBin_spec (last : Bool) (d : Val K) (axis : List (Val K)) (val : Nat → Val K) (n : Nat)
    (hr : ∀ p : Nat, p < n → read axis p = .ok (val p)) :
    ∀ (m j : Nat), n - j = m → j ≤ n →
    (∃ p : Nat, findBin last d axis (upTo j n) = .ok (some (p : Int)) ∧ j ≤ p ∧ p < n ∧
      (if last then vle d (val p) else Arr.vlt d (val p)) = true ∧
      ∀ q, j ≤ q → q < p → (if last then vle d (val q) else Arr.vlt d (val q)) = false) ∨
    (findBin last d axis (upTo j n) = .ok none ∧
      ∀ q, j ≤ q → q < n → (if last then vle d (val q) else Arr.vlt d (val q)) = false) := by
  intro m
  induction m with
  | zero =>
    intro j h1 h2
    right
    rw [upTo_nil (by omega)]
    exact ⟨rfl, fun q h3 h4 => by omega⟩
  | succ m ih =>
    intro j h1 h2
    rw [upTo_cons' (by omega)]
    unfold findBin
    rw [hr j (by omega)]
    simp only [Outcome.ok_bind]
    by_cases ht : (if last then vle d (val j) else Arr.vlt d (val j)) = true
    · left
      exact ⟨j, by rw [if_pos ht]; rfl, le_refl _, by omega, ht, fun q h3 h4 => by omega⟩
    · have hf : (if last then vle d (val j) else Arr.vlt d (val j)) = false := by simpa using ht
      rw [if_neg ht]
      have := ih (j + 1) (by omega) (by omega)
      push_cast at this
      rcases this with ⟨p, e, h3, h4, h5, h6⟩ | ⟨e, h6⟩
      · left
        refine ⟨p, e, by omega, h4, h5, fun q h7 h8 => ?_⟩
        rcases Nat.eq_or_lt_of_le h7 with rfl | h9
        · exact hf
        · exact h6 q h9 h8
      · right
        refine ⟨e, fun q h7 h8 => ?_⟩
        rcases Nat.eq_or_lt_of_le h7 with rfl | h9
        · exact hf
        · exact h6 q h9 h8

/-! ## The counts -/

/-- The counts are those of `f`. -/
structure Counts (c0 c : Mat Int) (n : Nat) (f : Nat → Int) : Prop where
  same : SameShape c0 c
  cell : ∀ p : Nat, p ≤ n → read c.mem p = .ok (f p)

theorem bump_spec {c0 c : Mat Int} (w : c0.Wf) {n : Nat} (hl : ((n : Int) + 1) ≤ c0.length) {f : Nat → Int}
    (h : Counts c0 c n f) (t : Nat) (ht : t ≤ n) :
    ∃ c', bump c (t : Int) = .ok c' ∧ Counts c0 c' n (fun p => f p + if p = t then 1 else 0) := by
  have wc := h.same.wf w
  have hlc : c.length = c0.length := by unfold Mat.length; rw [h.same.rows, h.same.cols]
  obtain ⟨c', e, s, r⟩ := put_spec wc (k := (t : Int)) (by omega) (by rw [hlc]; omega) (f t + 1)
  refine ⟨c', by unfold bump; rw [h.cell t ht]; simpa using e, h.same.trans s, fun p hp => ?_⟩
  rw [r, h.cell p hp]
  by_cases hpt : p = t
  · subst hpt; simp
  · rw [if_neg (by omega), if_neg hpt, add_zero]

theorem zeros_spec (c0 : Mat Int) (w : c0.Wf) (n : Nat) (hl : ((n : Int) + 1) ≤ c0.length) :
    ∃ c, (upTo 0 ((n : Int) + 1)).foldlM (fun c i => put c i (0 : Int)) c0 = .ok c ∧ Counts c0 c n (fun _ => 0) := by
  obtain ⟨c, e, s, p⟩ := loop_inv (a := 0) (b := (n : Int) + 1) (by omega) (fun c i => put c i (0 : Int))
    (fun i c => SameShape c0 c ∧ ∀ p : Nat, (p : Int) < i → read c.mem p = .ok 0) (s := c0)
    ⟨SameShape.refl _, fun p hp => by omega⟩ (by
      rintro i hi hb c ⟨s, p⟩
      have wc := s.wf w
      have hlc : c.length = c0.length := by unfold Mat.length; rw [s.rows, s.cols]
      obtain ⟨c', e, s', r⟩ := put_spec wc (k := i) hi (by rw [hlc]; omega) 0
      refine ⟨c', e, s.trans s', fun q hq => ?_⟩
      rw [r]
      by_cases hqi : (q : Int) = i
      · rw [if_pos hqi]
      · rw [if_neg hqi]; exact p q (by omega))
  exact ⟨c, e, s, fun q hq => p q (by omega)⟩

/-- One datum goes to one bin. -/
theorem fillStep_spec {data axis : Mat (Val K)} {xs as : List (Val K)} (hd : IsCells data xs) (ha : IsCells axis as)
    {c0 c : Mat Int} (w : c0.Wf) (hl : ((as.length : Int) + 1) ≤ c0.length) {f : Nat → Int}
    (h : Counts c0 c as.length f) (i : Nat) (d : Val K) (hi : xs[i]? = some d) (j : Nat) (hj : j ≤ as.length) :
    ∃ (c' : Mat Int) (j' t : Nat), fillStep data axis (c, (j : Int)) (i : Int) = .ok (c', (j' : Int)) ∧ t ≤ as.length ∧
      j ≤ j' ∧ j' ≤ t ∧ j' ≤ as.length ∧ Counts c0 c' as.length (fun p => f p + if p = t then 1 else 0) ∧
      (∀ a, as[t]? = some a → (if i + 1 = xs.length then vle d a else Arr.vlt d a) = true) ∧
      ∀ q a, j ≤ q → q < t → as[q]? = some a → (if i + 1 = xs.length then vle d a else Arr.vlt d a) = false := by
  have hrd := isCells_read hd i d hi
  rw [zero_add] at hrd
  have hll : (decide ((i : Int) = data.length - 1)) = decide (i + 1 = xs.length) := by
    rw [← hd.len]
    exact decide_eq_decide.2 ⟨fun h => by omega, fun h => by omega⟩
  have hal : axis.length = as.length := ha.len.symm
  have rd : ∀ p : Nat, p < as.length → read axis.mem p = .ok (as.getD p none) := by
    intro p hp
    have := isCells_read ha p (as.getD p none) (by
      rw [List.getD_eq_getElem?_getD, List.getElem?_eq_getElem hp]; rfl)
    rwa [zero_add] at this
  have gd : ∀ (p : Nat) (a : Val K), as[p]? = some a → as.getD p none = a := by
    intro p a h; rw [List.getD_eq_getElem?_getD, h]; rfl
  unfold fillStep
  rw [hrd]
  simp only [Outcome.ok_bind, hll, hal]
  rcases findBin_spec (decide (i + 1 = xs.length)) d axis.mem (fun p => as.getD p none) as.length rd _ j rfl hj with
    ⟨p, e, h1, h2, h3, h4⟩ | ⟨e, h4⟩
  · obtain ⟨c', e', h'⟩ := bump_spec w hl h p (by omega)
    rw [e]
    simp only [Outcome.ok_bind, e']
    refine ⟨c', p, p, rfl, by omega, h1, le_refl _, by omega, h', fun a hq => ?_, fun q a hq1 hq2 hq => ?_⟩
    · rw [gd p a hq] at h3; simpa using h3
    · have := h4 q hq1 hq2; rw [gd q a hq] at this; simpa using this
  · obtain ⟨c', e', h'⟩ := bump_spec w hl h as.length (le_refl _)
    rw [e]
    simp only [Outcome.ok_bind, e']
    refine ⟨c', j, as.length, rfl, le_refl _, le_refl _, hj, hj, h', fun a hq => ?_, fun q a hq1 hq2 hq => ?_⟩
    · simp at hq
    · have := h4 q hq1 hq2; rw [gd q a hq] at this; simpa using this

end
end Hi
end LDT
