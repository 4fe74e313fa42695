import Verif.Model.FreqCost
import Verif.Props.Matrix
import Mathlib.Algebra.Order.Field.Basic
import Mathlib.Algebra.Order.Field.Rat
import Mathlib.Algebra.BigOperators.Group.List.Basic
import Mathlib.Tactic.FieldSimp
namespace LDT
namespace FCost
open Mx

variable {K : Type} [Field K] [LinearOrder K] [IsStrictOrderedRing K]

/-- Row `r` is the first one of the table whose threshold is at or above `p`. -/
def FirstRow (c : Mat K) (p : K) (r : Int) : Prop :=
  0 ≤ r ∧ r < c.rows ∧ (∃ t, c.get r 0 = .ok t ∧ p ≤ t) ∧ ∀ r', 0 ≤ r' → r' < r → ∃ t, c.get r' 0 = .ok t ∧ t < p

/-- `v` is the cost the table `c` assigns to an observation of class `col` whose probability is `p`. -/
def CostOf (c : Mat K) (p : K) (col : Int) (v : K) : Prop := ∃ r, FirstRow c p r ∧ c.get r (col + 1) = .ok v

theorem findRow_spec (c : Mat K) (w : c.Wf) (hc : 0 < c.cols) (p : K) : ∀ (n : Nat) (r : Int), 0 ≤ r → r + n = c.rows →
    (∀ r', 0 ≤ r' → r' < r → ∃ t, c.get r' 0 = .ok t ∧ t < p) →
    ((∃ r', FirstRow c p r' ∧ findRow c p n r = .ok r') ∨
     (findRow c p n r = .ok c.rows ∧ ∀ r', 0 ≤ r' → r' < c.rows → ∃ t, c.get r' 0 = .ok t ∧ t < p)) := by
  intro n
  induction n with
  | zero =>
    intro r h0 hr hlt
    right; have : r = c.rows := by simpa using hr
    rw [this] at hlt ⊢; exact ⟨rfl, hlt⟩
  | succ n ih =>
    intro r h0 hr hlt
    push_cast at hr
    have hin : c.InR r 0 := ⟨h0, by omega, by omega, hc⟩
    obtain ⟨t, ht⟩ := get0_ok w hin
    have ht' : c.get r 0 = .ok t := by rw [get_eq_get0 w hin, ht]
    unfold findRow
    rw [ht, Outcome.ok_bind]
    by_cases h : t ≥ p
    · left
      refine ⟨r, ⟨h0, by omega, ⟨t, ht', h⟩, hlt⟩, ?_⟩
      rw [if_pos h]; rfl
    · rw [if_neg h]
      refine ih (r + 1) (by omega) (by omega) ?_
      intro r' h1 h2
      by_cases e : r' = r
      · subst e; exact ⟨t, ht', not_le.1 h⟩
      · exact hlt r' h1 (by omega)

/-- The table covers the probability: its last threshold is at least `p`. -/
def Covers (c : Mat K) (p : K) : Prop := ∃ t, c.get (c.rows - 1) 0 = .ok t ∧ p ≤ t

theorem findRow_covered (c : Mat K) (w : c.Wf) (hr : 0 < c.rows) (hc : 0 < c.cols) (p : K) (h : Covers c p) :
    ∃ r, FirstRow c p r ∧ findRow c p c.rows.toNat 0 = .ok r := by
  rcases findRow_spec c w hc p c.rows.toNat 0 (le_refl _) (by omega) (by intro r' h1 h2; omega) with h' | ⟨_, h'⟩
  · exact h'
  · exfalso
    obtain ⟨t, ht, hp⟩ := h
    obtain ⟨t', ht', hlt⟩ := h' (c.rows - 1) (by omega) (by omega)
    rw [ht] at ht'
    have : t = t' := by simpa using ht'
    subst this
    exact absurd hp (not_le.2 hlt)

theorem charge_spec (c : Mat K) (w : c.Wf) (hr : 0 < c.rows) (p : K) (h : Covers c p) (col : Int) (h0 : 0 ≤ col)
    (h1 : col + 1 < c.cols) (weight : K) (s : K × K) :
    ∃ v, CostOf c p col v ∧ charge c p col weight s = .ok (s.1 + v * weight, s.2 + weight) := by
  obtain ⟨r, hf, e⟩ := findRow_covered c w hr (by omega) p h
  have hin : c.InR r (col + 1) := ⟨hf.1, hf.2.1, by omega, h1⟩
  obtain ⟨v, hv⟩ := get0_ok w hin
  refine ⟨v, ⟨r, hf, by rw [get_eq_get0 w hin, hv]⟩, ?_⟩
  unfold charge
  rw [e, Outcome.ok_bind, hv, Outcome.ok_bind]
  by_cases hv0 : v = 0
  · rw [if_pos hv0, hv0]; simp
  · rw [if_neg hv0]; rfl

/-- What the specification charges: for each observation with a label the pair (cost, weight). -/
inductive Charged (c : Mat K) (scores : Mat K) : List (Option Int × K) → Int → List (K × K) → Prop
  | nil (i : Int) : Charged c scores [] i []
  | skip (w : K) (obs : List (Option Int × K)) (i : Int) (l : List (K × K)) :
      Charged c scores obs (i + 1) l → Charged c scores ((none, w) :: obs) i l
  | one (col : Int) (w : K) (obs : List (Option Int × K)) (i : Int) (l : List (K × K)) (p v : K) :
      scores.get i col = .ok p → CostOf c p col v →
      Charged c scores obs (i + 1) l → Charged c scores ((some col, w) :: obs) i ((v, w) :: l)

/-- A usable table: the check accepted it, and its last threshold covers all probabilities. -/
structure Usable (c : Mat K) (numChoices : Int) : Prop where
  wf : c.Wf
  rows : 0 < c.rows
  cols : c.cols = numChoices + 1

theorem chargeAll_spec (p : K) (col : Int) (h0 : 0 ≤ col) (nc : Int) (h1 : col < nc) (weight : K) :
    ∀ (cs : List (Mat K)) (ss : List (K × K)), cs.length = ss.length → (∀ c ∈ cs, Usable c nc ∧ Covers c p) →
    ∃ out, chargeAll p col weight cs ss = .ok out ∧ out.length = ss.length ∧
      ∀ (j : Nat) c s, cs[j]? = some c → ss[j]? = some s →
        ∃ v, CostOf c p col v ∧ out[j]? = some (s.1 + v * weight, s.2 + weight) := by
  intro cs
  induction cs with
  | nil =>
    intro ss hl _
    cases ss with
    | nil => exact ⟨[], rfl, rfl, by simp⟩
    | cons s ss => simp at hl
  | cons c cs ih =>
    intro ss hl hu
    cases ss with
    | nil => simp at hl
    | cons s ss =>
      obtain ⟨hc, hcov⟩ := hu c (by simp)
      obtain ⟨v, hv, e⟩ := charge_spec c hc.wf hc.rows p hcov col h0 (by rw [hc.cols]; omega) weight s
      obtain ⟨out, eo, el, ev⟩ := ih ss (by simpa using hl) (fun x hx => hu x (List.mem_cons_of_mem _ hx))
      refine ⟨_ :: out, by rw [chargeAll, e, Outcome.ok_bind, eo, Outcome.ok_bind]; rfl, by simp [el], ?_⟩
      intro j c' s' hc' hs'
      cases j with
      | zero => simp at hc' hs'; subst hc'; subst hs'; exact ⟨v, hv, rfl⟩
      | succ j => exact ev j c' s' (by simpa using hc') (by simpa using hs')

/-- The observations are consistent with the score matrix and the tables. -/
def ObsOk (costs : List (Mat K)) (scores : Mat K) (nc : Int) : List (Option Int × K) → Int → Prop
  | [], _ => True
  | (none, _) :: obs, i => ObsOk costs scores nc obs (i + 1)
  | (some col, _) :: obs, i =>
    0 ≤ col ∧ col < nc ∧ (∃ p, scores.get i col = .ok p ∧ ∀ c ∈ costs, Covers c p) ∧ ObsOk costs scores nc obs (i + 1)

theorem get_ok_get0 {m : Mat K} {i j : Int} {p : K} (h : m.get i j = .ok p) : m.get0 i j = .ok p := by
  unfold Mat.get at h
  split_ifs at h
  exact h

theorem obsLoop_spec (costs : List (Mat K)) (scores : Mat K) (nc : Int) (hu : ∀ c ∈ costs, Usable c nc) :
    ∀ (obs : List (Option Int × K)) (i : Int) (st : List (K × K)), costs.length = st.length →
    ObsOk costs scores nc obs i →
    ∃ out, obsLoop costs scores obs i st = .ok out ∧ out.length = st.length ∧
      ∀ (j : Nat) c s, costs[j]? = some c → st[j]? = some s →
        ∃ l, Charged c scores obs i l ∧
          out[j]? = some (s.1 + (l.map (fun x => x.1 * x.2)).sum, s.2 + (l.map (fun x => x.2)).sum) := by
  intro obs
  induction obs with
  | nil =>
    intro i st hl _
    refine ⟨st, rfl, rfl, ?_⟩
    intro j c s _ hs
    exact ⟨[], Charged.nil i, by simp [hs]⟩
  | cons o obs ih =>
    intro i st hl hok
    obtain ⟨lab, weight⟩ := o
    cases lab with
    | none =>
      obtain ⟨out, e, el, ev⟩ := ih (i + 1) st hl hok
      refine ⟨out, e, el, ?_⟩
      intro j c s hc hs
      obtain ⟨l, hl', ho⟩ := ev j c s hc hs
      exact ⟨l, Charged.skip weight obs i l hl', ho⟩
    | some col =>
      obtain ⟨h0, h1, ⟨p, hp, hcov⟩, hrest⟩ := hok
      obtain ⟨st', e1, el1, ev1⟩ := chargeAll_spec p col h0 nc h1 weight costs st hl (fun c hc => ⟨hu c hc, hcov c hc⟩)
      obtain ⟨out, e, el, ev⟩ := ih (i + 1) st' (by rw [hl, el1]) hrest
      refine ⟨out, ?_, by rw [el, el1], ?_⟩
      · rw [obsLoop, get_ok_get0 hp, Outcome.ok_bind, e1, Outcome.ok_bind, e]
      · intro j c s hc hs
        obtain ⟨v, hv, hst'⟩ := ev1 j c s hc hs
        obtain ⟨l, hl', ho⟩ := ev j c _ hc hst'
        refine ⟨(v, weight) :: l, Charged.one col weight obs i l p v hp hv hl', ?_⟩
        rw [ho]; simp only [List.map_cons, List.sum_cons]; congr 2 <;> ring

/-- **C29**: with tables whose last threshold covers the probabilities, every labelled observation is charged
the cost in the first row at or above its probability; the sums, the counts and the average ratio are those
charges; nothing outside the tables is read.  (That the last threshold covers is not enforced: see the
violations.) -/
theorem C29_charges_partial (costs : List (Mat K)) (scores : Mat K) (nc : Int) (hu : ∀ c ∈ costs, Usable c nc)
    (obs : List (Option Int × K)) (hok : ObsOk costs scores nc obs 0) :
    ∃ st avg, calculate costs obs scores = .ok (st, avg) ∧ st.length = costs.length ∧
      avg = (st.map (fun s => s.1 / s.2)).sum / (costs.length : K) ∧
      ∀ (j : Nat) c, costs[j]? = some c → ∃ l, Charged c scores obs 0 l ∧
        st[j]? = some ((l.map (fun x => x.1 * x.2)).sum, (l.map (fun x => x.2)).sum) := by
  obtain ⟨out, e, el, ev⟩ := obsLoop_spec costs scores nc hu obs 0 (costs.map (fun _ => (0, 0))) (by simp) hok
  refine ⟨out, _, by unfold calculate; rw [e, Outcome.ok_bind]; rfl, by simpa using el, rfl, ?_⟩
  intro j c hc
  obtain ⟨l, hl, ho⟩ := ev j c (0, 0) hc (by rw [List.getElem?_map, hc]; rfl)
  exact ⟨l, hl, by rw [ho]; simp⟩

theorem charged_bounds (c scores : Mat K) (lo hi : K) (obs : List (Option Int × K)) (i : Int) (l : List (K × K))
    (h : Charged c scores obs i l) (hb : ∀ p col v, CostOf c p col v → lo ≤ v ∧ v ≤ hi)
    (hw : ∀ o ∈ obs, 0 < o.2) :
    lo * (l.map (fun x => x.2)).sum ≤ (l.map (fun x => x.1 * x.2)).sum ∧
    (l.map (fun x => x.1 * x.2)).sum ≤ hi * (l.map (fun x => x.2)).sum ∧
    0 ≤ (l.map (fun x => x.2)).sum ∧ (l ≠ [] → 0 < (l.map (fun x => x.2)).sum) ∧
    ((∃ o ∈ obs, o.1.isSome) → l ≠ []) := by
  induction h with
  | nil i => simp
  | skip w obs i l _ ih =>
    obtain ⟨a, b, c, d, e⟩ := ih (fun o ho => hw o (List.mem_cons_of_mem _ ho))
    refine ⟨a, b, c, d, ?_⟩
    rintro ⟨o, ho, hs⟩
    rcases List.mem_cons.1 ho with rfl | ho
    · simp at hs
    · exact e ⟨o, ho, hs⟩
  | one col w obs i l p v hp hv _ ih =>
    obtain ⟨a, b, c, d, e⟩ := ih (fun o ho => hw o (List.mem_cons_of_mem _ ho))
    have hw' := hw (some col, w) (by simp)
    simp only at hw'
    obtain ⟨h1, h2⟩ := hb p col v hv
    simp only [List.map_cons, List.sum_cons]
    have m1 := mul_le_mul_of_nonneg_right h1 hw'.le
    have m2 := mul_le_mul_of_nonneg_right h2 hw'.le
    refine ⟨by rw [mul_add]; exact add_le_add m1 a, by rw [mul_add]; exact add_le_add m2 b,
      add_nonneg hw'.le c, fun _ => add_pos_of_pos_of_nonneg hw' c, by simp⟩

/-- The reported average lies between the smallest and the largest cost of the tables, when weights are
positive and at least one observation has a label. -/
theorem C29_average_range_partial (costs : List (Mat K)) (scores : Mat K) (nc : Int) (hu : ∀ c ∈ costs, Usable c nc)
    (obs : List (Option Int × K)) (hok : ObsOk costs scores nc obs 0) (hne : costs ≠ [])
    (hw : ∀ o ∈ obs, 0 < o.2) (hlab : ∃ o ∈ obs, o.1.isSome) (lo hi : K)
    (hb : ∀ c ∈ costs, ∀ i j v, 1 ≤ j → c.get i j = .ok v → lo ≤ v ∧ v ≤ hi) :
    ∃ st avg, calculate costs obs scores = .ok (st, avg) ∧ lo ≤ avg ∧ avg ≤ hi := by
  obtain ⟨st, avg, e, el, ea, ev⟩ := C29_charges_partial costs scores nc hu obs hok
  have hcol : ∀ (obs : List (Option Int × K)) i, ObsOk costs scores nc obs i → ∀ c l, Charged c scores obs i l →
      (∀ i j v, 1 ≤ j → c.get i j = .ok v → lo ≤ v ∧ v ≤ hi) → ∀ x ∈ l, lo ≤ x.1 ∧ x.1 ≤ hi := by
    intro obs i hok c l h
    induction h with
    | nil i => intro _ x hx; simp at hx
    | skip w obs i l _ ih => intro hb x hx; exact ih hok hb x hx
    | one col w obs i l p v hp hv _ ih =>
      intro hb x hx
      obtain ⟨h0, h1, -, hrest⟩ := hok
      rcases List.mem_cons.1 hx with rfl | hx
      · obtain ⟨r, -, hr⟩ := hv
        exact hb r (col + 1) v (by omega) hr
      · exact ih hrest hb x hx
  have hsum : ∀ (l : List (K × K)), (∀ x ∈ l, lo ≤ x.1 ∧ x.1 ≤ hi) → (∀ x ∈ l, 0 < x.2) →
      lo * (l.map (fun x => x.2)).sum ≤ (l.map (fun x => x.1 * x.2)).sum ∧
      (l.map (fun x => x.1 * x.2)).sum ≤ hi * (l.map (fun x => x.2)).sum ∧ 0 ≤ (l.map (fun x => x.2)).sum ∧
      (l ≠ [] → 0 < (l.map (fun x => x.2)).sum) := by
    intro l
    induction l with
    | nil => intro _ _; simp
    | cons x l ih =>
      intro h1 h2
      obtain ⟨a, b, c, d⟩ := ih (fun y hy => h1 y (List.mem_cons_of_mem _ hy)) (fun y hy => h2 y (List.mem_cons_of_mem _ hy))
      have hx := h1 x (by simp); have hxw := h2 x (by simp)
      simp only [List.map_cons, List.sum_cons]
      have m1 := mul_le_mul_of_nonneg_right hx.1 hxw.le
      have m2 := mul_le_mul_of_nonneg_right hx.2 hxw.le
      exact ⟨by rw [mul_add]; exact add_le_add m1 a, by rw [mul_add]; exact add_le_add m2 b,
        add_nonneg hxw.le c, fun _ => add_pos_of_pos_of_nonneg hxw c⟩
  have hwl : ∀ (obs : List (Option Int × K)) i c l, Charged c scores obs i l → (∀ o ∈ obs, 0 < o.2) →
      (∀ x ∈ l, 0 < x.2) ∧ ((∃ o ∈ obs, o.1.isSome) → l ≠ []) := by
    intro obs i c l h
    induction h with
    | nil i => intro _; simp
    | skip w obs i l _ ih =>
      intro hw
      obtain ⟨a, b⟩ := ih (fun o ho => hw o (List.mem_cons_of_mem _ ho))
      refine ⟨a, ?_⟩
      rintro ⟨o, ho, hs⟩
      rcases List.mem_cons.1 ho with rfl | ho
      · simp at hs
      · exact b ⟨o, ho, hs⟩
    | one col w obs i l p v hp hv _ ih =>
      intro hw
      obtain ⟨a, b⟩ := ih (fun o ho => hw o (List.mem_cons_of_mem _ ho))
      refine ⟨?_, by simp⟩
      intro x hx
      rcases List.mem_cons.1 hx with rfl | hx
      · exact hw (some col, w) (by simp)
      · exact a x hx
  have hratio : ∀ s ∈ st, lo ≤ s.1 / s.2 ∧ s.1 / s.2 ≤ hi := by
    intro s hs
    obtain ⟨j, hj⟩ := List.getElem?_of_mem hs
    have hjl : j < costs.length := by rw [← el]; exact lt_length_of_some hj
    have hc : costs[j]? = some costs[j] := List.getElem?_eq_getElem hjl
    obtain ⟨l, hl, ho⟩ := ev j _ hc
    rw [hj] at ho
    have hs' := Option.some.inj ho
    obtain ⟨hwp, hnn⟩ := hwl obs 0 _ l hl hw
    obtain ⟨a, b, -, d⟩ := hsum l (hcol obs 0 hok _ l hl (hb _ (List.getElem_mem hjl))) hwp
    have hpos := d (hnn hlab)
    rw [hs']
    simp only
    exact ⟨(le_div_iff₀ hpos).2 a, (div_le_iff₀ hpos).2 b⟩
  refine ⟨st, avg, e, ?_⟩
  have hlenpos : (0 : K) < (costs.length : K) := by
    have : 0 < costs.length := List.length_pos_iff.2 hne
    exact_mod_cast this
  have hs2 : ∀ (l : List (K × K)), (∀ s ∈ l, lo ≤ s.1 / s.2 ∧ s.1 / s.2 ≤ hi) →
      lo * (l.length : K) ≤ (l.map (fun s => s.1 / s.2)).sum ∧ (l.map (fun s => s.1 / s.2)).sum ≤ hi * (l.length : K) := by
    intro l
    induction l with
    | nil => intro _; simp
    | cons x l ih =>
      intro h
      obtain ⟨a, b⟩ := ih (fun y hy => h y (List.mem_cons_of_mem _ hy))
      have hx := h x (by simp)
      simp only [List.map_cons, List.sum_cons, List.length_cons]
      push_cast
      constructor
      · rw [mul_add, mul_one, add_comm]; exact add_le_add hx.1 a
      · rw [mul_add, mul_one, add_comm (hi * _)]; exact add_le_add hx.2 b
  obtain ⟨a, b⟩ := hs2 st hratio
  rw [el] at a b
  rw [ea]
  exact ⟨(le_div_iff₀ hlenpos).2 a, (div_le_iff₀ hlenpos).2 b⟩

/-- `Check` accepts exactly the tables with at least two rows, one column per class plus one, and strictly
ascending thresholds in `[0, 1]`. -/
theorem C29_check (c : Mat K) (w : c.Wf) (nc : Int) (hnc : 0 ≤ nc) :
    (check c nc = .ok () ↔ (1 < c.rows ∧ c.cols = nc + 1 ∧
      (∀ i, 0 ≤ i → i < c.rows → ∃ t, c.get i 0 = .ok t ∧ 0 ≤ t ∧ t ≤ 1) ∧
      (∀ i t t', 0 ≤ i → i + 1 < c.rows → c.get i 0 = .ok t → c.get (i + 1) 0 = .ok t' → t < t'))) ∧
    (check c nc = .ok () ∨ check c nc = .throws) := by
  have loop : ∀ (n : Nat) (i : Int) (pre : K), 0 < c.cols → 0 ≤ i → i + n = c.rows →
      (checkLoop c n i pre = .ok () ↔
        ((∀ k, i ≤ k → k < c.rows → ∃ t, c.get k 0 = .ok t ∧ 0 ≤ t ∧ t ≤ 1) ∧
         (∀ t, 0 < i → i < c.rows → c.get i 0 = .ok t → pre < t) ∧
         (∀ k t t', i ≤ k → k + 1 < c.rows → c.get k 0 = .ok t → c.get (k + 1) 0 = .ok t' → t < t'))) ∧
      (checkLoop c n i pre = .ok () ∨ checkLoop c n i pre = .throws) := by
    intro n
    induction n with
    | zero =>
      intro i pre hcols h0 hi
      refine ⟨⟨fun _ => ⟨?_, ?_, ?_⟩, fun _ => rfl⟩, Or.inl rfl⟩
      · intro k h1 h2; simp at hi; omega
      · intro t h1 h2; simp at hi; omega
      · intro k t t' h1 h2; simp at hi; omega
    | succ n ih =>
      intro i pre hcols h0 hi
      push_cast at hi
      have hin : c.InR i 0 := ⟨h0, by omega, by omega, hcols⟩
      obtain ⟨d, hd⟩ := get0_ok w hin
      have hd' : c.get i 0 = .ok d := by rw [get_eq_get0 w hin, hd]
      obtain ⟨ih1, ih2⟩ := ih (i + 1) d hcols (by omega) (by omega)
      unfold checkLoop
      rw [hd, Outcome.ok_bind]
      by_cases h1 : d < 0 ∨ d > 1
      · rw [if_pos h1]
        refine ⟨⟨by simp, ?_⟩, Or.inr rfl⟩
        rintro ⟨a, -, -⟩
        obtain ⟨t, ht, h2, h3⟩ := a i (le_refl _) (by omega)
        rw [hd'] at ht
        have : d = t := by simpa using ht
        subst this
        rcases h1 with h1 | h1
        · exact absurd h2 (not_le.2 h1)
        · exact absurd h3 (not_le.2 h1)
      · rw [if_neg h1]
        push Not at h1
        by_cases h2 : i > 0 ∧ d ≤ pre
        · rw [if_pos h2]
          refine ⟨⟨by simp, ?_⟩, Or.inr rfl⟩
          rintro ⟨-, b, -⟩
          exact absurd h2.2 (not_le.2 (b d h2.1 (by omega) hd'))
        · rw [if_neg h2]
          refine ⟨?_, ih2⟩
          rw [ih1]
          constructor
          · rintro ⟨a, b, cc⟩
            refine ⟨?_, ?_, ?_⟩
            · intro k hk1 hk2
              by_cases e : k = i
              · subst e; exact ⟨d, hd', h1.1, h1.2⟩
              · exact a k (by omega) hk2
            · intro t hi0 _ ht
              rw [hd'] at ht
              have : d = t := by simpa using ht
              subst this
              by_contra hc
              exact h2 ⟨hi0, not_lt.1 hc⟩
            · intro k t t' hk1 hk2 ht ht'
              by_cases e : k = i
              · subst e
                rw [hd'] at ht
                have : d = t := by simpa using ht
                subst this
                exact b t' (by omega) hk2 ht'
              · exact cc k t t' (by omega) hk2 ht ht'
          · rintro ⟨a, b, cc⟩
            refine ⟨fun k hk1 hk2 => a k (by omega) hk2, ?_, fun k t t' hk1 => cc k t t' (by omega)⟩
            intro t _ hlt ht
            exact cc i d t (le_refl _) hlt hd' ht
  unfold check
  by_cases h1 : c.rows ≤ 1
  · rw [if_pos h1]
    exact ⟨⟨by simp, fun h => absurd h.1 (by omega)⟩, Or.inr rfl⟩
  · rw [if_neg h1]
    by_cases h2 : c.cols ≠ nc + 1
    · rw [if_pos h2]
      exact ⟨⟨by simp, fun h => absurd h.2.1 h2⟩, Or.inr rfl⟩
    · rw [if_neg h2]
      push Not at h2
      obtain ⟨l1, l2⟩ := loop c.rows.toNat 0 0 (by omega) (le_refl _) (by omega)
      refine ⟨?_, l2⟩
      rw [l1]
      constructor
      · rintro ⟨a, -, cc⟩; exact ⟨by omega, h2, a, cc⟩
      · rintro ⟨-, -, a, cc⟩
        exact ⟨a, fun t h => absurd h (by omega), cc⟩

/-- `Check` does not require the last threshold to be 1: a table ending at 0.7 is accepted, and an observation
of the last class with probability 0.9 then reads behind the table. -/
theorem C29_violated_outside :
    check (⟨2, 3, some [3/10, 7/10, 1, 2, 3, 4]⟩ : Mat Rat) 2 = .ok () ∧
    calculate [(⟨2, 3, some [3/10, 7/10, 1, 2, 3, 4]⟩ : Mat Rat)] [(some 1, 1)] ⟨1, 2, some [1/10, 9/10]⟩ = .ub := by
  decide +kernel

/-- For another class the cost of a different class is charged. -/
theorem C29_violated_other_class :
    calculate [(⟨2, 3, some [3/10, 7/10, 1, 2, 30, 40]⟩ : Mat Rat)] [(some 0, 1)] ⟨1, 2, some [9/10, 1/10]⟩
      = .ok ([(30, 1)], 30) := by
  decide +kernel

/-- Hypotheses of the theorems are met by ordinary input. -/
example : calculate [(⟨2, 3, some [1/2, 1, 1, 2, 3, 4]⟩ : Mat Rat)] [(some 1, 1), (none, 1), (some 0, 2)]
    ⟨3, 2, some [1/10, 1/2, 8/10, 9/10, 1/2, 2/10]⟩ = .ok ([(8, 3)], 8/3) := by
  decide +kernel

end FCost
end LDT
