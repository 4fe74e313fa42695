import Verif.Model.RStat
import Verif.Props.Roc
import Verif.Props.RocPartial
/-!
# C146: ROC called from R
-/
namespace LDT
namespace RStat
open Roc

/-- The smallest label is 0 and the largest is 1, and the lengths agree. -/
structure RocFits (a : RocArgs) : Prop where
  scores : a.scores.length = a.y.length
  weights : ∀ w, a.weights = some w → w.length = a.y.length
  zero : (0 : ℝ) ∈ a.y
  one : (1 : ℝ) ∈ a.y
  range : ∀ v ∈ a.y, 0 ≤ v ∧ v ≤ 1

theorem foldl_min (l : List ℝ) (v : ℝ) : l.foldl min v ∈ v :: l ∧ ∀ x ∈ v :: l, l.foldl min v ≤ x := by
  induction l generalizing v with
  | nil => simp
  | cons u l ih =>
    obtain ⟨h1, h2⟩ := ih (min v u)
    simp only [List.foldl_cons, List.mem_cons, forall_eq_or_imp] at h1 h2 ⊢
    refine ⟨?_, h2.1.trans (min_le_left _ _), h2.1.trans (min_le_right _ _), h2.2⟩
    rcases h1 with h1 | h1
    · rw [h1]
      rcases min_choice v u with e | e <;> simp [e]
    · exact .inr (.inr h1)

theorem foldl_max (l : List ℝ) (v : ℝ) : l.foldl max v ∈ v :: l ∧ ∀ x ∈ v :: l, x ≤ l.foldl max v := by
  induction l generalizing v with
  | nil => simp
  | cons u l ih =>
    obtain ⟨h1, h2⟩ := ih (max v u)
    simp only [List.foldl_cons, List.mem_cons, forall_eq_or_imp] at h1 h2 ⊢
    refine ⟨?_, (le_max_left _ _).trans h2.1, (le_max_right _ _).trans h2.1, h2.2⟩
    rcases h1 with h1 | h1
    · rw [h1]
      rcases max_choice v u with e | e <;> simp [e]
    · exact .inr (.inr h1)

theorem checkRoc_iff (a : RocArgs) (hne : a.y ≠ []) :
    (checkRoc a = .ok ⟨⟩ ↔ RocFits a) ∧ (¬ RocFits a → checkRoc a = .throws) := by
  have key : checkRoc a = .ok ⟨⟩ ∧ RocFits a ∨ checkRoc a = .throws ∧ ¬ RocFits a := by
    unfold checkRoc
    split
    · rename_i h
      exact .inr ⟨rfl, fun f => h f.scores.symm⟩
    · rename_i h
      split
      · rename_i h'
        refine .inr ⟨rfl, fun f => ?_⟩
        cases e : a.weights with
        | none => rw [e] at h'; cases h'
        | some w =>
          rw [e] at h'
          exact (of_decide_eq_true h') (f.weights w e).symm
      · rename_i h'
        cases ey : a.y with
        | nil => exact absurd ey hne
        | cons v vs =>
          simp only
          obtain ⟨m1, m2⟩ := foldl_min vs v
          obtain ⟨x1, x2⟩ := foldl_max vs v
          split
          · rename_i hc
            refine .inr ⟨rfl, fun f => ?_⟩
            rcases hc with hc | hc
            · apply hc
              apply le_antisymm
              · exact m2 0 (ey ▸ f.zero)
              · exact (f.range _ (ey ▸ m1)).1
            · apply hc
              apply le_antisymm
              · exact (f.range _ (ey ▸ x1)).2
              · exact x2 1 (ey ▸ f.one)
          · rename_i hc
            rw [not_or, not_not, not_not] at hc
            rw [hc.1] at m1 m2
            rw [hc.2] at x1 x2
            refine .inl ⟨rfl, (not_not.1 h).symm, fun w e => ?_, ey ▸ m1, ey ▸ x1, fun u hu => ?_⟩
            · rw [e] at h'
              by_contra hq
              exact h' (decide_eq_true (fun q => hq q.symm))
            · rw [ey] at hu
              exact ⟨m2 u hu, x2 u hu⟩
  rcases key with ⟨k1, k2⟩ | ⟨k1, k2⟩
  · exact ⟨⟨fun _ => k2, fun _ => k1⟩, fun h => absurd k2 h⟩
  · exact ⟨⟨fun h => by (rw [k1] at h; cases h), fun h => absurd h k2⟩, fun _ => k1⟩

/-- **C146**. Arguments of different lengths, a smallest label that is not 0, or a largest that is not 1, are refused, whatever the
options. -/
theorem C146_refused (a : RocArgs) (hne : a.y ≠ []) (h : ¬ RocFits a) : getRoc a = .throws := by
  unfold getRoc
  rw [(checkRoc_iff a hne).2 h]
  rfl

theorem getRoc_plain (a : RocArgs) (h : RocFits a) (hc : a.costs = none) :
    getRoc a = (Roc.calculate (rocOptions a none) (obsOf a none) >>= fun r => pure (a.y.length, r.1, r.2)) := by
  have hne : a.y ≠ [] := by
    intro e
    have := h.zero
    rw [e] at this
    cases this
  unfold getRoc
  rw [(checkRoc_iff a hne).1.2 h, hc]
  rfl

/-- **C146**. With 0/1 labels and no costs, thresholds or tolerance, the area is the weighted share of the pairs of a positive and
a negative observation in which the positive one has the smaller score, ties counted one half; here for positive weights or none. -/
theorem C146_area (a : RocArgs) (h : RocFits a) (hc : a.costs = none) (ht : a.lower = none ∨ a.upper = none)
    (he : a.epsilon = 0) (hp : ∀ w, a.weights = some w → ∀ x ∈ w, 0 < x) :
    ∃ pts, getRoc a = .ok (a.y.length, some (rankProb (positives (obsOf a none)) (negatives (obsOf a none))), pts) := by
  have wpos : ∀ o ∈ obsOf a none, 0 < o.w := by
    intro o ho
    obtain ⟨i, hi, rfl⟩ := List.mem_map.1 ho
    rw [List.mem_range] at hi
    cases e : a.weights with
    | none => simp
    | some w =>
      have hl := h.weights w e
      simp only [Option.map_some, Option.getD_some]
      rw [List.getD_eq_getElem?_getD, List.getElem?_eq_getElem (show i < w.length by omega)]
      exact hp w e _ (List.getElem_mem _)
  have sumpos : ∀ l : List (ℝ × ℝ), l ≠ [] → (∀ p ∈ l, 0 < p.2) → (l.map (·.2)).sum ≠ 0 := by
    intro l hl hw
    refine ne_of_gt ?_
    cases l with
    | nil => exact absurd rfl hl
    | cons p l =>
      rw [List.map_cons, List.sum_cons]
      have : 0 ≤ (l.map (·.2)).sum := List.sum_nonneg (by
        intro x hx
        obtain ⟨q, hq, rfl⟩ := List.mem_map.1 hx
        exact (hw q (List.mem_cons_of_mem _ hq)).le)
      have := hw p List.mem_cons_self
      linarith
  have mem : ∀ v ∈ a.y, ∃ o ∈ obsOf a none, o.y = v := by
    intro v hv
    obtain ⟨i, hi, rfl⟩ := List.mem_iff_getElem.1 hv
    refine ⟨_, List.mem_map.2 ⟨i, List.mem_range.2 hi, rfl⟩, ?_⟩
    show a.y.getD i 0 = _
    rw [List.getD_eq_getElem?_getD, List.getElem?_eq_getElem hi]
    rfl
  have hpl : Plain (rocOptions a none) := ⟨ht, he, rfl⟩
  obtain ⟨o1, ho1, e1⟩ := mem 1 h.one
  obtain ⟨o0, ho0, e0⟩ := mem 0 h.zero
  obtain ⟨pts, e⟩ := C27_auc_is_rank_probability (rocOptions a none) hpl rfl (obsOf a none)
    (sumpos _ (List.ne_nil_of_mem (List.mem_map.2 ⟨o1, List.mem_filter.2 ⟨ho1, by simp [e1]⟩, rfl⟩)) (by
      intro p hp
      obtain ⟨o, ho, rfl⟩ := List.mem_map.1 hp
      exact wpos o (List.mem_filter.1 ho).1))
    (sumpos _ (List.ne_nil_of_mem (List.mem_map.2 ⟨o0, List.mem_filter.2 ⟨ho0, by simp [e0]⟩, rfl⟩)) (by
      intro p hp
      obtain ⟨o, ho, rfl⟩ := List.mem_map.1 hp
      exact wpos o (List.mem_filter.1 ho).1))
  refine ⟨pts, ?_⟩
  rw [getRoc_plain a h hc, e]
  rfl

/-- **C146**. Observation `i` is made of the `i`-th label, score and weight. -/
theorem C146_observations (a : RocArgs) (h : RocFits a) (i : Nat) (y s w : ℝ) (hy : a.y[i]? = some y) (hs : a.scores[i]? = some s)
    (hw : (a.weights = none ∧ w = 1) ∨ ∃ l, a.weights = some l ∧ l[i]? = some w) :
    (obsOf a none)[i]? = some ⟨y, s, w, 1⟩ ∧ (obsOf a none).length = a.y.length := by
  have hi : i < a.y.length := by
    rw [List.getElem?_eq_some_iff] at hy; exact hy.1
  refine ⟨?_, by simp [obsOf]⟩
  unfold obsOf
  rw [List.getElem?_map, List.getElem?_range hi]
  simp only [Option.map_some, Option.some.injEq]
  rw [List.getD_eq_getElem?_getD, List.getD_eq_getElem?_getD, hy, hs]
  rcases hw with ⟨e, rfl⟩ | ⟨l, e, hl⟩
  · rw [e]; rfl
  · rw [e]
    simp only [Option.map_some, Option.getD_some, Option.map_none, Option.getD_none]
    rw [List.getD_eq_getElem?_getD, hl]
    rfl

/-- The costs are given as doubles, one for each observation (or more), and the matrix, by columns, as four. -/
def CostsFit (n : Nat) : Option (RVec × RVec) → Option (List ℝ × CostMat ℝ) → Prop
  | none, none => True
  | some (c, m), some (l, d) => c.isDouble = true ∧ m.isDouble = true ∧ n ≤ c.data.length ∧ l = c.data ∧
      m.data = [d.d0, d.d1, d.d2, d.d3]
  | _, _ => False

/-- **C146**. In general R gets the calculation of the library for the observations made of the `i`-th label, score, weight and cost,
with the bounds, the tolerance and the costs that were given, normalized and not pessimistic. -/
theorem C146_calculation (a : RocArgs) (h : RocFits a) (cs : Option (List ℝ × CostMat ℝ)) (hc : CostsFit a.y.length a.costs cs)
    (obs : List (Obs ℝ)) (hn : obs.length = a.y.length)
    (ho : ∀ i (hi : i < obs.length), a.y[i]? = some obs[i].y ∧ a.scores[i]? = some obs[i].score ∧
      (∀ w, a.weights = some w → w[i]? = some obs[i].w) ∧ (a.weights = none → obs[i].w = 1) ∧
      (∀ c, cs = some c → c.1[i]? = some obs[i].x) ∧ (cs = none → obs[i].x = 1)) :
    getRoc a = (match Roc.calculate ⟨true, a.lower, a.upper, a.epsilon, false, cs.map (·.2)⟩ obs with
      | .ok r => .ok (a.y.length, r.1, r.2)
      | .throws => .throws
      | .ub => .ub
      | .diverges => .diverges) := by
  have hne : a.y ≠ [] := by
    intro e
    have := h.zero
    rw [e] at this
    cases this
  have e1 : costsOf a.y.length a.costs = .ok cs := by
    revert hc
    rcases a.costs with _ | ⟨c, m⟩ <;> rcases cs with _ | ⟨l, d⟩
    · intro _; rfl
    · intro h; exact h.elim
    · intro h; exact h.elim
    · rintro ⟨h1, h2, h3, rfl, h5⟩
      unfold costsOf
      simp only [h1, h2, h5]
      rw [if_neg (by simp; omega)]
  have e2 : obsOf a (cs.map (·.1)) = obs := by
    apply List.ext_getElem
    · simp [obsOf, hn]
    · intro i h1 h2
      obtain ⟨b1, b2, b3, b4, b5, b6⟩ := ho i h2
      simp only [obsOf, List.getElem_map, List.getElem_range, List.getD_eq_getElem?_getD, b1, b2, Option.getD_some]
      have w : ((a.weights.map (fun w => (w[i]?).getD 0)).getD 1) = obs[i].w := by
        cases e : a.weights with
        | none => exact (b4 e).symm
        | some w => simp [b3 w e]
      have x : (((cs.map (·.1)).map (fun c => (c[i]?).getD 0)).getD 1) = obs[i].x := by
        cases e : cs with
        | none => exact (b6 e).symm
        | some c => simp [b5 c e]
      rw [w, x]
  unfold getRoc
  rw [(checkRoc_iff a hne).1.2 h, e1]
  show (Roc.calculate (rocOptions a (cs.map (·.2))) (obsOf a (cs.map (·.1))) >>= _) = _
  rw [e2]
  show (Roc.calculate ⟨true, a.lower, a.upper, a.epsilon, false, cs.map (·.2)⟩ obs >>= _) = _
  cases Roc.calculate ⟨true, a.lower, a.upper, a.epsilon, false, cs.map (·.2)⟩ obs <;> rfl

/-- Two observations with costs. -/
example : CostsFit 2 (some (⟨true, [1, 2]⟩, ⟨true, [5, 1, 0, 4]⟩)) (some ([1, 2], ⟨5, 1, 0, 4⟩)) :=
  ⟨rfl, rfl, by simp, rfl, rfl⟩

/-- **C146**, violated: costs for fewer observations than there are, a cost matrix with fewer than four cells, and costs given as
integers are not refused; memory is read that is not theirs. -/
theorem C146_violated_costs (a : RocArgs) (h : RocFits a) (c m : RVec) (hc : a.costs = some (c, m))
    (hbad : c.data.length < a.y.length ∨ m.data.length < 4 ∨ c.isDouble = false ∨ m.isDouble = false) : getRoc a = .ub := by
  have hne : a.y ≠ [] := by
    intro e
    have := h.zero
    rw [e] at this
    cases this
  have e : costsOf a.y.length (some (c, m)) = .ub := by
    unfold costsOf
    simp only
    split
    · rfl
    · rename_i hn
      simp only [not_or, not_lt] at hn
      have hm : m.data.length < 4 := by
        rcases hbad with h | h | h | h
        · omega
        · exact h
        · exact absurd h hn.1
        · exact absurd h hn.2.1
      match m.data, hm with
      | [], _ => rfl
      | [_], _ => rfl
      | [_, _], _ => rfl
      | [_, _, _], _ => rfl
  unfold getRoc
  rw [(checkRoc_iff a hne).1.2 h, hc]
  show (costsOf a.y.length (some (c, m)) >>= _) = _
  rw [e]
  rfl

/-- **C146**, violated: only the smallest and the largest label are checked: a label between them is accepted and counted as a
positive observation. -/
theorem C146_violated_label (s0 s1 s2 : ℝ) :
    let a : RocArgs := ⟨[0, 1 / 2, 1], [s0, s1, s2], none, none, none, 0, none⟩
    RocFits a ∧ ((s1, 1) : ℝ × ℝ) ∈ positives (obsOf a none) := by
  refine ⟨⟨rfl, by simp, by simp, by simp, ?_⟩, ?_⟩
  · intro v hv
    simp only [List.mem_cons, List.not_mem_nil, or_false] at hv
    rcases hv with rfl | rfl | rfl <;> norm_num
  · refine List.mem_map.2 ⟨⟨1 / 2, s1, 1, 1⟩, List.mem_filter.2 ⟨?_, by norm_num⟩, rfl⟩
    exact List.mem_map.2 ⟨1, by simp, by simp⟩

/-- Two observations. -/
example : RocFits ⟨[0, 1], [1 / 2, 1 / 3], none, none, none, 0, none⟩ :=
  ⟨rfl, by simp, by simp, by simp, by simp⟩

end RStat
end LDT
