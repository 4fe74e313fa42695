import Verif.Lemmas.Roc
/-!
# C27, C28: area under the ROC curve
-/
namespace LDT
namespace Roc
open Arr

variable {K : Type} [Field K] [LinearOrder K] [IsStrictOrderedRing K]

/-- Positive observations (label not 0) as (score, weight). -/
def positives (obs : List (Obs K)) : List (K × K) := (obs.filter fun o => o.y ≠ 0).map fun o => (o.score, o.w)

/-- Negative observations (label 0) as (score, weight). -/
def negatives (obs : List (Obs K)) : List (K × K) := (obs.filter fun o => o.y = 0).map fun o => (o.score, o.w)

/-- The move of an observation without costs. -/
def mv (o : Obs K) : Move K := if o.y = 0 then ⟨o.score, o.w, 0⟩ else ⟨o.score, 0, o.w⟩

omit [LinearOrder K] [IsStrictOrderedRing K] in
theorem sum_filter_zero {α : Type} (l : List α) (p : α → Bool) (f : α → K) (h : ∀ a ∈ l, p a = false → f a = 0) :
    (l.map f).sum = ((l.filter p).map f).sum := by
  induction l with
  | nil => rfl
  | cons a l ih =>
    have ih := ih (fun b hb => h b (List.mem_cons_of_mem _ hb))
    by_cases hp : p a = true
    · rw [List.filter_cons_of_pos hp]; simp [ih]
    · rw [List.filter_cons_of_neg hp]; simp [ih, h a (by simp) (by simpa using hp)]

omit [IsStrictOrderedRing K] in
theorem vs_mv (obs : List (Obs K)) : vs (obs.map mv) = ((positives obs).map (·.2)).sum := by
  unfold vs positives
  rw [List.map_map, List.map_map, sum_filter_zero obs (fun o => decide (o.y ≠ 0))]
  · congr 1
    apply List.map_congr_left
    intro o ho
    have : ¬ o.y = 0 := by simpa using (List.mem_filter.1 ho).2
    simp [mv, this]
  · intro o _ h; simp at h; simp [mv, h]

omit [IsStrictOrderedRing K] in
theorem hs_mv (obs : List (Obs K)) : hs (obs.map mv) = ((negatives obs).map (·.2)).sum := by
  unfold hs negatives
  rw [List.map_map, List.map_map, sum_filter_zero obs (fun o => decide (o.y = 0))]
  · congr 1
    apply List.map_congr_left
    intro o ho
    have : o.y = 0 := by simpa using (List.mem_filter.1 ho).2
    simp [mv, this]
  · intro o _ h; simp at h; simp [mv, h]

omit [IsStrictOrderedRing K] in
theorem cross_mv (obs : List (Obs K)) : cross (obs.map mv) (obs.map mv) =
    ((positives obs).map fun p => ((negatives obs).map fun n => p.2 * n.2 * win p.1 n.1).sum).sum := by
  unfold cross positives
  rw [List.map_map, List.map_map, sum_filter_zero obs (fun o => decide (o.y ≠ 0))]
  · congr 1
    apply List.map_congr_left
    intro o ho
    have hy : ¬ o.y = 0 := by simpa using (List.mem_filter.1 ho).2
    simp only [Function.comp, List.map_map, negatives]
    rw [sum_filter_zero obs (fun o => decide (o.y = 0))]
    · congr 1
      apply List.map_congr_left
      intro n hn
      have hn' : n.y = 0 := by simpa using (List.mem_filter.1 hn).2
      simp [mv, hy, hn']
    · intro n _ h; simp at h; simp [mv, h]
  · intro o _ h
    simp at h
    simp [mv, h, Function.comp_def]

/-- Plain area: no thresholds, no tolerance, default tie handling. -/
structure Plain (o : Options K) : Prop where
  bounds : o.lower = none ∨ o.upper = none
  eps : o.epsilon = 0
  pess : o.pessimistic = false

omit [Field K] [LinearOrder K] [IsStrictOrderedRing K] in
theorem boundsOf_none (o : Options K) (h : o.lower = none ∨ o.upper = none) : boundsOf o = none := by
  unfold boundsOf
  rcases h with h | h
  · rw [h]
  · rw [h]; cases o.lower <;> rfl

/-- The sorted list starts with the smallest score. -/
theorem head_le (obs : List (Obs K)) :
    ∀ o ∈ sortObs obs, (((sortObs obs).head?.map (·.score)).getD 0) ≤ o.score := by
  have h := sortObs_sorted obs
  intro o ho
  cases hl : sortObs obs with
  | nil => simp [hl] at ho
  | cons a l =>
    rw [hl] at h ho
    rw [List.pairwise_cons] at h
    simp only [List.head?_cons, Option.map_some, Option.getD_some]
    rcases List.mem_cons.1 ho with rfl | ho
    · exact le_refl _
    · exact h.1 o ho

/-- Master equation for any moves (with or without costs). -/
theorem calculate_plain (o : Options K) (hp : Plain o) (obs : List (Obs K)) (hne : obs ≠ []) (g : Obs K → Move K)
    (hg : ∀ a ∈ obs, moveOf o.cost a = .ok (g a)) (hgs : ∀ a ∈ obs, (g a).s = a.score) :
    ∃ pts, calculate o obs = .ok (vdiv (cross (obs.map g) (obs.map g)) (hs (obs.map g) * vs (obs.map g)), pts) := by
  have hmem : ∀ a, a ∈ sortObs obs ↔ a ∈ obs := fun a => (sortObs_perm obs).mem_iff
  have hlen : ¬ obs.length = 0 := by simpa [List.length_eq_zero_iff] using hne
  have hm : (sortObs obs).mapM (moveOf o.cost) = .ok ((sortObs obs).map g) :=
    mapO_ok _ _ _ (fun a ha => hg a ((hmem a).1 ha))
  have hsrt : ((sortObs obs).map g).Pairwise fun a b => a.s ≤ b.s := by
    rw [List.pairwise_map]
    refine (sortObs_sorted obs).imp_of_mem ?_
    intro a b ha hb h
    rw [hgs a ((hmem a).1 ha), hgs b ((hmem b).1 hb)]; exact h
  have h0 : ∀ m ∈ (sortObs obs).map g, ((sortObs obs).head?.map (·.score)).getD 0 ≤ m.s := by
    intro m hm'
    obtain ⟨a, ha, rfl⟩ := List.mem_map.1 hm'
    rw [hgs a ((hmem a).1 ha)]; exact head_le obs a ha
  obtain ⟨e1, e2, e3⟩ := curve_area _ hsrt _ h0
  have hpm : ((sortObs obs).map g).Perm (obs.map g) := (sortObs_perm obs).map g
  rw [cross_perm hpm hpm] at e1
  rw [hs_perm hpm] at e2
  rw [vs_perm hpm] at e3
  unfold calculate
  rw [boundsOf_none o hp.bounds]
  simp only [Bool.false_eq_true, if_false, if_neg hlen, Option.isSome_none, Bool.or_false]
  rw [show stableSort (fun a b : Obs K => decide (a.score < b.score)) obs = sortObs obs from rfl, hm, hp.eps, hp.pess]
  simp only [Outcome.ok_bind, Outcome.pure_eq]
  generalize curve 0 false ((sortObs obs).map g) _ = c at e1 e2 e3
  unfold finish
  cases o.normalizePoints with
  | false => exact ⟨c.1, by simp only [Bool.false_eq_true, if_false, e1, e2, e3]⟩
  | true =>
    simp only [if_true]
    by_cases hz : c.2.1 = 0 ∨ c.2.2 = 0
    · rw [if_pos hz]
      refine ⟨c.1.map fun p => (p.1 / c.2.1, p.2 / c.2.2), ?_⟩
      rw [← e2, ← e3, vdiv, if_pos (mul_eq_zero.2 hz)]
    · rw [if_neg hz]
      refine ⟨c.1.map fun p => (p.1 / c.2.1, p.2 / c.2.2), ?_⟩
      rw [aucPoints_scale, e1, vdiv, if_neg (by rw [← e2, ← e3]; exact fun h => hz (mul_eq_zero.1 h)), e2, e3]

/-- **C27**: with both classes present (non-zero total weight), the area is the weighted probability that a positive
is ranked correctly against a negative, ties counting one half – normalized or not, for every data set. -/
theorem C27_auc_is_rank_probability (o : Options K) (hp : Plain o) (hc : o.cost = none) (obs : List (Obs K))
    (h1 : ((positives obs).map (·.2)).sum ≠ 0) (h2 : ((negatives obs).map (·.2)).sum ≠ 0) :
    ∃ pts, calculate o obs = .ok (some (rankProb (positives obs) (negatives obs)), pts) := by
  have hne : obs ≠ [] := by rintro rfl; simp [positives] at h1
  obtain ⟨pts, h⟩ := calculate_plain o hp obs hne mv (fun a _ => by rw [hc]; rfl)
    (fun a _ => by unfold mv; split_ifs <;> rfl)
  refine ⟨pts, ?_⟩
  rw [h, cross_mv, hs_mv, vs_mv, vdiv, if_neg (mul_ne_zero h2 h1), rankProb, mul_comm (List.sum (List.map _ (negatives obs)))]

/-- With one class absent the area is not a number. -/
theorem C27_one_class (o : Options K) (hp : Plain o) (hc : o.cost = none) (obs : List (Obs K)) (hne : obs ≠ [])
    (h : ((positives obs).map (·.2)).sum = 0 ∨ ((negatives obs).map (·.2)).sum = 0) :
    ∃ pts, calculate o obs = .ok (none, pts) := by
  obtain ⟨pts, e⟩ := calculate_plain o hp obs hne mv (fun a _ => by rw [hc]; rfl)
    (fun a _ => by unfold mv; split_ifs <;> rfl)
  refine ⟨pts, ?_⟩
  rw [e, cross_mv, hs_mv, vs_mv, vdiv, if_pos (by rcases h with h | h <;> simp [h])]

/-- Weight of an observation under a cost matrix: benefit of a true positive, cost of a false positive. -/
def costMove (c : CostMat K) (o : Obs K) : Move K :=
  if o.y = 0 then ⟨o.score, o.w * (c.d3 - c.d1 * o.x), 0⟩ else ⟨o.score, 0, o.w * (c.d0 * o.x - c.d2)⟩

/-- Positives with their benefits, negatives with their costs. -/
def costPositives (c : CostMat K) (obs : List (Obs K)) : List (Obs K) :=
  obs.map fun o => if o.y = 0 then { o with w := o.w * (c.d3 - c.d1 * o.x) }
    else { o with w := o.w * (c.d0 * o.x - c.d2) }

/-- **C27** with a cost matrix: if no benefit and no cost is negative, the area is the rank probability for the
observations re-weighted by benefit and cost; otherwise the call throws. -/
theorem C27_auc_with_costs (o : Options K) (hp : Plain o) (c : CostMat K) (hc : o.cost = some c) (obs : List (Obs K))
    (hok : ∀ a ∈ obs, 0 ≤ c.d0 * a.x - c.d2 ∧ 0 ≤ c.d3 - c.d1 * a.x)
    (h1 : ((positives (costPositives c obs)).map (·.2)).sum ≠ 0)
    (h2 : ((negatives (costPositives c obs)).map (·.2)).sum ≠ 0) :
    ∃ pts, calculate o obs =
      .ok (some (rankProb (positives (costPositives c obs)) (negatives (costPositives c obs))), pts) := by
  have hne : obs ≠ [] := by rintro rfl; simp [positives, costPositives] at h1
  obtain ⟨pts, h⟩ := calculate_plain o hp obs hne (costMove c) (fun a ha => by
      have h := hok a ha
      rw [hc]
      have e : -(c.d1 * a.x - c.d3) = c.d3 - c.d1 * a.x := by ring
      simp only [moveOf, if_neg (not_lt.2 h.1), e, if_neg (not_lt.2 h.2)]
      rfl)
    (fun a _ => by unfold costMove; split_ifs <;> rfl)
  have e : obs.map (costMove c) = (costPositives c obs).map mv := by
    unfold costPositives
    rw [List.map_map]
    apply List.map_congr_left
    intro a _
    by_cases hy : a.y = 0 <;> simp [costMove, mv, hy]
  refine ⟨pts, ?_⟩
  rw [h, e, cross_mv, hs_mv, vs_mv, vdiv, if_neg (mul_ne_zero h2 h1), rankProb,
    mul_comm (List.sum (List.map _ (negatives _)))]


/-! ## C28 -/

theorem mapO_throws {α β : Type} (f : α → Outcome β) (l : List α) (h : ∃ a ∈ l, f a = .throws)
    (hall : ∀ a ∈ l, f a = .throws ∨ ∃ b, f a = .ok b) : l.mapM f = .throws := by
  rw [← List.mapM'_eq_mapM]
  induction l with
  | nil => simp at h
  | cons a l ih =>
    rw [List.mapM'_cons]
    rcases hall a (by simp) with ha | ⟨b, ha⟩
    · rw [ha]; rfl
    · rw [ha]
      obtain ⟨c, hc, hc'⟩ := h
      rcases List.mem_cons.1 hc with rfl | hc
      · rw [ha] at hc'; cases hc'
      · rw [ih ⟨c, hc, hc'⟩ (fun d hd => hall d (List.mem_cons_of_mem _ hd))]; rfl

/-- The move when there is one. -/
def anyMove (cost : Option (CostMat K)) (o : Obs K) : Move K :=
  match cost with
  | none => mv o
  | some c => costMove c o

omit [IsStrictOrderedRing K] in
theorem moveOf_cases (cost : Option (CostMat K)) (o : Obs K) :
    moveOf cost o = .throws ∨ moveOf cost o = .ok (anyMove cost o) := by
  cases cost with
  | none => right; rfl
  | some c =>
    have e : -(c.d1 * o.x - c.d3) = c.d3 - c.d1 * o.x := by ring
    simp only [moveOf, anyMove, costMove, e]
    split_ifs <;> simp

omit [IsStrictOrderedRing K] in
theorem anyMove_s (cost : Option (CostMat K)) (o : Obs K) : (anyMove cost o).s = o.score := by
  cases cost <;> simp only [anyMove, mv, costMove] <;> split_ifs <;> rfl

omit [IsStrictOrderedRing K] in
/-- `Calculate` in two cases: an observation is rejected, or the curve of the sorted observations is finished. -/
theorem calculate_cases (o : Options K) (obs : List (Obs K)) :
    calculate o obs = (match boundsOf o with
      | some (lo, up) => if up < lo ∨ up > 1 ∨ lo < 0 then .throws
          else if obs = [] then .throws
          else if ∃ a ∈ obs, moveOf o.cost a = .throws then .throws
          else .ok (finish true (some (lo, up)) (curve o.epsilon o.pessimistic ((sortObs obs).map (anyMove o.cost))
            (((sortObs obs).head?.map (·.score)).getD 0)))
      | none => if obs = [] then .throws
          else if ∃ a ∈ obs, moveOf o.cost a = .throws then .throws
          else .ok (finish o.normalizePoints none (curve o.epsilon o.pessimistic
            ((sortObs obs).map (anyMove o.cost)) (((sortObs obs).head?.map (·.score)).getD 0)))) := by
  classical
  have key : obs ≠ [] → ∀ (n : Bool) (b : Option (K × K)),
      (do
        let sorted := stableSort (fun a b : Obs K => decide (a.score < b.score)) obs
        let ms ← sorted.mapM (moveOf o.cost)
        let th0 := (sorted.head?.map (·.score)).getD 0
        pure (finish n b (curve o.epsilon o.pessimistic ms th0)) : Outcome (Val K × List (K × K))) =
      if ∃ a ∈ obs, moveOf o.cost a = .throws then .throws
      else .ok (finish n b (curve o.epsilon o.pessimistic ((sortObs obs).map (anyMove o.cost))
            (((sortObs obs).head?.map (·.score)).getD 0))) := by
    intro _ n b
    have hmem : ∀ a, a ∈ sortObs obs ↔ a ∈ obs := fun a => (sortObs_perm obs).mem_iff
    show ((sortObs obs).mapM (moveOf o.cost) >>= _) = _
    split_ifs with h
    · rw [mapO_throws]
      · rfl
      · obtain ⟨a, ha, h⟩ := h; exact ⟨a, (hmem a).2 ha, h⟩
      · intro a _; rcases moveOf_cases o.cost a with h | h
        · exact Or.inl h
        · exact Or.inr ⟨_, h⟩
    · rw [mapO_ok _ (anyMove o.cost)]
      · rfl
      · intro a ha
        rcases moveOf_cases o.cost a with h' | h'
        · exact absurd ⟨a, (hmem a).1 ha, h'⟩ h
        · exact h'
  unfold calculate
  cases hb : boundsOf o with
  | none =>
    simp only [Bool.false_eq_true, if_false, List.length_eq_zero_iff, Option.isSome_none, Bool.or_false]
    by_cases hne : obs = []
    · rw [if_pos hne, if_pos hne]
    · rw [if_neg hne, if_neg hne]; exact key hne _ _
  | some lu =>
    obtain ⟨lo, up⟩ := lu
    simp only [List.length_eq_zero_iff, Option.isSome_some, Bool.or_true]
    by_cases h1 : up < lo ∨ up > 1 ∨ lo < 0
    · rw [if_pos (by simpa [or_assoc] using h1), if_pos h1]
    · rw [if_neg (by simpa [or_assoc] using h1), if_neg h1]
      by_cases hne : obs = []
      · rw [if_pos hne, if_pos hne]
      · rw [if_neg hne, if_neg hne]; exact key hne _ _

/-- **C28**: the whole result (area and points) does not depend on the order of the observations – with any
tolerance, tie handling, thresholds, weights and costs. -/
theorem C28_order_independent (o : Options K) (heps : 0 ≤ o.epsilon) (obs obs' : List (Obs K)) (hp : obs.Perm obs') :
    calculate o obs = calculate o obs' := by
  classical
  have e1 : (obs = []) = (obs' = []) := propext ⟨fun h => by subst h; exact hp.symm.eq_nil, fun h => by subst h; exact hp.eq_nil⟩
  have e2 : (∃ a ∈ obs, moveOf o.cost a = .throws) = (∃ a ∈ obs', moveOf o.cost a = .throws) :=
    propext ⟨fun ⟨a, h, h'⟩ => ⟨a, hp.mem_iff.1 h, h'⟩, fun ⟨a, h, h'⟩ => ⟨a, hp.mem_iff.2 h, h'⟩⟩
  have hpp : (sortObs obs).Perm (sortObs obs') := ((sortObs_perm obs).trans hp).trans (sortObs_perm obs').symm
  have e3 : ((sortObs obs).head?.map (·.score)).getD 0 = ((sortObs obs').head?.map (·.score)).getD 0 := by
    have l1 := head_le obs
    have l2 := head_le obs'
    cases h : sortObs obs with
    | nil => rw [h] at hpp; rw [hpp.symm.eq_nil]
    | cons a l =>
      cases h' : sortObs obs' with
      | nil => rw [h'] at hpp; rw [hpp.eq_nil] at h; cases h
      | cons b m =>
        rw [h] at l1; rw [h'] at l2
        simp only [List.head?_cons, Option.map_some, Option.getD_some] at l1 l2 ⊢
        apply le_antisymm
        · exact l1 b (by rw [← h]; exact hpp.mem_iff.2 (by rw [h']; simp))
        · exact l2 a (by rw [← h']; exact hpp.mem_iff.1 (by rw [h]; simp))
  have e4 : ∀ th, curve o.epsilon o.pessimistic ((sortObs obs).map (anyMove o.cost)) th =
      curve o.epsilon o.pessimistic ((sortObs obs').map (anyMove o.cost)) th := by
    intro th
    unfold curve
    rw [List.foldl_map, List.foldl_map, fold_perm_sorted (fun a : Obs K => a.score) _ _ _ _ _ hpp (sortObs_sorted obs)
      (sortObs_sorted obs')]
    intro st a b hab
    exact step_comm o.epsilon heps o.pessimistic st _ _ (by rw [anyMove_s, anyMove_s]; exact hab)
  rw [calculate_cases, calculate_cases]
  simp only [e1, e2, e3, e4]

omit [IsStrictOrderedRing K] [Field K] in
theorem stableSort_map {α β : Type} (lt : α → α → Bool) (lt' : β → β → Bool) (f : α → β)
    (h : ∀ a b, lt' (f a) (f b) = lt a b) (l : List α) : stableSort lt' (l.map f) = (stableSort lt l).map f := by
  have hi : ∀ a l, insStable lt' (f a) (l.map f) = (insStable lt a l).map f := by
    intro a l
    induction l with
    | nil => rfl
    | cons b l ih => simp only [List.map_cons, insStable, h]; split <;> simp [ih]
  induction l with
  | nil => rfl
  | cons a l ih => simp only [List.map_cons, stableSort, ih, hi]

/-- Observations with transformed scores. -/
def rescale (f : K → K) (obs : List (Obs K)) : List (Obs K) := obs.map fun o => { o with score := f o.score }

/-- **C28**: a strictly increasing transformation of the scores changes neither the area nor the points, for every
tie handling, thresholds, weights and costs (tolerance 0). -/
theorem C28_monotone_rescaling (o : Options K) (heps : o.epsilon = 0) (f : K → K) (hf : StrictMono f)
    (obs : List (Obs K)) : calculate o (rescale f obs) = calculate o obs := by
  classical
  have e1 : (rescale f obs = []) = (obs = []) := by simp [rescale]
  have em : ∀ a : Obs K, (moveOf o.cost { a with score := f a.score } = .throws) = (moveOf o.cost a = .throws) := by
    intro a
    cases hc : o.cost with
    | none => simp [moveOf]
    | some c =>
      simp only [moveOf]
      by_cases h1 : c.d0 * a.x - c.d2 < 0
      · simp [h1]
      · by_cases h2 : -(c.d1 * a.x - c.d3) < 0
        · simp [h1, h2]
        · simp [h1, h2]
  have e2 : (∃ a ∈ rescale f obs, moveOf o.cost a = .throws) = (∃ a ∈ obs, moveOf o.cost a = .throws) := by
    apply propext
    constructor
    · rintro ⟨b, hb, h⟩
      obtain ⟨a, ha, rfl⟩ := List.mem_map.1 hb
      exact ⟨a, ha, by rw [em a] at h; exact h⟩
    · rintro ⟨a, ha, h⟩
      exact ⟨_, List.mem_map.2 ⟨a, ha, rfl⟩, by rw [em a]; exact h⟩
  have hs : sortObs (rescale f obs) = rescale f (sortObs obs) :=
    stableSort_map _ _ _ (fun a b => by simp [hf.lt_iff_lt]) obs
  -- the loops run in parallel, only the remembered threshold differs
  have hsim : ∀ (l : List (Obs K)) (st : St K),
      (rescale f l).foldl (fun st a => step 0 o.pessimistic st (anyMove o.cost a)) { st with thPre := f st.thPre } =
        { l.foldl (fun st a => step 0 o.pessimistic st (anyMove o.cost a)) st with
          thPre := f (l.foldl (fun st a => step 0 o.pessimistic st (anyMove o.cost a)) st).thPre } := by
    intro l
    induction l with
    | nil => intro st; rfl
    | cons a l ih =>
      intro st
      simp only [rescale, List.map_cons, List.foldl_cons] at ih ⊢
      rw [← ih]
      congr 1
      have hm : anyMove o.cost { a with score := f a.score } = { anyMove o.cost a with s := f a.score } := by
        cases o.cost <;> simp only [anyMove, mv, costMove] <;> split_ifs <;> rfl
      have hs' : (anyMove o.cost a).s = a.score := anyMove_s _ _
      rw [hm]
      unfold step
      have hc : (|f a.score - f st.thPre| > 0) = (|(anyMove o.cost a).s - st.thPre| > 0) := by
        rw [hs', gt_iff_lt, gt_iff_lt, abs_pos, abs_pos, sub_ne_zero, sub_ne_zero, hf.injective.ne_iff]
      simp only [hc]
      by_cases h : |(anyMove o.cost a).s - st.thPre| > 0
      · simp only [if_pos h]
        rw [hs']
      · simp only [if_neg h]
  have e4 : obs ≠ [] → curve 0 o.pessimistic ((sortObs (rescale f obs)).map (anyMove o.cost))
        (((sortObs (rescale f obs)).head?.map (·.score)).getD 0) =
      curve 0 o.pessimistic ((sortObs obs).map (anyMove o.cost)) (((sortObs obs).head?.map (·.score)).getD 0) := by
    intro hne
    rw [hs]
    have hth : (((rescale f (sortObs obs)).head?.map (·.score)).getD 0) =
        f (((sortObs obs).head?.map (·.score)).getD 0) := by
      cases h : sortObs obs with
      | nil => exact absurd ((sortObs_perm obs).symm.trans (by rw [h])).eq_nil hne
      | cons a l => rfl
    rw [hth]
    unfold curve
    rw [List.foldl_map, List.foldl_map, hsim (sortObs obs) ⟨[(0, 0)], _, 0, 0, 0, 0⟩]
  rw [calculate_cases, calculate_cases, heps]
  simp only [e1, e2]
  by_cases hne : obs = []
  · subst hne; cases boundsOf o <;> simp
  · rw [e4 hne]

omit [IsStrictOrderedRing K] in
theorem win_anti (f : K → K) (hf : StrictAnti f) [CharZero K] (a b : K) : win (f a) (f b) = 1 - win a b := by
  unfold win
  simp only [hf.lt_iff_gt, hf.injective.eq_iff]
  rcases lt_trichotomy a b with h | h | h
  · simp [h, not_lt.2 h.le, h.ne]
  · subst h; simp; norm_num
  · simp [h, not_lt.2 h.le, h.ne']

/-- **C28**: a strictly decreasing transformation of the scores (reversing the ranking) gives one minus the area. -/
theorem C28_reversed (o : Options K) (hp : Plain o) (hc : o.cost = none) (f : K → K) (hf : StrictAnti f)
    (obs : List (Obs K)) (r : K) (pts : List (K × K)) (h : calculate o obs = .ok (some r, pts)) :
    ∃ pts', calculate o (rescale f obs) = .ok (some (1 - r), pts') := by
  by_cases hne : obs = []
  · subst hne
    rw [calculate_cases, boundsOf_none o hp.bounds] at h
    simp at h
  obtain ⟨p1, h1⟩ := calculate_plain o hp obs hne mv (fun a _ => by rw [hc]; rfl)
    (fun a _ => by unfold mv; split_ifs <;> rfl)
  obtain ⟨p2, h2⟩ := calculate_plain o hp (rescale f obs) (by simpa [rescale] using hne) mv (fun a _ => by rw [hc]; rfl)
    (fun a _ => by unfold mv; split_ifs <;> rfl)
  have em : (rescale f obs).map mv = (obs.map mv).map fun m => { m with s := f m.s } := by
    simp only [rescale, List.map_map]
    apply List.map_congr_left
    intro a _
    by_cases hy : a.y = 0 <;> simp [mv, hy]
  have ehs : hs ((rescale f obs).map mv) = hs (obs.map mv) := by rw [em]; simp [hs, Function.comp_def]
  have evs : vs ((rescale f obs).map mv) = vs (obs.map mv) := by rw [em]; simp [vs, Function.comp_def]
  have ecr : ∀ X Y : List (Move K), cross (X.map fun m => { m with s := f m.s }) (Y.map fun m => { m with s := f m.s }) =
      vs X * hs Y - cross X Y := by
    intro X Y
    induction X with
    | nil => simp [cross]
    | cons a X ih =>
      have hin : ∀ Y : List (Move K), ((Y.map fun m => ({ m with s := f m.s } : Move K)).map fun b =>
          a.v * b.h * win (f a.s) b.s).sum = a.v * hs Y - (Y.map fun b => a.v * b.h * win a.s b.s).sum := by
        intro Y
        induction Y with
        | nil => simp [hs]
        | cons b Y ih =>
          simp only [List.map_cons, List.sum_cons, hs] at ih ⊢
          rw [ih, win_anti f hf]; ring
      simp only [cross, List.map_cons, List.sum_cons, vs] at ih ⊢
      rw [ih, hin]; ring
  rw [h1] at h
  simp only [Outcome.ok.injEq, Prod.mk.injEq] at h
  rw [h2, ehs, evs]
  refine ⟨p2, ?_⟩
  have h := h.1
  unfold vdiv at h ⊢
  split_ifs at h ⊢ with hz
  simp only [Option.some.injEq] at h
  rw [em, ecr, ← h, sub_div, mul_comm (vs _) (hs _), div_self hz]

/-- Bounds on the area while scanning. -/
theorem fold_range (eps : K) (pess : Bool) (ms : List (Move K)) (st : St K) (hms : ∀ m ∈ ms, 0 ≤ m.h ∧ 0 ≤ m.v)
    (h : (scan st.points).1 = st.sumFP ∧ (scan st.points).2.1 = st.sumTP ∧ 0 ≤ (scan st.points).2.2 ∧
      (scan st.points).2.2 ≤ st.sumFP * st.sumTP ∧ 0 ≤ st.sumFP ∧ 0 ≤ st.sumTP ∧ 0 ≤ st.horiz ∧ 0 ≤ st.verti ∧
      ∃ l, st.points = (0, 0) :: l) :
    let st' := ms.foldl (step eps pess) st
    (scan st'.points).1 = st'.sumFP ∧ (scan st'.points).2.1 = st'.sumTP ∧ 0 ≤ (scan st'.points).2.2 ∧
      (scan st'.points).2.2 ≤ st'.sumFP * st'.sumTP ∧ 0 ≤ st'.sumFP ∧ 0 ≤ st'.sumTP ∧ 0 ≤ st'.horiz ∧
      0 ≤ st'.verti ∧ ∃ l, st'.points = (0, 0) :: l := by
  induction ms generalizing st with
  | nil => exact h
  | cons m ms ih =>
    simp only [List.foldl_cons]
    apply ih _ (fun m' hm' => hms m' (List.mem_cons_of_mem _ hm'))
    obtain ⟨hm1, hm2⟩ := hms m (by simp)
    obtain ⟨a1, a2, a3, a4, a5, a6, a7, a8, l, a9⟩ := h
    unfold step
    by_cases hc : |m.s - st.thPre| > eps
    · simp only [if_pos hc]
      have hb1 : 0 ≤ st.horiz * st.sumTP := mul_nonneg a7 a6
      have hb2 : 0 ≤ st.horiz * st.verti := mul_nonneg a7 a8
      have hb3 : 0 ≤ st.sumFP * st.verti := mul_nonneg a5 a8
      cases pess with
      | true =>
        simp only [if_true]
        rw [scan_append, scan_append]
        simp only [aucStep, a1, a2]
        refine ⟨trivial, trivial, ?_, ?_, by linarith, by linarith, by linarith, by linarith,
          ⟨l ++ [(st.sumFP + st.horiz, 0)] ++ [(st.sumFP + st.horiz, st.sumTP + st.verti)], by simp [a9]⟩⟩
        · nlinarith
        · nlinarith
      | false =>
        simp only [Bool.false_eq_true, if_false]
        rw [scan_append]
        simp only [aucStep, a1, a2]
        refine ⟨trivial, trivial, ?_, ?_, by linarith, by linarith, by linarith, by linarith,
          ⟨l ++ [(st.sumFP + st.horiz, st.sumTP + st.verti)], by simp [a9]⟩⟩
        · nlinarith
        · nlinarith
    · simp only [if_neg hc]
      exact ⟨a1, a2, a3, a4, a5, a6, by linarith, by linarith, l, a9⟩

/-- The unnormalized area lies between 0 and the area of the whole rectangle. -/
theorem curve_range (eps : K) (pess : Bool) (ms : List (Move K)) (th0 : K) (hms : ∀ m ∈ ms, 0 ≤ m.h ∧ 0 ≤ m.v) :
    0 ≤ aucPoints (curve eps pess ms th0).1 0 ∧
      aucPoints (curve eps pess ms th0).1 0 ≤ (curve eps pess ms th0).2.1 * (curve eps pess ms th0).2.2 ∧
      0 ≤ (curve eps pess ms th0).2.1 ∧ 0 ≤ (curve eps pess ms th0).2.2 := by
  have h := fold_range eps pess ms (⟨[(0, 0)], th0, 0, 0, 0, 0⟩ : St K) hms
    ⟨by simp [scan, aucStep], by simp [scan, aucStep], by simp [scan, aucStep], by simp [scan, aucStep], le_refl _,
      le_refl _, le_refl _, le_refl _, [], rfl⟩
  unfold curve
  generalize List.foldl (step eps pess) ⟨[(0, 0)], th0, 0, 0, 0, 0⟩ ms = st at h ⊢
  obtain ⟨a1, a2, a3, a4, a5, a6, a7, a8, l, a9⟩ := h
  simp only
  have e : aucPoints (st.points ++ [(st.sumFP + st.horiz, st.sumTP + st.verti)]) 0 =
      (scan st.points).2.2 + st.horiz * (st.sumTP + st.verti / 2) := by
    rw [a9, List.cons_append, aucPoints_origin, ← List.cons_append, ← a9, scan_append]
    simp only [aucStep, a1, a2]; ring
  rw [e]
  have hb1 : 0 ≤ st.horiz * st.sumTP := mul_nonneg a7 a6
  have hb2 : 0 ≤ st.horiz * st.verti := mul_nonneg a7 a8
  have hb3 : 0 ≤ st.sumFP * st.verti := mul_nonneg a5 a8
  exact ⟨by nlinarith, by nlinarith, by linarith, by linarith⟩

theorem anyMove_nonneg (cost : Option (CostMat K)) (a : Obs K) (hw : 0 ≤ a.w) (h : moveOf cost a ≠ .throws) :
    0 ≤ (anyMove cost a).h ∧ 0 ≤ (anyMove cost a).v := by
  cases cost with
  | none => simp only [anyMove, mv]; split_ifs <;> simp [hw]
  | some c =>
    simp only [moveOf] at h
    split_ifs at h with h1 h2
    · exact absurd rfl h
    · exact absurd rfl h
    all_goals
      simp only [anyMove, costMove]
      split_ifs
      first
        | exact ⟨mul_nonneg hw (by linarith), le_refl _⟩
        | exact ⟨le_refl _, mul_nonneg hw (by linarith)⟩

/-- **C28**: for non-negative weights the area, whenever it is a number, is between 0 and 1 – for every tolerance,
tie handling, weights and costs. -/
theorem C28_range (o : Options K) (hb : o.lower = none ∨ o.upper = none) (obs : List (Obs K))
    (hw : ∀ a ∈ obs, 0 ≤ a.w) (r : K) (pts : List (K × K)) (h : calculate o obs = .ok (some r, pts)) :
    0 ≤ r ∧ r ≤ 1 := by
  classical
  rw [calculate_cases, boundsOf_none o hb] at h
  simp only at h
  split_ifs at h with h1 h2
  have hms : ∀ m ∈ (sortObs obs).map (anyMove o.cost), 0 ≤ m.h ∧ 0 ≤ m.v := by
    intro m hm
    obtain ⟨a, ha, rfl⟩ := List.mem_map.1 hm
    have ha' := (sortObs_perm obs).mem_iff.1 ha
    exact anyMove_nonneg o.cost a (hw a ha') (fun h => h2 ⟨a, ha', h⟩)
  obtain ⟨r1, r2, r3, r4⟩ := curve_range o.epsilon o.pessimistic _
    (((sortObs obs).head?.map (·.score)).getD 0) hms
  generalize curve o.epsilon o.pessimistic _ _ = c at h r1 r2 r3 r4
  have key : c.2.1 * c.2.2 ≠ 0 → 0 ≤ aucPoints c.1 0 / (c.2.1 * c.2.2) ∧ aucPoints c.1 0 / (c.2.1 * c.2.2) ≤ 1 := by
    intro hz
    have hpos : 0 < c.2.1 * c.2.2 := lt_of_le_of_ne (mul_nonneg r3 r4) (Ne.symm hz)
    exact ⟨div_nonneg r1 hpos.le, by rw [div_le_one hpos]; exact r2⟩
  simp only [Outcome.ok.injEq] at h
  unfold finish at h
  cases hn : o.normalizePoints with
  | true =>
    rw [hn] at h
    simp only [if_true] at h
    split_ifs at h with hz
    · exact absurd (Prod.mk.inj h).1 (by simp)
    have h3 := Option.some.inj (Prod.mk.inj h).1
    rw [← h3, aucPoints_scale]
    exact key (fun hz' => hz (mul_eq_zero.1 hz'))
  | false =>
    rw [hn] at h
    simp only [Bool.false_eq_true, if_false, vdiv] at h
    split_ifs at h with hz
    · exact absurd (Prod.mk.inj h).1 (by simp)
    have h3 := Option.some.inj (Prod.mk.inj h).1
    rw [← h3]
    exact key hz

/-- Hypotheses met: two positives, two negatives, one tie; the area is 5/8. -/
example : calculate (K := Rat) { epsilon := 0 } [⟨1, 1/4, 1, 1⟩, ⟨0, 1/2, 1, 1⟩, ⟨1, 1/2, 1, 1⟩, ⟨0, 1/4, 1, 1⟩] =
    .ok (some (1/2), [(0, 0), (1/2, 1/2), (1, 1)]) := by decide +kernel

example : (calculate (K := Rat) { epsilon := 0 } [⟨1, 1/4, 2, 1⟩, ⟨0, 1/2, 1, 1⟩, ⟨1, 1/2, 1, 1⟩, ⟨0, 3/4, 1, 1⟩]) =
    .ok (some (11/12), [(0, 0), (0, 2/3), (1/2, 1), (1, 1)]) := by decide +kernel

end Roc
end LDT
