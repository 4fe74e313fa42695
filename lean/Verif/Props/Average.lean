import Verif.Lemmas.AverageFeed
/-!
# C118: averages over the models of a search

`rs` are the summaries of the searchers with the pushes that produced them; `collected` are the pushes into the summaries
of the requested metric, target (and coefficient).
-/
namespace LDT
namespace Srch
open Arr Di

section
variable {S : Fns} {items : Items} {pos : Int → Bool} {big tiny : ℝ} {ne nx : Nat}

/-- The summary is a new summary after the pushes; `pos` is the orientation of each metric. -/
def FedBy (S : Fns) (items : Items) (pos : Int → Bool) (big tiny : ℝ) (ne nx : Nat) (p : Summ × List (Bool × Est)) : Prop :=
  feed S items (pos p.1.i1) p.2 (newSumm items big tiny ne nx p.1.i1 p.1.i2 p.1.i3) = .ok p.1

/-- The pushes into the summaries with the given metric, target and coefficient. -/
def collected (i1 i2 i3 : Int) (rs : List (Summ × List (Bool × Est))) : List (Bool × Est) :=
  (rs.filter fun p => p.1.i1 = i1 ∧ p.1.i2 = i2 ∧ p.1.i3 = i3).flatMap (·.2)

/-- The pushes into the summaries with the given metric and target. -/
def collected2 (i1 i2 : Int) (rs : List (Summ × List (Bool × Est))) : List (Bool × Est) :=
  (rs.filter fun p => p.1.i1 = i1 ∧ p.1.i2 = i2).flatMap (·.2)

/-- Weight, mean and variance of the estimates that have a positive weight, a mean and a variance (not negative). -/
noncomputable def parts (h : List (Bool × Est)) : List Part := (estimates h).filterMap partOf

theorem parts_append (a b) : parts (a ++ b) = parts a ++ parts b := by simp [parts, estimates_append]

theorem parts_ok (h : List (Bool × Est)) : ∀ p ∈ parts h, 0 < p.w ∧ 0 ≤ p.v := by
  intro p hp
  obtain ⟨e, -, he⟩ := List.mem_filterMap.1 hp
  unfold partOf at he
  cases hm : e.mean with
  | none => rw [hm] at he; cases he
  | some m =>
    cases hv : e.variance with
    | none => rw [hm, hv] at he; cases he
    | some v =>
      rw [hm, hv] at he
      simp only [Option.bind_eq_bind, Option.bind_some] at he
      split_ifs at he with hc
      cases he
      exact hc

/-! ## The mixture -/

theorem mixture_sees (hk : items.keepMixture = true) (i1 i2 i3 : Int) : ∀ (rs : List (Summ × List (Bool × Est))),
    (∀ p ∈ rs, FedBy S items pos big tiny ne nx p) → ∀ (h : List (Bool × Est)) (r : RM ℝ),
    Sees ((parts h).flatMap three) (parts h).length r →
    Sees ((parts (h ++ collected i1 i2 i3 rs)).flatMap three) (parts (h ++ collected i1 i2 i3 rs)).length
      ((rs.map (·.1)).foldl (fun r s => if s.i1 = i1 ∧ s.i2 = i2 ∧ s.i3 = i3 then RM.combine true r s.mix else r) r) := by
  intro rs
  induction rs with
  | nil => intro _ h r hr; simpa [collected] using hr
  | cons p rs ih =>
    intro hf h r hr
    rw [List.map_cons, List.foldl_cons]
    by_cases hc : p.1.i1 = i1 ∧ p.1.i2 = i2 ∧ p.1.i3 = i3
    · rw [if_pos hc]
      have hp := feed_mix hk (hf p (by simp))
      have hr' := hr.combine hp
      have e : collected i1 i2 i3 (p :: rs) = p.2 ++ collected i1 i2 i3 rs := by
        unfold collected; rw [List.filter_cons_of_pos (by simpa using hc), List.flatMap_cons]
      rw [e, ← List.append_assoc]
      refine ih (fun q hq => hf q (by simp [hq])) (h ++ p.2) _ ?_
      rw [parts_append, List.flatMap_append, List.length_append]
      exact hr'
    · rw [if_neg hc]
      have e : collected i1 i2 i3 (p :: rs) = collected i1 i2 i3 rs := by
        unfold collected; rw [List.filter_cons_of_neg (by simpa using hc)]
      rw [e]
      exact ih (fun q hq => hf q (by simp [hq])) h r hr

/-- **C118**, the mixture: the combined accumulator holds the number of usable estimates, the sum of their weights and the mean,
variance, skewness and excess kurtosis of the mixture of normal distributions with these weights, means and variances. -/
theorem C118_mixture (hk : items.keepMixture = true) (i1 i2 i3 : Int) (rs : List (Summ × List (Bool × Est))) (hne : rs ≠ [])
    (hf : ∀ p ∈ rs, FedBy S items pos big tiny ne nx p) :
    ∃ r, combineMixture i1 i2 i3 (rs.map (·.1)) = .ok r ∧
      let ps := parts (collected i1 i2 i3 rs)
      r.count = ps.length ∧
      (ps = [] → r.getMean = none ∧ r.getVariance = none ∧ r.getSkewness = none ∧ r.getKurtosis = none) ∧
      (ps ≠ [] → r.sumW = (ps.map (·.w)).sum ∧ ∃ m v, r.getMean = some m ∧ r.getVariance = some v ∧
        m = (ps.map fun p => p.w * p.m).sum / (ps.map (·.w)).sum ∧
        v = (ps.map fun p => p.w * (p.v + (p.m - m) ^ 2)).sum / (ps.map (·.w)).sum ∧
        ((∀ p ∈ ps, 0 < p.v) → ∃ sk ku, r.getSkewness = some sk ∧ r.getKurtosis = some ku ∧ 0 < v ∧
          MeanVar (IntAvg (mixed ps)) m v ∧ Skew (IntAvg (mixed ps)) m v sk ∧ Kurt (IntAvg (mixed ps)) m v ku)) := by
  have hs := mixture_sees hk i1 i2 i3 rs hf [] RM.empty sees_empty
  rw [List.nil_append] at hs
  refine ⟨_, by unfold combineMixture; rw [if_neg (by simpa using hne)], ?_⟩
  intro ps
  have hpos := parts_ok (collected i1 i2 i3 rs)
  refine ⟨by rw [hs.count], ?_, ?_⟩
  · intro h
    have := hs.none (by change ps.flatMap three = []; rw [h]; rfl)
    exact this.2
  · intro h
    have hfl := flat_ne h
    obtain ⟨a0, a1, -, -, -, -⟩ := flat_sums ps (fun p hp => (hpos p hp).2) 0
    obtain ⟨m0, m1, m2⟩ := hs.mean hfl
    refine ⟨m0.trans a0, _, _, m1, m2, ?_, ?_, ?_⟩
    · change wmean (ps.flatMap three) = _
      unfold wmean; rw [a1, a0]
    · obtain ⟨-, -, -, a3, -, -⟩ := flat_sums ps (fun p hp => (hpos p hp).2) (wmean (ps.flatMap three))
      change wcentral 2 (ps.flatMap three) / wsum (ps.flatMap three) = _
      unfold wcentral
      rw [a3, a0]
    · intro hv
      obtain ⟨m, v, sk, ku, e1, e2, e3, e4, e5, e6, e7, e8⟩ := hs.mixture h fun p hp => ⟨(hpos p hp).1, hv p hp⟩
      rw [m1] at e1; cases e1
      rw [m2] at e2; cases e2
      exact ⟨sk, ku, e3, e4, e5, e6, e7, e8⟩

/-- **C118**: how the models are divided over the searchers, and in which order they are estimated and combined, does not matter. -/
theorem C118_mixture_division (hk : items.keepMixture = true) (i1 i2 i3 : Int) (rs rs' : List (Summ × List (Bool × Est)))
    (hne : rs ≠ []) (hne' : rs' ≠ []) (hf : ∀ p ∈ rs, FedBy S items pos big tiny ne nx p)
    (hf' : ∀ p ∈ rs', FedBy S items pos big tiny ne nx p) (hp : (collected i1 i2 i3 rs).Perm (collected i1 i2 i3 rs')) :
    combineMixture i1 i2 i3 (rs.map (·.1)) = combineMixture i1 i2 i3 (rs'.map (·.1)) := by
  have hs := mixture_sees hk i1 i2 i3 rs hf [] RM.empty sees_empty
  have hs' := mixture_sees hk i1 i2 i3 rs' hf' [] RM.empty sees_empty
  rw [List.nil_append] at hs hs'
  have hq : (parts (collected i1 i2 i3 rs)).Perm (parts (collected i1 i2 i3 rs')) :=
    ((hp.filter _).map _).filterMap _
  unfold combineMixture
  rw [if_neg (by simpa using hne), if_neg (by simpa using hne')]
  congr 1
  rw [hq.length_eq] at hs
  exact hs.unique hs' (hq.flatMap_right _)

/-! ## Probabilities -/

theorem cdf_sees (i1 i2 i3 : Int) (k : Nat) (v : ℝ)
    (hv : items.cdfsAt[k]? = some v) : ∀ (rs : List (Summ × List (Bool × Est))),
    (∀ p ∈ rs, FedBy S items pos big tiny ne nx p) → (∀ e ∈ estimates (collected i1 i2 i3 rs), 0 < e.weight) →
    ∀ (h : List (Bool × Est)) (r : RM ℝ),
    Sees ((estimates h).flatMap (cdfPoint S v)) ((estimates h).flatMap (cdfPoint S v)).length r →
    ∃ r', combineCdfLoop i1 i2 i3 k (rs.map (·.1)) r = .ok r' ∧
      Sees ((estimates (h ++ collected i1 i2 i3 rs)).flatMap (cdfPoint S v))
        ((estimates (h ++ collected i1 i2 i3 rs)).flatMap (cdfPoint S v)).length r' := by
  intro rs
  induction rs with
  | nil => intro _ _ h r hr; exact ⟨r, rfl, by simpa [collected] using hr⟩
  | cons p rs ih =>
    intro hf hpos h r hr
    rw [List.map_cons]
    unfold combineCdfLoop
    by_cases hc : p.1.i1 = i1 ∧ p.1.i2 = i2 ∧ p.1.i3 = i3
    · rw [if_pos hc]
      obtain ⟨hl, hp⟩ := feed_cdfs (hf p (by simp))
      have e : collected i1 i2 i3 (p :: rs) = p.2 ++ collected i1 i2 i3 rs := by
        unfold collected; rw [List.filter_cons_of_pos (by simpa using hc), List.flatMap_cons]
      rw [e, estimates_append] at hpos
      have hk : k < p.1.cdfs.length := by
        rw [hl]; by_contra hc; rw [List.getElem?_eq_none (by omega)] at hv; cases hv
      have hget := List.getElem?_eq_getElem hk
      have ha : atI p.1.cdfs (k : Int) = some p.1.cdfs[k] := by
        unfold atI; rw [if_neg (by omega)]; simpa using hget
      rw [ha]
      have hr' := hr.combine (hp (fun e he => hpos e (by simp [he])) k v _ hv hget)
      rw [e, ← List.append_assoc]
      refine ih (fun q hq => hf q (by simp [hq])) (fun e he => hpos e (by simp [he])) (h ++ p.2) _ ?_
      rw [estimates_append, List.flatMap_append, List.length_append]
      exact hr'
    · rw [if_neg hc]
      have e : collected i1 i2 i3 (p :: rs) = collected i1 i2 i3 rs := by
        unfold collected; rw [List.filter_cons_of_neg (by simpa using hc)]
      rw [e] at hpos ⊢
      exact ih (fun q hq => hf q (by simp [hq])) hpos h r hr

/-- The number pushed for an estimate is the probability under its normal distribution. -/
theorem cdfPoint_part (hS : S.Good) (v : ℝ) (e : Est) (hw : 0 < e.weight) (h0 : e.variance ≠ some 0) :
    (partOf e = none ∧ cdfPoint S v e = []) ∨
    ∃ p c, partOf e = some p ∧ 0 < p.v ∧ p.w = e.weight ∧ cdfPoint S v e = [(c, e.weight)] ∧ IntUpTo (bell p.m p.v) v c := by
  unfold cdfPoint partOf
  cases hm : e.mean with
  | none => left; simp [cdfVal, hm]
  | some m =>
    cases hvar : e.variance with
    | none => left; simp [cdfVal, hm, hvar]
    | some x =>
      by_cases hx : 0 ≤ x
      · right
        have hx' : 0 < x := lt_of_le_of_ne hx fun h => h0 (by rw [hvar, h])
        obtain ⟨b1, b2⟩ := bell_upTo hS m x v hx'
        rw [← hm, ← hvar, normalCdfAt_ok] at b1
        have b1 : cdfVal S e v = some (1 / 2 * S.erfc ((m - v) / (Real.sqrt x * Real.sqrt 2))) := by injection b1
        refine ⟨⟨e.weight, m, x⟩, _, by simp [hw, hx], hx', rfl, ?_, b2⟩
        rw [b1]; rfl
      · left
        constructor
        · simp [hx]
        · have : sqrtV x = none := by unfold sqrtV; rw [if_pos (not_le.1 hx)]
          simp [cdfVal, hm, hvar, this]

/-- The weighted mean of the numbers pushed is the probability under the mixture. -/
theorem points_mixed (hS : S.Good) (v : ℝ) : ∀ (es : List Est), (∀ e ∈ es, 0 < e.weight ∧ e.variance ≠ some 0) →
    (es.flatMap (cdfPoint S v)).length = (es.filterMap partOf).length ∧ wsum (es.flatMap (cdfPoint S v)) = ((es.filterMap partOf).map (·.w)).sum ∧
    ∃ h : Part → ℝ, (∀ p ∈ es.filterMap partOf, IntUpTo (bell p.m p.v) v (h p)) ∧
      ((es.flatMap (cdfPoint S v)).map fun q => q.2 * q.1).sum = ((es.filterMap partOf).map fun p => p.w * h p).sum := by
  intro es
  -- the probability is a function of the part
  let f : Part → ℝ := fun p => ∫ y in Set.Iic v, bell p.m p.v y
  intro hes
  have key : (es.flatMap (cdfPoint S v)).length = (es.filterMap partOf).length ∧
      wsum (es.flatMap (cdfPoint S v)) = ((es.filterMap partOf).map (·.w)).sum ∧
      (∀ p ∈ es.filterMap partOf, IntUpTo (bell p.m p.v) v (f p)) ∧
      ((es.flatMap (cdfPoint S v)).map fun q => q.2 * q.1).sum = ((es.filterMap partOf).map fun p => p.w * f p).sum := by
    induction es with
    | nil => simp [wsum]
    | cons e es ih =>
      obtain ⟨i0, i1, i2, i3⟩ := ih fun e he => hes e (by simp [he])
      obtain ⟨hw, h0⟩ := hes e (by simp)
      rcases cdfPoint_part hS v e hw h0 with ⟨a, b⟩ | ⟨p, c, a, a1, a2, b, b1⟩
      · rw [List.flatMap_cons, b, List.nil_append, List.filterMap_cons_none a]
        exact ⟨i0, i1, i2, i3⟩
      · rw [List.flatMap_cons, b, List.filterMap_cons_some a]
        have hc : f p = c := b1.2
        refine ⟨by simp [i0], by rw [wsum_append, i1]; simp [wsum, a2], ?_, ?_⟩
        · intro q hq
          rcases List.mem_cons.1 hq with rfl | hq
          · rw [hc]; exact b1
          · exact i2 q hq
        · simp [i3, hc, a2]
  exact ⟨key.1, key.2.1, f, key.2.2⟩

/-- The probability that a mixture gives to the values up to `x` lies between zero and one. -/
theorem mixed_range {ps : List Part} (hne : ps ≠ []) (hp : ∀ p ∈ ps, 0 < p.w ∧ 0 < p.v) {x c : ℝ} (h : IntUpTo (mixed ps) x c) :
    0 ≤ c ∧ c ≤ 1 := by
  have hW : 0 < (ps.map (·.w)).sum := by
    have h0 := (flat_sums ps (fun p q => (hp p q).2.le) 0).1
    rw [← h0]
    refine wsum_pos _ (flat_ne hne) ?_
    intro q hq
    obtain ⟨p, hp', hq⟩ := List.mem_flatMap.1 hq
    exact three_pos p (hp p hp').1 q hq
  have nn : ∀ y, 0 ≤ mixed ps y := by
    intro y
    unfold mixed
    refine div_nonneg (List.sum_nonneg ?_) hW.le
    intro z hz
    simp only [List.mem_map] at hz
    obtain ⟨q, hq, rfl⟩ := hz
    refine mul_nonneg (hp q hq).1.le ?_
    unfold bell
    positivity
  have tot : IntAvg (mixed ps) (fun _ => 1) 1 := by
    have := mixed_avg ps (fun _ => 1) (fun _ => 1) fun p q => (bell_avg p.m p.v 0 (hp p q).2).1
    simp only [mul_one] at this
    rwa [div_self hW.ne'] at this
  obtain ⟨t1, t2⟩ := tot
  simp only [mul_one] at t1 t2
  constructor
  · rw [← h.2]; exact MeasureTheory.integral_nonneg fun y => nn y
  · rw [← h.2, ← t2]; exact MeasureTheory.setIntegral_le_integral t1 (Filter.Eventually.of_forall nn)

/-- **C118**, averaged probabilities: with positive weights and no zero variances, the combined probability at the `k`-th point is
the probability that the mixture of the normal distributions gives to values up to this point; it lies between zero and one. -/
theorem C118_probability (hS : S.Good) (i1 i2 i3 : Int) (k : Nat) (v : ℝ) (hv : items.cdfsAt[k]? = some v)
    (rs : List (Summ × List (Bool × Est))) (hne : rs ≠ []) (hf : ∀ p ∈ rs, FedBy S items pos big tiny ne nx p)
    (hw : ∀ e ∈ estimates (collected i1 i2 i3 rs), 0 < e.weight ∧ e.variance ≠ some 0) :
    ∃ r, combineCdfAt i1 i2 i3 k (rs.map (·.1)) = .ok r ∧
      let ps := parts (collected i1 i2 i3 rs)
      r.count = ps.length ∧ (ps = [] → r.getMean = none) ∧
      (ps ≠ [] → ∃ c, r.getMean = some c ∧ IntUpTo (mixed ps) v c ∧ 0 ≤ c ∧ c ≤ 1) := by
  obtain ⟨r, h1, h2⟩ := cdf_sees i1 i2 i3 k v hv rs hf (fun e he => (hw e he).1) [] RM.empty sees_empty
  rw [List.nil_append] at h2
  obtain ⟨q0, q1, f, q2, q3⟩ := points_mixed hS v _ hw
  refine ⟨r, by unfold combineCdfAt; rw [if_neg (by simpa using hne)]; exact h1, ?_⟩
  intro ps
  have hps : ps = (estimates (collected i1 i2 i3 rs)).filterMap partOf := rfl
  refine ⟨by rw [h2.count, q0, hps], ?_, ?_⟩
  · intro h
    have : (estimates (collected i1 i2 i3 rs)).flatMap (cdfPoint S v) = [] := by
      rw [← List.length_eq_zero_iff, q0, ← hps, h]; rfl
    exact (h2.none this).2.1
  · intro h
    have hne' : (estimates (collected i1 i2 i3 rs)).flatMap (cdfPoint S v) ≠ [] := by
      intro hc
      apply h
      rw [← List.length_eq_zero_iff, hps, ← q0, hc]; rfl
    obtain ⟨-, m, -⟩ := h2.mean hne'
    have hup : IntUpTo (mixed ps) v (wmean ((estimates (collected i1 i2 i3 rs)).flatMap (cdfPoint S v))) := by
      unfold wmean
      rw [q3, q1, upTo_iff_avg]
      exact mixed_avg ps _ f fun p hp => (upTo_iff_avg _ _ _).1 (q2 p hp)
    refine ⟨_, m, hup, mixed_range h (fun p hp => ⟨(parts_ok _ p hp).1, ?_⟩) hup⟩
    obtain ⟨e, he, hpe⟩ := List.mem_filterMap.1 hp
    rcases cdfPoint_part hS v e (hw e he).1 (hw e he).2 with ⟨a, -⟩ | ⟨p', c, a, a1, -⟩
    · rw [a] at hpe; cases hpe
    · rw [a] at hpe; cases hpe; exact a1

/-! ## Inclusion weights -/

theorem included_len (j : Nat) (e : Est) (hn : (e.endo ++ e.exo).Nodup) :
    included j e = if (j : Int) ∈ e.endo ++ e.exo then [(e.weight, 1)] else [] := by
  unfold included
  generalize e.endo ++ e.exo = l at hn
  induction l with
  | nil => rfl
  | cons a l ih =>
    obtain ⟨h1, h2⟩ := List.nodup_cons.1 hn
    by_cases ha : a = (j : Int)
    · subst ha
      rw [List.filter_cons_of_pos (by simp), List.map_cons, ih h2, if_neg h1, if_pos (by simp)]
    · rw [List.filter_cons_of_neg (by simpa using ha), ih h2]
      have : ((j : Int) ∈ a :: l) ↔ (j : Int) ∈ l := by simp [Ne.symm ha]
      simp only [this]

theorem incl_sees (hk : items.keepInclusion = true) (i1 i2 : Int) (j : Nat) (hj : j < ne + nx) :
    ∀ (rs : List (Summ × List (Bool × Est))), (∀ p ∈ rs, FedBy S items pos big tiny ne nx p) →
    ∀ (h : List (Bool × Est)) (r : RM ℝ),
    Sees ((models h).flatMap (included j)) ((models h).flatMap (included j)).length r →
    ∃ r', combineInclLoop i1 i2 j (rs.map (·.1)) r = .ok r' ∧
      Sees ((models (h ++ collected2 i1 i2 rs)).flatMap (included j)) ((models (h ++ collected2 i1 i2 rs)).flatMap (included j)).length r' := by
  intro rs
  induction rs with
  | nil => intro _ h r hr; exact ⟨r, rfl, by simpa [collected2] using hr⟩
  | cons p rs ih =>
    intro hf h r hr
    rw [List.map_cons]
    unfold combineInclLoop
    by_cases hc : p.1.i1 = i1 ∧ p.1.i2 = i2
    · rw [if_pos hc]
      obtain ⟨hl, hp⟩ := feed_incl hk (hf p (by simp))
      have e : collected2 i1 i2 (p :: rs) = p.2 ++ collected2 i1 i2 rs := by
        unfold collected2; rw [List.filter_cons_of_pos (by simpa using hc), List.flatMap_cons]
      have hget := List.getElem?_eq_getElem (show j < p.1.incl.length by omega)
      have ha : atI p.1.incl (j : Int) = some (p.1.incl[j]'(by omega)) := by
        unfold atI; rw [if_neg (by omega)]; simpa using hget
      rw [ha]
      have hr' := hr.combine (hp j _ hget)
      rw [e, ← List.append_assoc]
      refine ih (fun q hq => hf q (by simp [hq])) (h ++ p.2) _ ?_
      rw [models_append, List.flatMap_append, List.length_append]
      exact hr'
    · rw [if_neg hc]
      have e : collected2 i1 i2 (p :: rs) = collected2 i1 i2 rs := by
        unfold collected2; rw [List.filter_cons_of_neg (by simpa using hc)]
      rw [e]
      exact ih (fun q hq => hf q (by simp [hq])) h r hr

/-- **C118**, inclusion weights: the combined accumulator of variable `j` holds the number of models in which the variable appears and
the average of their weights. -/
theorem C118_inclusion (hk : items.keepInclusion = true) (i1 i2 : Int) (j : Nat) (hj : j < ne + nx)
    (rs : List (Summ × List (Bool × Est))) (hne : rs ≠ []) (hf : ∀ p ∈ rs, FedBy S items pos big tiny ne nx p)
    (hn : ∀ e ∈ models (collected2 i1 i2 rs), (e.endo ++ e.exo).Nodup) :
    ∃ r, combineInclusion i1 i2 j (rs.map (·.1)) = .ok r ∧
      let ms := (models (collected2 i1 i2 rs)).filter fun e => (j : Int) ∈ e.endo ++ e.exo
      r.count = ms.length ∧ r.getMean = if ms = [] then none else some (average (ms.map (·.weight))) := by
  obtain ⟨r, h1, h2⟩ := incl_sees hk i1 i2 j hj rs hf [] RM.empty sees_empty
  rw [List.nil_append] at h2
  refine ⟨r, by unfold combineInclusion; rw [if_neg (by simpa using hne)]; exact h1, ?_⟩
  intro ms
  have e : (models (collected2 i1 i2 rs)).flatMap (included j) = ms.map fun e => (e.weight, 1) := by
    have : ∀ l : List Est, (∀ e ∈ l, (e.endo ++ e.exo).Nodup) →
        l.flatMap (included j) = (l.filter fun e => (j : Int) ∈ e.endo ++ e.exo).map fun e => (e.weight, 1) := by
      intro l
      induction l with
      | nil => intro _; rfl
      | cons e l ih =>
        intro hl
        rw [List.flatMap_cons, included_len j e (hl e (by simp)), ih fun e he => hl e (by simp [he])]
        by_cases hm : (j : Int) ∈ e.endo ++ e.exo
        · rw [if_pos hm, List.filter_cons_of_pos (by simpa using hm)]; rfl
        · rw [if_neg hm, List.filter_cons_of_neg (by simpa using hm)]; rfl
    exact this _ hn
  rw [e] at h2
  refine ⟨by rw [h2.count, List.length_map], ?_⟩
  by_cases hm : ms = []
  · rw [if_pos hm]
    exact (h2.none (by rw [hm]; rfl)).2.1
  · rw [if_neg hm, (h2.mean (by simpa using hm)).2.1]
    congr 1
    have s1 : ∀ l : List Est, wsum (l.map fun e => (e.weight, (1 : ℝ))) = l.length := by
      intro l; induction l with
      | nil => simp [wsum]
      | cons a l ih => simp only [wsum, List.map_cons, List.sum_cons, List.length_cons] at *; rw [ih]; push_cast; ring
    have s2 : ((ms.map fun e => (e.weight, (1 : ℝ))).map fun q => q.2 * q.1).sum = (ms.map (·.weight)).sum := by
      rw [List.map_map]; congr 1; apply List.map_congr_left; intro a _; simp
    unfold wmean average
    rw [s1, s2, List.length_map]

/-! ## Lists and bounds -/

theorem estBefore_weak (pos : Bool) : WeakOrd (estBefore pos) := by
  constructor
  · intro a b h
    cases pos <;> simp [estBefore] at h ⊢ <;> exact le_of_lt h
  · intro a b c h1 h2
    cases pos <;> simp [estBefore] at h1 h2 ⊢
    · exact le_trans h2 h1
    · exact le_trans h1 h2

/-- **C118**: after any pushes a summary holds the `k` best of them, best first, and (if asked for) all the models in the order
of the pushes. -/
theorem C118_lists (k : Nat) (hk : 0 < k) (hb : items.keepBest = k) (p : Summ × List (Bool × Est))
    (hf : FedBy S items pos big tiny ne nx p) :
    IsTopK (fun a b : Est => if (pos p.1.i1) then b.metric < a.metric else a.metric < b.metric) k (p.2.map (·.2)) p.1.bests ∧
    p.1.all = if items.keepAll then models p.2 else [] := by
  refine ⟨?_, feed_all hf⟩
  rw [feed_bests hf, hb, pushAll_eq k hk]
  obtain ⟨h1, h2⟩ := insAll_spec (estBefore_weak (pos p.1.i1)) (p.2.map (·.2))
  have := take_isTopK (before := estBefore (pos p.1.i1)) k _ _ h1 h2
  have e : (fun a b : Est => if (pos p.1.i1) then b.metric < a.metric else a.metric < b.metric) = fun a b => estBefore (pos p.1.i1) a b = true := by
    funext a b
    cases (pos p.1.i1) <;> simp [estBefore]
  rw [e]; exact this

/-- **C118**: estimates without a mean or without a (non-negative) variance leave the bounds unchanged, the others only widen them, to
contain `mean ± multiplier · standard deviation`. -/
theorem C118_bounds (hm : 0 < items.mult) (p : Summ × List (Bool × Est)) (hf : FedBy S items pos big tiny ne nx p) :
    ∃ lo hi, p.1.bounds = some (lo, hi) ∧
      (∀ e ∈ estimates p.2, ∀ m v, e.mean = some m → e.variance = some v → 0 ≤ v →
        lo ≤ m - items.mult * Real.sqrt v ∧ m + items.mult * Real.sqrt v ≤ hi) ∧
      (lo = big ∨ ∃ e ∈ estimates p.2, ∃ m v, e.mean = some m ∧ e.variance = some v ∧ 0 ≤ v ∧ lo = m - items.mult * Real.sqrt v) ∧
      (hi = tiny ∨ ∃ e ∈ estimates p.2, ∃ m v, e.mean = some m ∧ e.variance = some v ∧ 0 ≤ v ∧ hi = m + items.mult * Real.sqrt v) := by
  refine ⟨_, _, feed_bounds hm hf, ?_⟩
  have key : ∀ (es : List Est) (b : ℝ × ℝ),
      let r := es.foldl (fun b e => pushBounds items.mult e b) b
      r.1 ≤ b.1 ∧ b.2 ≤ r.2 ∧
      (∀ e ∈ es, ∀ m v, e.mean = some m → e.variance = some v → 0 ≤ v →
        r.1 ≤ m - items.mult * Real.sqrt v ∧ m + items.mult * Real.sqrt v ≤ r.2) ∧
      (r.1 = b.1 ∨ ∃ e ∈ es, ∃ m v, e.mean = some m ∧ e.variance = some v ∧ 0 ≤ v ∧ r.1 = m - items.mult * Real.sqrt v) ∧
      (r.2 = b.2 ∨ ∃ e ∈ es, ∃ m v, e.mean = some m ∧ e.variance = some v ∧ 0 ≤ v ∧ r.2 = m + items.mult * Real.sqrt v) := by
    intro es
    induction es with
    | nil => intro b; simp
    | cons e es ih =>
      intro b
      obtain ⟨h1, h2, h3, h4, h5⟩ := ih (pushBounds items.mult e b)
      rw [List.foldl_cons]
      have widen : (pushBounds items.mult e b).1 ≤ b.1 ∧ b.2 ≤ (pushBounds items.mult e b).2 := by
        unfold pushBounds
        split
        · exact ⟨min_le_left _ _, le_max_left _ _⟩
        · exact ⟨le_refl _, le_refl _⟩
      have mine : ∀ m v, e.mean = some m → e.variance = some v → 0 ≤ v →
          pushBounds items.mult e b = (min b.1 (m - items.mult * Real.sqrt v), max b.2 (m + items.mult * Real.sqrt v)) := by
        intro m v e1 e2 hv
        unfold pushBounds
        rw [e1, e2]
        simp only [Option.bind_some, sqrtV, if_neg (not_lt.2 hv)]
      have other : (¬ ∃ m v, e.mean = some m ∧ e.variance = some v ∧ 0 ≤ v) → pushBounds items.mult e b = b := by
        intro hn
        unfold pushBounds
        split
        · rename_i m sd e1 e2
          exfalso
          cases hv : e.variance with
          | none => rw [hv] at e2; cases e2
          | some v =>
            rw [hv] at e2
            simp only [Option.bind_some, sqrtV] at e2
            split_ifs at e2 with hc
            exact hn ⟨m, v, e1, hv, not_lt.1 hc⟩
        · rfl
      refine ⟨h1.trans widen.1, widen.2.trans h2, ?_, ?_, ?_⟩
      · intro x hx m v e1 e2 hv
        rcases List.mem_cons.1 hx with rfl | hx
        · rw [mine m v e1 e2 hv] at h1 h2
          rw [mine m v e1 e2 hv]
          exact ⟨h1.trans (min_le_right _ _), (le_max_right _ _).trans h2⟩
        · exact h3 x hx m v e1 e2 hv
      · rcases h4 with h | ⟨x, hx, h⟩
        · by_cases hc : ∃ m v, e.mean = some m ∧ e.variance = some v ∧ 0 ≤ v
          · obtain ⟨m, v, e1, e2, hv⟩ := hc
            rw [mine m v e1 e2 hv] at h ⊢
            rcases min_choice b.1 (m - items.mult * Real.sqrt v) with h' | h'
            · left; rw [h, h']
            · right; exact ⟨e, by simp, m, v, e1, e2, hv, by rw [h, h']⟩
          · rw [other hc] at h ⊢; left; exact h
        · right; exact ⟨x, List.mem_cons_of_mem _ hx, h⟩
      · rcases h5 with h | ⟨x, hx, h⟩
        · by_cases hc : ∃ m v, e.mean = some m ∧ e.variance = some v ∧ 0 ≤ v
          · obtain ⟨m, v, e1, e2, hv⟩ := hc
            rw [mine m v e1 e2 hv] at h ⊢
            rcases max_choice b.2 (m + items.mult * Real.sqrt v) with h' | h'
            · left; rw [h, h']
            · right; exact ⟨e, by simp, m, v, e1, e2, hv, by rw [h, h']⟩
          · rw [other hc] at h ⊢; left; exact h
        · right; exact ⟨x, List.mem_cons_of_mem _ hx, h⟩
  exact (key (estimates p.2) (big, tiny)).2.2

/-! ## Refusals -/

theorem pushIncl_total (w : ℝ) : ∀ (is : List Int) (l : List (RM ℝ)),
    (∃ l', pushIncl w is l = .ok l') ↔ ∀ i ∈ is, 0 ≤ i ∧ i < l.length := by
  intro is
  induction is with
  | nil => intro l; simp [pushIncl]
  | cons i is ih =>
    intro l
    constructor
    · rintro ⟨l', h⟩
      exact (pushIncl_sees h).2.1
    · intro h
      obtain ⟨h1, h2⟩ := h i (by simp)
      have : atI l i = some (l[i.toNat]'(by omega)) := by
        unfold atI; rw [if_neg (by omega), List.getElem?_eq_getElem]
      simp only [pushIncl, this]
      exact (ih _).2 fun k hk => by rw [List.length_set]; exact h k (by simp [hk])

theorem pushIncl_cases (w : ℝ) : ∀ (is : List Int) (l : List (RM ℝ)), (∃ l', pushIncl w is l = .ok l') ∨ pushIncl w is l = .throws := by
  intro is
  induction is with
  | nil => intro l; left; exact ⟨l, rfl⟩
  | cons i is ih =>
    intro l
    unfold pushIncl
    cases atI l i with
    | none => right; rfl
    | some r => exact ih _

theorem two_ok {α β γ : Type} {x : Outcome α} {y : α → Outcome β} (g : β → γ) {a : α} {b : β} (h1 : x = .ok a) (h2 : y a = .ok b) :
    (x >>= fun l => y l >>= fun l => Outcome.ok (g l)) = .ok (g b) := by
  rw [h1]; show (y a >>= _) = _; rw [h2]; rfl

/-- **C118**: a summary that has been fed accepts every estimate; it accepts a model exactly if inclusion weights are not asked for or
all its variables are between zero and the number of endogenous and exogenous variables, and throws otherwise. -/
theorem C118_accepts (p : Summ × List (Bool × Est)) (hf : FedBy S items pos big tiny ne nx p) (e : Est) :
    (∃ s, push S items (pos p.1.i1) false p.1 e = .ok s) ∧
    ((∃ s, push S items (pos p.1.i1) true p.1 e = .ok s) ↔
      (items.keepInclusion = true → ∀ i ∈ e.endo ++ e.exo, 0 ≤ i ∧ i < (ne + nx : Nat))) ∧
    ((¬ ∃ s, push S items (pos p.1.i1) true p.1 e = .ok s) → push S items (pos p.1.i1) true p.1 e = .throws) := by
  refine ⟨?_, ?_, ?_⟩
  · have := pushCdfs_ok (S := S) e items.cdfsAt p.1.cdfs (feed_cdfs hf).1.symm
    unfold push
    dsimp only
    rw [if_neg (by simp), this]
    exact ⟨_, rfl⟩
  · constructor
    · rintro ⟨s, hs⟩ hk
      have h1 := (push_model hs).1
      rw [if_pos hk] at h1
      have := (pushIncl_sees h1).2.1
      rw [(feed_incl hk hf).1] at this
      exact this
    · intro h
      unfold push
      dsimp only
      rw [if_pos rfl]
      by_cases hk : items.keepInclusion = true
      · rw [if_pos hk]
        have := (pushIncl_total e.weight (e.endo ++ e.exo) p.1.incl).2 (by rw [(feed_incl hk hf).1]; exact h hk)
        rw [pushIncl_append] at this
        obtain ⟨l', hl⟩ := this
        obtain ⟨l1, a1, a2⟩ := obind hl
        have e1 : (if items.keepAll = true then
            ({ p.1 with bests := pushBest (estBefore (pos p.1.i1)) items.keepBest p.1.bests e, all := p.1.all ++ [e] } : Summ)
          else { p.1 with bests := pushBest (estBefore (pos p.1.i1)) items.keepBest p.1.bests e }).incl = p.1.incl := by split_ifs <;> rfl
        rw [e1]
        exact ⟨_, two_ok _ a1 a2⟩
      · rw [if_neg hk]; exact ⟨_, rfl⟩
  · intro hno
    unfold push at hno ⊢
    dsimp only at hno ⊢
    rw [if_pos rfl] at hno ⊢
    by_cases hk : items.keepInclusion = true
    · rw [if_pos hk] at hno ⊢
      have e1 : (if items.keepAll = true then
            ({ p.1 with bests := pushBest (estBefore (pos p.1.i1)) items.keepBest p.1.bests e, all := p.1.all ++ [e] } : Summ)
          else { p.1 with bests := pushBest (estBefore (pos p.1.i1)) items.keepBest p.1.bests e }).incl = p.1.incl := by split_ifs <;> rfl
      rw [e1] at hno ⊢
      rcases pushIncl_cases e.weight e.endo p.1.incl with ⟨l1, a1⟩ | a1
      · rw [a1] at hno ⊢
        rcases pushIncl_cases e.weight e.exo l1 with ⟨l2, a2⟩ | a2
        · exact absurd ⟨_, two_ok _ rfl a2⟩ hno
        · show (pushIncl e.weight e.exo l1 >>= _) = _
          rw [a2]; rfl
      · rw [a1]; rfl
    · rw [if_neg hk] at hno; exact absurd ⟨_, rfl⟩ hno

/-- **C118**: combining without summaries throws. -/
theorem C118_no_summary (i1 i2 i3 k : Int) :
    combineMixture i1 i2 i3 [] = .throws ∧ combineCdfAt i1 i2 i3 k [] = .throws ∧ combineInclusion i1 i2 i3 [] = .throws := ⟨rfl, rfl, rfl⟩

end
end Srch
end LDT
