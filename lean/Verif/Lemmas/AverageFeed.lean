import Verif.Lemmas.AverageMix
import Verif.Props.Summary
/-! # Averages over models: sequences of pushes -/
namespace LDT
namespace Srch
open Arr Di

theorem obind {α β : Type} {x : Outcome α} {f : α → Outcome β} {b : β} (h : (x >>= f) = .ok b) : ∃ a, x = .ok a ∧ f a = .ok b := by
  cases x with
  | ok a => exact ⟨a, rfl, h⟩
  | throws => cases h
  | ub => cases h
  | diverges => cases h

/-- The models among the pushes. -/
def models (h : List (Bool × Est)) : List Est := (h.filter (·.1)).map (·.2)

/-- The estimates (not models) among the pushes. -/
def estimates (h : List (Bool × Est)) : List Est := (h.filter (!·.1)).map (·.2)

theorem models_append (a b) : models (a ++ b) = models a ++ models b := by simp [models]
theorem estimates_append (a b) : estimates (a ++ b) = estimates a ++ estimates b := by simp [estimates]

/-! ## One push -/

theorem pushIncl_append (w : ℝ) (a b : List Int) (l : List (RM ℝ)) :
    pushIncl w (a ++ b) l = pushIncl w a l >>= pushIncl w b := by
  induction a generalizing l with
  | nil => rfl
  | cons i a ih =>
    simp only [List.cons_append, pushIncl]
    cases atI l i with
    | none => rfl
    | some r => exact ih _

variable {S : Fns} {items : Items} {pos : Bool}

theorem push_model {s s' : Summ} {e : Est} (h : push S items pos true s e = .ok s') :
    (if items.keepInclusion then pushIncl e.weight (e.endo ++ e.exo) s.incl else .ok s.incl) = .ok s'.incl ∧
    s' = { s with bests := pushBest (estBefore pos) items.keepBest s.bests e
                  all := if items.keepAll then s.all ++ [e] else s.all
                  incl := s'.incl } := by
  unfold push at h
  dsimp only at h
  rw [if_pos rfl] at h
  by_cases hk : items.keepInclusion = true
  · rw [if_pos hk] at h
    obtain ⟨l, h1, h⟩ := obind h
    obtain ⟨l', h2, h⟩ := obind h
    cases h
    rw [if_pos hk, pushIncl_append]
    have e1 : (if items.keepAll = true then
        ({ s with bests := pushBest (estBefore pos) items.keepBest s.bests e, all := s.all ++ [e] } : Summ)
      else { s with bests := pushBest (estBefore pos) items.keepBest s.bests e }).incl = s.incl := by split_ifs <;> rfl
    rw [e1] at h1
    refine ⟨?_, ?_⟩
    · rw [h1]; exact h2
    · split_ifs <;> rfl
  · rw [if_neg hk] at h
    cases h
    rw [if_neg hk]
    split_ifs <;> exact ⟨rfl, rfl⟩

theorem push_estimate {s s' : Summ} {e : Est} (h : push S items pos false s e = .ok s') :
    pushCdfs S e items.cdfsAt s.cdfs = .ok s'.cdfs ∧
    s' = { s with bests := pushBest (estBefore pos) items.keepBest s.bests e
                  cdfs := s'.cdfs
                  mix := if items.keepMixture then s.mix.combineStats 4 e.mean e.variance (some 0) (some 0) e.weight 1 else s.mix
                  bounds := if items.mult > 0 then s.bounds.map (pushBounds items.mult e) else s.bounds } := by
  unfold push at h
  dsimp only at h
  rw [if_neg (by simp)] at h
  obtain ⟨l, h1, h⟩ := obind h
  cases h
  exact ⟨h1, rfl⟩

/-- Induction over the pushes: `P history state`. -/
theorem feed_ind (P : List (Bool × Est) → Summ → Prop)
    (hm : ∀ h s s' e, P h s → push S items pos true s e = .ok s' → P (h ++ [(true, e)]) s')
    (he : ∀ h s s' e, P h s → push S items pos false s e = .ok s' → P (h ++ [(false, e)]) s') :
    ∀ (l h : List (Bool × Est)) (s s' : Summ), P h s → feed S items pos l s = .ok s' → P (h ++ l) s' := by
  intro l
  induction l with
  | nil => intro h s s' hp hf; cases hf; simpa using hp
  | cons p l ih =>
    intro h s s' hp hf
    obtain ⟨s1, h1, h2⟩ := obind hf
    have : P (h ++ [p]) s1 := by
      obtain ⟨b, e⟩ := p
      cases b
      · exact he h s s1 e hp h1
      · exact hm h s s1 e hp h1
    have := ih _ _ _ this h2
    rwa [List.append_assoc] at this

/-- The same, starting with a new summary. -/
theorem feed_new (P : List (Bool × Est) → Summ → Prop) {big tiny : ℝ} {ne nx : Nat} {i1 i2 i3 : Int}
    (h0 : P [] (newSumm items big tiny ne nx i1 i2 i3))
    (hm : ∀ h s s' e, P h s → push S items pos true s e = .ok s' → P (h ++ [(true, e)]) s')
    (he : ∀ h s s' e, P h s → push S items pos false s e = .ok s' → P (h ++ [(false, e)]) s')
    {l : List (Bool × Est)} {s : Summ} (hf : feed S items pos l (newSumm items big tiny ne nx i1 i2 i3) = .ok s) : P l s :=
  feed_ind P hm he l [] _ s h0 hf

section
variable {big tiny : ℝ} {ne nx : Nat} {i1 i2 i3 : Int} {l : List (Bool × Est)} {s : Summ}

theorem feed_index (hf : feed S items pos l (newSumm items big tiny ne nx i1 i2 i3) = .ok s) : s.i1 = i1 ∧ s.i2 = i2 ∧ s.i3 = i3 := by
  refine feed_new (fun _ s => s.i1 = i1 ∧ s.i2 = i2 ∧ s.i3 = i3) ⟨rfl, rfl, rfl⟩ ?_ ?_ hf
  · intro h s s' e hp h1
    rw [(push_model h1).2]; exact hp
  · intro h s s' e hp h1
    rw [(push_estimate h1).2]; exact hp

theorem feed_bests (hf : feed S items pos l (newSumm items big tiny ne nx i1 i2 i3) = .ok s) :
    s.bests = (l.map (·.2)).foldl (pushBest (estBefore pos) items.keepBest) [] := by
  refine feed_new (fun l s => s.bests = (l.map (·.2)).foldl (pushBest (estBefore pos) items.keepBest) []) rfl ?_ ?_ hf
  · intro h s s' e hp h1
    rw [(push_model h1).2, List.map_append, List.foldl_append, ← hp]; rfl
  · intro h s s' e hp h1
    rw [(push_estimate h1).2, List.map_append, List.foldl_append, ← hp]; rfl

theorem feed_all (hf : feed S items pos l (newSumm items big tiny ne nx i1 i2 i3) = .ok s) :
    s.all = if items.keepAll then models l else [] := by
  refine feed_new (fun l s => s.all = if items.keepAll then models l else []) (by simp [newSumm, models]) ?_ ?_ hf
  · intro h s s' e hp h1
    rw [(push_model h1).2, models_append, hp]
    split_ifs
    · simp [models]
    · rfl
  · intro h s s' e hp h1
    rw [(push_estimate h1).2, models_append]
    simpa [models] using hp

/-- The accumulator of the mixture. -/
theorem feed_mix (hk : items.keepMixture = true) (hf : feed S items pos l (newSumm items big tiny ne nx i1 i2 i3) = .ok s) :
    Sees (((estimates l).filterMap partOf).flatMap three) ((estimates l).filterMap partOf).length s.mix := by
  refine feed_new (fun l s => Sees (((estimates l).filterMap partOf).flatMap three) ((estimates l).filterMap partOf).length s.mix)
    (by simpa [newSumm, estimates] using sees_empty) ?_ ?_ hf
  · intro h s s' e hp h1
    rw [(push_model h1).2, estimates_append]
    simpa [estimates] using hp
  · intro h s s' e hp h1
    rw [(push_estimate h1).2, estimates_append]
    dsimp only
    rw [if_pos hk]
    have := mix_step hp e
    have e1 : estimates [(false, e)] = [e] := rfl
    rw [e1, List.filterMap_append, List.flatMap_append, List.length_append]
    have e2 : [e].filterMap partOf = (partOf e).toList := by cases hh : partOf e <;> simp [hh]
    rw [e2]; exact this

/-- The bounds: only estimates with a mean and a variance that is not negative count. -/
theorem feed_bounds (hk : 0 < items.mult) (hf : feed S items pos l (newSumm items big tiny ne nx i1 i2 i3) = .ok s) :
    s.bounds = some ((estimates l).foldl (fun b e => pushBounds items.mult e b) (big, tiny)) := by
  refine feed_new (fun l s => s.bounds = some ((estimates l).foldl (fun b e => pushBounds items.mult e b) (big, tiny)))
    (by simp [newSumm, hk, estimates]) ?_ ?_ hf
  · intro h s s' e hp h1
    rw [(push_model h1).2, estimates_append]
    simpa [estimates] using hp
  · intro h s s' e hp h1
    rw [(push_estimate h1).2, estimates_append, List.foldl_append]
    dsimp only
    rw [if_pos hk, hp]
    rfl

/-! ## Inclusion -/

/-- What the accumulator of variable `j` is fed with. -/
noncomputable def included (j : Nat) (e : Est) : List (ℝ × ℝ) := ((e.endo ++ e.exo).filter (· = (j : Int))).map fun _ => (e.weight, 1)

theorem pushIncl_sees {w : ℝ} : ∀ {is : List Int} {l l' : List (RM ℝ)}, pushIncl w is l = .ok l' →
    l'.length = l.length ∧ (∀ i ∈ is, 0 ≤ i ∧ i < l.length) ∧
    ∀ (j : Nat) (r r' : RM ℝ) (smp : List (ℝ × ℝ)) (n : Nat), l[j]? = some r → l'[j]? = some r' → Sees smp n r →
      Sees (smp ++ (is.filter (· = (j : Int))).map fun _ => (w, 1)) (n + (is.filter (· = (j : Int))).length) r' := by
  intro is
  induction is with
  | nil =>
    intro l l' h
    cases h
    refine ⟨rfl, by simp, fun j r r' smp n h1 h2 h3 => ?_⟩
    rw [h1] at h2; cases h2
    simpa using h3
  | cons i is ih =>
    intro l l' h
    unfold pushIncl at h
    cases ha : atI l i with
    | none => rw [ha] at h; cases h
    | some ri =>
      rw [ha] at h
      have hi0 : 0 ≤ i := by
        by_contra hc
        unfold atI at ha; rw [if_pos (by omega)] at ha; cases ha
      have hget : l[i.toNat]? = some ri := by
        unfold atI at ha; rwa [if_neg (by omega)] at ha
      have hlt : i.toNat < l.length := by
        by_contra hc
        rw [List.getElem?_eq_none (by omega)] at hget; cases hget
      obtain ⟨e1, e2, e3⟩ := ih h
      rw [List.length_set] at e1 e2
      refine ⟨e1, ?_, ?_⟩
      · intro k hk
        rcases List.mem_cons.1 hk with rfl | hk
        · omega
        · exact e2 k hk
      · intro j r r' smp n h1 h2 h3
        by_cases hj : i = (j : Int)
        · have hjn : i.toNat = j := by omega
          have : (l.set i.toNat (ri.push false true (some w) 1))[j]? = some (ri.push false true (some w) 1) := by
            rw [hjn, List.getElem?_set_self (by omega)]
          rw [hjn, h1] at hget
          cases hget
          have := e3 j _ r' _ _ this h2 (h3.push1 w 1)
          rw [List.filter_cons_of_pos (by simpa using hj)]
          simpa [Nat.add_assoc, Nat.add_comm 1] using this
        · have : (l.set i.toNat (ri.push false true (some w) 1))[j]? = some r := by
            rw [List.getElem?_set_ne (by omega), h1]
          have := e3 j _ r' _ _ this h2 h3
          rw [List.filter_cons_of_neg (by simpa using hj)]
          exact this

theorem feed_incl (hk : items.keepInclusion = true) (hf : feed S items pos l (newSumm items big tiny ne nx i1 i2 i3) = .ok s) :
    s.incl.length = ne + nx ∧ ∀ j r, s.incl[j]? = some r →
      Sees ((models l).flatMap (included j)) ((models l).flatMap (included j)).length r := by
  refine feed_new (fun l s => s.incl.length = ne + nx ∧ ∀ j r, s.incl[j]? = some r →
      Sees ((models l).flatMap (included j)) ((models l).flatMap (included j)).length r) ?_ ?_ ?_ hf
  · constructor
    · simp [newSumm, hk]
    · intro j r hr
      simp only [newSumm, hk, if_true] at hr
      have : r = RM.empty := by
        have := List.mem_of_getElem? hr
        exact List.eq_of_mem_replicate this
      rw [this]
      exact sees_empty
  · intro h s s' e ⟨hp1, hp2⟩ h1
    obtain ⟨h2, -⟩ := push_model h1
    rw [if_pos hk] at h2
    obtain ⟨g1, g2, g3⟩ := pushIncl_sees h2
    refine ⟨g1.trans hp1, fun j r' hr' => ?_⟩
    have hj : j < s.incl.length := by
      rw [← g1]
      by_contra hc
      rw [List.getElem?_eq_none (by omega)] at hr'; cases hr'
    have hr := List.getElem?_eq_getElem hj
    have := g3 j _ r' _ _ hr hr' (hp2 j _ hr)
    rw [models_append, List.flatMap_append, List.length_append]
    simpa [models, included] using this
  · intro h s s' e hp h1
    rw [(push_estimate h1).2, models_append]
    simpa [models] using hp

/-! ## Probabilities -/

/-- The number pushed into the accumulator of a probability. -/
noncomputable def cdfVal (S : Fns) (e : Est) (v : ℝ) : Val ℝ :=
  match e.mean, e.variance.bind sqrtV with
  | some m, some s => toVal ((⟨.normal, m, s⟩ : Di.Dist).cdf S v)
  | _, _ => none

theorem normalCdfAt_ok (e : Est) (v : ℝ) : normalCdfAt S e.mean e.variance v = .ok (cdfVal S e v) := by
  unfold normalCdfAt cdfVal
  cases e.mean with
  | none => rfl
  | some m =>
    cases hv : e.variance.bind sqrtV with
    | none => rfl
    | some sd =>
      have : ¬ sd < 0 := by
        cases he : e.variance with
        | none => rw [he] at hv; cases hv
        | some x =>
          rw [he] at hv
          simp only [Option.bind_some, sqrtV] at hv
          split_ifs at hv
          cases hv
          exact not_lt.2 (Real.sqrt_nonneg x)
      simp only [make, if_neg this]
      rfl

theorem pushCdfs_ok (e : Est) : ∀ (vs : List ℝ) (l : List (RM ℝ)), vs.length = l.length →
    pushCdfs S e vs l = .ok (List.zipWith (fun v r => r.push true true (cdfVal S e v) e.weight) vs l) := by
  intro vs
  induction vs with
  | nil => intro l h; cases l with
    | nil => rfl
    | cons => simp at h
  | cons v vs ih => intro l h; cases l with
    | nil => simp at h
    | cons r l =>
      simp only [pushCdfs]
      rw [normalCdfAt_ok, ih l (by simpa using h)]
      rfl

/-- What the accumulator of the probability of values up to `v` is fed with. -/
noncomputable def cdfPoint (S : Fns) (v : ℝ) (e : Est) : List (ℝ × ℝ) := (cdfVal S e v).toList.map fun c => (c, e.weight)

theorem feed_cdfs (hf : feed S items pos l (newSumm items big tiny ne nx i1 i2 i3) = .ok s) :
    s.cdfs.length = items.cdfsAt.length ∧ ((∀ e ∈ estimates l, 0 < e.weight) →
      ∀ (k : Nat) (v : ℝ) (r : RM ℝ), items.cdfsAt[k]? = some v → s.cdfs[k]? = some r →
        Sees ((estimates l).flatMap (cdfPoint S v)) ((estimates l).flatMap (cdfPoint S v)).length r) := by
  refine feed_new (fun l s => s.cdfs.length = items.cdfsAt.length ∧ ((∀ e ∈ estimates l, 0 < e.weight) →
      ∀ (k : Nat) (v : ℝ) (r : RM ℝ), items.cdfsAt[k]? = some v → s.cdfs[k]? = some r →
        Sees ((estimates l).flatMap (cdfPoint S v)) ((estimates l).flatMap (cdfPoint S v)).length r)) ?_ ?_ ?_ hf
  · constructor
    · simp only [newSumm]
      split_ifs with h
      · simp
      · simp at h; simp [h]
    · intro _ k v r hv hr
      have : r = RM.empty := by
        simp only [newSumm] at hr
        split_ifs at hr
        · exact List.eq_of_mem_replicate (List.mem_of_getElem? hr)
        · simp at hr
      rw [this]; exact sees_empty
  · intro h s s' e hp h1
    rw [(push_model h1).2, estimates_append]
    simpa [estimates] using hp
  · intro h s s' e ⟨hp1, hp2⟩ h1
    obtain ⟨h2, -⟩ := push_estimate h1
    rw [pushCdfs_ok e _ _ hp1.symm] at h2
    cases h2' : s'.cdfs with
    | nil =>
      rw [h2'] at h2
      have h3 : List.zipWith (fun v r => r.push true true (cdfVal S e v) e.weight) items.cdfsAt s.cdfs = [] := by injection h2
      refine ⟨?_, ?_⟩
      · have := congrArg List.length h3
        rw [List.length_zipWith, hp1] at this
        simpa using this.symm
      · intro _ k v r _ hr; simp at hr
    | cons a t =>
      rw [← h2']
      have h3 : List.zipWith (fun v r => r.push true true (cdfVal S e v) e.weight) items.cdfsAt s.cdfs = s'.cdfs := by injection h2
      refine ⟨?_, ?_⟩
      · rw [← h3, List.length_zipWith, hp1, Nat.min_self]
      · intro hw k v r hv hr
        rw [estimates_append] at hw ⊢
        have e1 : estimates [(false, e)] = [e] := rfl
        rw [e1] at hw ⊢
        rw [← h3, List.getElem?_zipWith, hv] at hr
        cases hk : s.cdfs[k]? with
        | none => rw [hk] at hr; cases hr
        | some r0 =>
          rw [hk] at hr
          have hr : r0.push true true (cdfVal S e v) e.weight = r := by simpa using hr
          have h0 := hp2 (fun e he => hw e (by simp [he])) k v r0 hv hk
          rw [List.flatMap_append, List.length_append, ← hr]
          cases hc : cdfVal S e v with
          | none =>
            have e2 : [e].flatMap (cdfPoint S v) = [] := by simp [cdfPoint, hc]
            rw [e2, List.append_nil]
            exact h0.skip true e.weight
          | some c =>
            have e2 : [e].flatMap (cdfPoint S v) = [(c, e.weight)] := by simp [cdfPoint, hc]
            rw [e2]
            exact h0.push (x := c) (hw e (by simp))

end

end Srch
end LDT
