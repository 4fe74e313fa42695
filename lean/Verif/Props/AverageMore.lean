import Verif.Props.Average
import Verif.Model.Scoring
import Verif.Lemmas.ChoiceLaw
/-! # C118: weights that are not positive, and a concrete search -/
namespace LDT
namespace Srch
open Arr Di Score

section
variable {S : Fns} {items : Items} {pos : Int → Bool} {big tiny : ℝ} {ne nx : Nat}

theorem zip_map {α β γ : Type} (f : α → β → γ) (g : α → β) (l : List α) : List.zipWith f l (l.map g) = l.map fun a => f a (g a) := by
  induction l with
  | nil => rfl
  | cons a l ih => simp [ih]

/-- The accumulators of the probabilities, in closed form. -/
theorem feed_cdfs_eq {p : Summ × List (Bool × Est)} (hf : FedBy S items pos big tiny ne nx p) :
    p.1.cdfs = items.cdfsAt.map fun v => (estimates p.2).foldl (fun r e => r.push true true (cdfVal S e v) e.weight) RM.empty := by
  refine feed_new (fun l s => s.cdfs = items.cdfsAt.map fun v =>
    (estimates l).foldl (fun r e => r.push true true (cdfVal S e v) e.weight) RM.empty) ?_ ?_ ?_ hf
  · have : ∀ l : List ℝ, List.replicate l.length (RM.empty : RM ℝ) = l.map fun _ => RM.empty := by
      intro l; simp
    simp only [newSumm]
    split_ifs with h
    · exact this _
    · simp at h; simp [h]
  · intro h s s' e hp h1
    rw [(push_model h1).2, estimates_append]
    simpa [estimates] using hp
  · intro h s s' e hp h1
    obtain ⟨h2, -⟩ := push_estimate h1
    rw [pushCdfs_ok e _ _ (by rw [hp]; simp), hp, zip_map] at h2
    have h3 : _ = s'.cdfs := Outcome.ok.inj h2
    rw [← h3, estimates_append]
    apply List.map_congr_left
    intro v _
    rw [List.foldl_append]; rfl

theorem poisoned (v : ℝ) (es : List Est) (r : RM ℝ) (h : r.mom = none) :
    (es.foldl (fun r e => r.push true true (cdfVal S e v) e.weight) r).mom = none := by
  induction es generalizing r with
  | nil => exact h
  | cons e es ih =>
    rw [List.foldl_cons]
    apply ih
    cases hc : cdfVal S e v with
    | none => exact h
    | some c => simp [RM.push, h]

/-- C118 fails when the first estimate of a searcher has weight zero (area under the curve zero, no correct direction, cost one):
whatever is pushed afterwards, the averaged probabilities of this searcher are NaN, and in the combination
everything this searcher found is ignored. -/
theorem C118_violated_zero_weight_first (hS : S.Good) (p : Summ × List (Bool × Est)) (hf : FedBy S items pos big tiny ne nx p)
    (e : Est) (es : List Est) (he : estimates p.2 = e :: es) (m x : ℝ) (hm : e.mean = some m) (hx : e.variance = some x) (h0 : 0 < x)
    (hw : e.weight = 0) :
    ∀ r ∈ p.1.cdfs, r.getMean = none ∧ ∀ r', RM.combine true r' r = r' := by
  intro r hr
  rw [feed_cdfs_eq hf, he] at hr
  obtain ⟨v, -, rfl⟩ := List.mem_map.1 hr
  have h1 : (RM.push true true (RM.empty : RM ℝ) (cdfVal S e v) e.weight).mom = none := by
    obtain ⟨b1, -⟩ := bell_upTo hS m x v h0
    rw [← hm, ← hx, normalCdfAt_ok] at b1
    have b1 : cdfVal S e v = _ := Outcome.ok.inj b1
    rw [b1, hw]
    simp [RM.push, RM.empty, update]
  have h2 := poisoned (S := S) v es _ h1
  rw [List.foldl_cons]
  constructor
  · unfold RM.getMean; rw [h2]; simp
  · intro r'
    unfold RM.combine
    rw [h2]
    cases r'.mom <;> rfl

/-- The metrics for which this happens. -/
theorem C118_zero_weights : gofToWeight .auc 0 0 = 0 ∧ gofToWeight .frequencyCost 1 0 = 0 ∧ scoToWeight .direction 0 0 = 0 ∧
    scoToWeight .sign 0 0 = 0 ∧ scoToWeight .auc 0 0 = 0 := by
  simp [gofToWeight, scoToWeight]

/-- A misclassification cost larger than one makes the weight negative, … -/
theorem C118_negative_weights (q : ℝ) (hq : 1 < q) : gofToWeight .frequencyCost q 0 < 0 ∧ scoToWeight .frequencyCost q 0 < 0 := by
  simp [gofToWeight, scoToWeight, hq]

/-- … and then a reported average probability can be larger than one. -/
theorem C118_violated_negative_weight (c1 c2 : ℝ) (v : ℝ) (e1 e2 : Est) (h1 : cdfVal S e1 v = some c1) (h2 : cdfVal S e2 v = some c2)
    (hc : c2 < c1) (hle : c1 ≤ 1) (hv : items.cdfsAt = [v]) :
    ∃ cost, 1 < cost ∧ cost < 2 ∧ ∀ p : Summ × List (Bool × Est),
      p.2 = [(false, { e1 with weight := gofToWeight .frequencyCost 0 0 }), (false, { e2 with weight := gofToWeight .frequencyCost cost 0 })] →
      FedBy S items pos big tiny ne nx p → ∃ r c, p.1.cdfs = [r] ∧ r.getMean = some c ∧ 1 < c := by
  have hd : 0 < 1 - c2 := by linarith
  obtain ⟨u, hu1, hu2⟩ : ∃ u, (1 - c1) / (1 - c2) < u ∧ u < 1 := exists_between ((div_lt_one hd).2 (by linarith))
  have hu0 : 0 < u := lt_of_le_of_lt (div_nonneg (by linarith) hd.le) hu1
  refine ⟨1 + u, by linarith, by linarith, ?_⟩
  intro p hp hf
  have hk := feed_cdfs_eq hf
  have g1 : ∀ w, cdfVal S { e1 with weight := w } v = some c1 := fun w => h1
  have g2 : ∀ w, cdfVal S { e2 with weight := w } v = some c2 := fun w => h2
  have hest : estimates p.2 = [{ e1 with weight := gofToWeight .frequencyCost 0 0 }, { e2 with weight := gofToWeight .frequencyCost (1 + u) 0 }] := by
    rw [hp]; rfl
  rw [hest, hv] at hk
  simp only [List.map_cons, List.map_nil, List.foldl_cons, List.foldl_nil, g1, g2] at hk
  refine ⟨_, (c1 - u * c2) / (1 - u), hk, ?_, ?_⟩
  · have e0 : gofToWeight .frequencyCost 0 0 = 1 := by simp [gofToWeight]
    have e1 : gofToWeight .frequencyCost (1 + u) 0 = -u := by simp [gofToWeight]
    rw [e0, e1]
    have hne : (1 : ℝ) + -u ≠ 0 := by linarith
    have hne' : (1 : ℝ) - u ≠ 0 := by linarith
    simp only [RM.push, RM.empty, if_true, update, zero_add, Option.bind_some, one_ne_zero, if_false, hne, RM.getMean, Option.map_some]
    congr 1
    field_simp
    ring
  · rw [lt_div_iff₀ (by linarith)]
    rw [div_lt_iff₀ hd] at hu1
    linarith

/-- The condition can be met: two estimates with unit variances. -/
example (hS : S.Good) : ∃ c1 c2 : ℝ, cdfVal S ⟨0, 0, some (-1), some 1, [], [], []⟩ 0 = some c1 ∧
    cdfVal S ⟨0, 0, some 1, some 1, [], [], []⟩ 0 = some c2 ∧ c2 < c1 ∧ c1 ≤ 1 := by
  obtain ⟨a1, a2⟩ := bell_upTo hS (-1) 1 0 one_pos
  obtain ⟨b1, b2⟩ := bell_upTo hS 1 1 0 one_pos
  refine ⟨1 / 2 * S.erfc ((-1 - 0) / (Real.sqrt 1 * Real.sqrt 2)), 1 / 2 * S.erfc ((1 - 0) / (Real.sqrt 1 * Real.sqrt 2)), ?_, ?_, ?_, ?_⟩
  · exact Outcome.ok.inj ((normalCdfAt_ok (S := S) ⟨0, 0, some (-1), some 1, [], [], []⟩ 0).symm.trans a1)
  · exact Outcome.ok.inj ((normalCdfAt_ok (S := S) ⟨0, 0, some 1, some 1, [], [], []⟩ 0).symm.trans b1)
  · have h1 := Dc.gaussian_eq hS 1
    have h2 := Dc.gaussian_eq hS (-1)
    rw [Real.sqrt_one, show (1 : ℝ) - 0 = 0 - -1 by norm_num, show (-1 : ℝ) - 0 = 0 - 1 by norm_num, ← h1, ← h2]
    exact Dc.gaussian_strictMono (by norm_num)
  · have h1 := Dc.gaussian_eq hS 1
    rw [Real.sqrt_one, show (-1 : ℝ) - 0 = 0 - 1 by norm_num, ← h1]
    have := Dc.gaussian_pos (-1)
    rw [Dc.gaussian_symm] at this
    linarith

/-- **C118**: a summary takes any sequence of estimates and of models with variables in range. -/
theorem C118_total (i1 i2 i3 : Int) : ∀ (l : List (Bool × Est)),
    (items.keepInclusion = true → ∀ e ∈ models l, ∀ i ∈ e.endo ++ e.exo, 0 ≤ i ∧ i < (ne + nx : Nat)) →
    ∃ s, s.i1 = i1 ∧ s.i2 = i2 ∧ s.i3 = i3 ∧ FedBy S items pos big tiny ne nx (s, l) := by
  intro l hl
  suffices h : ∃ s, feed S items (pos i1) l (newSumm items big tiny ne nx i1 i2 i3) = .ok s by
    obtain ⟨s, hs⟩ := h
    obtain ⟨a, b, c⟩ := feed_index hs
    refine ⟨s, a, b, c, ?_⟩
    unfold FedBy
    rw [a, b, c]; exact hs
  induction l using List.reverseRecOn with
  | nil => exact ⟨_, rfl⟩
  | append_singleton l p ih =>
    obtain ⟨s, hs⟩ := ih fun hk e he => hl hk e (by rw [models_append]; simp [he])
    have app : ∀ (a : List (Bool × Est)) (t : Summ), feed S items (pos i1) (a ++ [p]) t = feed S items (pos i1) a t >>= fun t => push S items (pos i1) p.1 t p.2 := by
      intro a
      induction a with
      | nil =>
        intro t
        show (push S items (pos i1) p.1 t p.2 >>= fun t => Outcome.ok t) = push S items (pos i1) p.1 t p.2
        cases push S items (pos i1) p.1 t p.2 <;> rfl
      | cons q a ih =>
        intro t
        simp only [List.cons_append, feed]
        cases push S items (pos i1) q.1 t q.2 with
        | ok t' => exact ih t'
        | throws => rfl
        | ub => rfl
        | diverges => rfl
    rw [app, hs]
    obtain ⟨a, b, c⟩ := feed_index hs
    have hf : FedBy S items pos big tiny ne nx (s, l) := by unfold FedBy; rw [a, b, c]; exact hs
    obtain ⟨h1, h2, -⟩ := C118_accepts (S := S) (p := (s, l)) hf p.2
    obtain ⟨b, e⟩ := p
    rw [show (s, l).1.i1 = i1 from a] at h1 h2
    cases b
    · exact h1
    · refine h2.2 fun hk i hi => ?_
      exact hl hk e (by rw [models_append]; simp [models]) i hi

end

/-! ## A concrete search -/

/-- Everything is kept. -/
noncomputable def exItems : Items := ⟨2, true, true, true, [0, 1], 2⟩

/-- The first searcher estimates two models, the second one. -/
noncomputable def exHist : List (Bool × Est) := [(false, ⟨3, 2, some 1, some 4, [0], [1], []⟩), (false, ⟨5, 1, some 4, none, [0], [2], []⟩)]

/-- The second searcher. -/
noncomputable def exHist' : List (Bool × Est) := [(false, ⟨4, 1, some (-2), some 1, [0], [1, 2], []⟩)]

/-- Two searchers with three estimates, one of them without a variance: all the conditions of the theorems are met. -/
theorem C118_example (S : Fns) (hS : S.Good) : ∃ s s' r r', s.i1 = 0 ∧ s'.i1 = 0 ∧
    FedBy S exItems (fun _ => false) 10 1 1 2 (s, exHist) ∧ FedBy S exItems (fun _ => false) 10 1 1 2 (s', exHist') ∧
    combineMixture 0 0 0 [s, s'] = .ok r ∧ r.count = 2 ∧ r.sumW = 3 ∧ r.getMean = some 0 ∧ r.getVariance = some 5 ∧
    combineCdfAt 0 0 0 1 [s, s'] = .ok r' ∧ ∃ c, r'.getMean = some c ∧ IntUpTo (mixed [⟨2, 1, 4⟩, ⟨1, -2, 1⟩]) 1 c ∧ 0 ≤ c ∧ c ≤ 1 := by
  obtain ⟨s, a1, a2, a3, a4⟩ := C118_total (S := S) (items := exItems) (pos := fun _ => false) (big := 10) (tiny := 1) (ne := 1) (nx := 2) 0 0 0 exHist
    (fun _ e he => by simp [models, exHist] at he)
  obtain ⟨s', b1, b2, b3, b4⟩ := C118_total (S := S) (items := exItems) (pos := fun _ => false) (big := 10) (tiny := 1) (ne := 1) (nx := 2) 0 0 0 exHist'
    (fun _ e he => by simp [models, exHist'] at he)
  have hf : ∀ p ∈ [(s, exHist), (s', exHist')], FedBy S exItems (fun _ => false) 10 1 1 2 p := by
    intro p hp
    simp at hp
    rcases hp with rfl | rfl
    · exact a4
    · exact b4
  have hc : collected 0 0 0 [(s, exHist), (s', exHist')] = exHist ++ exHist' := by
    simp [collected, a1, a2, a3, b1, b2, b3]
  have hp : parts (exHist ++ exHist') = [⟨2, 1, 4⟩, ⟨1, -2, 1⟩] := by
    simp [parts, estimates, exHist, exHist', partOf, List.filterMap]
  obtain ⟨r, r1, r2, -, r3⟩ := C118_mixture (S := S) (hk := rfl) 0 0 0 [(s, exHist), (s', exHist')] (by simp) hf
  rw [hc, hp] at r2 r3
  obtain ⟨r4, m, v, r5, r6, r7, r8, -⟩ := r3 (by simp)
  obtain ⟨r', q1, -, -, q2⟩ := C118_probability (S := S) hS 0 0 0 1 1 (items := exItems) rfl [(s, exHist), (s', exHist')] (by simp) hf
    (by
      rw [hc]
      intro e he
      simp [estimates, exHist, exHist'] at he
      rcases he with rfl | rfl | rfl <;> simp)
  rw [hc, hp] at q2
  obtain ⟨c, c1, c2, c3⟩ := q2 (by simp)
  have hm : m = 0 := by rw [r7]; norm_num
  refine ⟨s, s', r, r', a1, b1, a4, b4, r1, by rw [r2]; rfl, by rw [r4]; norm_num, by rw [r5, hm], ?_, q1, c, c1, c2, c3⟩
  rw [r6, r8, hm]; norm_num

end Srch
end LDT
