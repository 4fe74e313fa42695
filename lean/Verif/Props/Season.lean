import Verif.Lemmas.Season
/-!
# C82: `Descriptive::SeasonalDecompositionMa`
-/
namespace LDT
namespace De
open Mx Stat
open Arr (Val)

section
variable {K : Type} [Field K] [DecidableEq K]

/-! ## Specification -/

/-- The series without the trend; not a number where the trend is none. -/
def detrended (multiplicative : Bool) (xs : List K) (t : Nat → Val K) (i : Nat) : Val K :=
  (t i).bind (fun y => if multiplicative then (if y = 0 then none else some (xs.getD i 0 / y)) else some (xs.getD i 0 - y))

/-- The averages of the seasons. -/
def averages (d : Nat → Val K) (p T : Nat) : List K := (List.range p).map (fun f => mean (seasonNums d p f T))

/-- The vectors of a call: the series, the coefficients, and storages of the right lengths. -/
structure Call (x trend seasonal resid means coefs : Mat (Val K)) (xs cs : List K) (p : Nat) : Prop where
  series : IsCells x (xs.map some)
  coefs : IsCells coefs (cs.map some)
  nonempty : cs ≠ []
  seasons : 0 < p
  wt : trend.Wf
  ws : seasonal.Wf
  wr : resid.Wf
  wm : means.Wf
  lt : trend.length = xs.length
  ls : seasonal.length = xs.length
  lr : resid.length = xs.length
  lm : means.length = p

/-! ## Proofs -/

theorem exists_season {p a f : Nat} (hf : f < p) : ∃ j, a ≤ j ∧ j < a + p ∧ j % p = f := by
  have h1 := Nat.div_add_mod a p
  have h2 := Nat.mod_lt a (show 0 < p by omega)
  by_cases h : a % p ≤ f
  · refine ⟨p * (a / p) + f, by omega, by omega, ?_⟩
    rw [Nat.mul_add_mod]; exact Nat.mod_eq_of_lt hf
  · refine ⟨p * (a / p + 1) + f, by rw [Nat.mul_add]; omega, by rw [Nat.mul_add]; omega, ?_⟩
    rw [Nat.mul_add_mod]; exact Nat.mod_eq_of_lt hf

theorem mem_seasonNums {d : Nat → Val K} {p f T : Nat} {v : K} :
    v ∈ seasonNums d p f T ↔ ∃ j, j < T ∧ j % p = f ∧ d j = some v := by
  unfold seasonNums
  simp only [List.mem_filterMap, List.mem_filter, List.mem_range, beq_iff_eq, and_assoc]

variable [CharZero K]

theorem seasonAvg_eq (d : Nat → Val K) (p T f : Nat) :
    seasonAvg d p T f = if seasonNums d p f T = [] then none else some (mean (seasonNums d p f T)) := by
  unfold seasonAvg vint
  rw [vdiv_some]
  by_cases h : seasonNums d p f T = []
  · rw [if_pos h, h]; simp
  · have : (((seasonNums d p f T).length : Int) : K) ≠ 0 := by
      push_cast
      rw [Nat.cast_ne_zero]
      exact fun hc => h (List.length_eq_zero_iff.1 hc)
    rw [if_neg h, if_neg this]
    unfold mean
    push_cast; rfl

theorem avg_list (d : Nat → Val K) (p T : Nat) (h : ∀ f, f < p → seasonNums d p f T ≠ []) :
    (List.range p).map (seasonAvg d p T) = (averages d p T).map some := by
  unfold averages
  rw [List.map_map]
  apply List.map_congr_left
  intro f hf
  rw [List.mem_range] at hf
  rw [seasonAvg_eq, if_neg (h f hf)]; rfl

theorem none_sum (xs : List (Val K)) : ∀ (s : Val K) (i : Int), (s = none ∨ none ∈ xs) →
    foldPos (fun s _ d => vadd s d) s xs i = none := by
  induction xs with
  | nil => intro s i h; simpa [foldPos] using h
  | cons x t ih =>
    intro s i h
    simp only [foldPos]
    apply ih
    rcases h with h | h
    · left; rw [h]; rfl
    · rcases List.mem_cons.1 h with h | h
      · left; rw [← h]; simp
      · exact .inr h

theorem detrended_eq (multiplicative : Bool) (xs : List K) (t : Nat → Val K) (i : Nat) :
    (if multiplicative then vdiv else vsub) (some (xs.getD i 0)) (t i) = detrended multiplicative xs t i := by
  unfold detrended
  cases h : t i with
  | none => cases multiplicative <;> simp
  | some y => cases multiplicative <;> simp [vdiv_some]

theorem sum_map_sub (l : List K) (m : K) : (l.map (fun a => a - m)).sum = l.sum - l.length * m := by
  induction l with
  | nil => simp
  | cons a t ih => simp only [List.map_cons, List.sum_cons, ih, List.length_cons]; push_cast; ring

theorem sum_map_div (l : List K) (m : K) : (l.map (fun a => a / m)).sum = l.sum / m := by
  induction l with
  | nil => simp
  | cons a t ih => simp only [List.map_cons, List.sum_cons, ih]; ring

/-- **C82**, the trend and the period: the trend is the moving average, and the seasonal part repeats the cells of
`storage_means`, in both versions. -/
theorem C82_periodic (x trend seasonal resid means coefs : Mat (Val K)) (xs cs : List K) (p : Nat)
    (hc : Call x trend seasonal resid means coefs xs cs p) (multiplicative doResid centred : Bool) :
    ∃ res, seasonalDecompositionMa x trend seasonal resid means (some coefs) p multiplicative doResid centred = .ok res ∧
      (∀ i : Nat, i < xs.length →
        res.trend.getLin i = .ok (movingAverage cs xs (ahead centred cs.length) i) ∧
        res.seasonal.getLin i = res.means.getLin (i % p : Nat)) ∧
      (∀ i : Nat, i + p < xs.length → res.seasonal.getLin (i + p : Nat) = res.seasonal.getLin i) ∧
      (doResid = false → res.resid = resid) := by
  obtain ⟨res, e, s1, s2, s3, s4, r1, r2, r3, r4, -⟩ := decomposition_core x trend seasonal resid means coefs xs cs p
    multiplicative doResid centred hc.series hc.coefs hc.nonempty hc.seasons hc.wt hc.ws hc.wr hc.wm hc.lt hc.ls hc.lr
    hc.lm
  have hp := hc.seasons
  have gs : ∀ i : Nat, i < xs.length → res.seasonal.getLin i = read res.seasonal.mem i := fun i hi =>
    getLin_eq (s2.wf hc.ws) (by omega) (by rw [SameShape.length s2, hc.ls]; omega)
  refine ⟨res, e, fun i hi => ⟨?_, ?_⟩, fun i hi => ?_, r4⟩
  · rw [getLin_eq (s1.wf hc.wt) (by omega) (by rw [SameShape.length s1, hc.lt]; omega), r1 i hi]
  · have hlt := Nat.mod_lt i hp
    rw [gs i hi, r3 i hi, getLin_eq (s4.wf hc.wm) (by omega) (by rw [SameShape.length s4, hc.lm]; omega), r2 (i % p) hlt]
  · rw [gs (i + p) hi, gs i (by omega), r3 (i + p) hi, r3 i (by omega), Nat.add_mod_right]

/-- Enough data: every season has a number without trend. -/
theorem seasons_observed (cs xs : List K) (p : Nat) (hne : cs ≠ []) (centred : Bool) (h : cs.length + p ≤ xs.length + 1)
    (multiplicative : Bool)
    (h0 : multiplicative = true → ∀ i, movingAverage cs xs (ahead centred cs.length) i ≠ some 0) :
    ∀ f, f < p → seasonNums (detrended multiplicative xs (movingAverage cs xs (ahead centred cs.length))) p f xs.length
      ≠ [] := by
  intro f hf
  have hk : 0 < cs.length := List.length_pos_iff.2 hne
  have hb : ahead centred cs.length + 1 ≤ cs.length := by
    unfold ahead; cases centred <;> simp <;> omega
  obtain ⟨j, j1, j2, j3⟩ := exists_season (a := cs.length - 1 - ahead centred cs.length) hf
  have hs : ∃ y, movingAverage cs xs (ahead centred cs.length) j = some y := by
    unfold movingAverage; rw [if_pos (by omega)]; exact ⟨_, rfl⟩
  obtain ⟨y, hy⟩ := hs
  have hd : ∃ v, detrended multiplicative xs (movingAverage cs xs (ahead centred cs.length)) j = some v := by
    unfold detrended
    rw [hy, Option.bind_some]
    cases hm : multiplicative with
    | false => exact ⟨xs.getD j 0 - y, by simp⟩
    | true =>
      have : y ≠ 0 := by rintro rfl; exact h0 hm j hy
      exact ⟨xs.getD j 0 / y, by simp [this]⟩
  obtain ⟨v, hv⟩ := hd
  exact List.ne_nil_of_mem (mem_seasonNums.2 ⟨j, by omega, j3, hv⟩)

/-- **C82**, the additive version with enough data (at least one period with a trend): the seasonal part of a season is the
average of that season of the series without trend, minus the average of these averages; it sums to zero over a period;
and trend, seasonal part and residual add up to the series wherever there is a trend. -/
theorem C82_additive (x trend seasonal resid means coefs : Mat (Val K)) (xs cs : List K) (p : Nat)
    (hc : Call x trend seasonal resid means coefs xs cs p) (doResid centred : Bool)
    (hlen : cs.length + p ≤ xs.length + 1) :
    let t := movingAverage cs xs (ahead centred cs.length)
    let d := detrended false xs t
    let av := averages d p xs.length
    ∃ res, seasonalDecompositionMa x trend seasonal resid means (some coefs) p false doResid centred = .ok res ∧
      (∀ f : Nat, f < p → res.means.getLin f = .ok (some (mean (seasonNums d p f xs.length) - mean av))) ∧
      (∀ i : Nat, i < xs.length →
        res.seasonal.getLin i = .ok (some (mean (seasonNums d p (i % p) xs.length) - mean av))) ∧
      ((List.range p).map (fun f => mean (seasonNums d p f xs.length) - mean av)).sum = 0 ∧
      (doResid = true → ∀ i : Nat, i < xs.length →
        (t i = none → res.resid.getLin i = .ok none) ∧
        (∀ y, t i = some y → ∃ r s, res.seasonal.getLin i = .ok (some s) ∧ res.resid.getLin i = .ok (some r) ∧
          xs.getD i 0 = y + s + r)) := by
  intro t d av
  obtain ⟨res, e, s1, s2, s3, s4, r1, r2, r3, r4, r5⟩ := decomposition_core x trend seasonal resid means coefs xs cs p
    false doResid centred hc.series hc.coefs hc.nonempty hc.seasons hc.wt hc.ws hc.wr hc.wm hc.lt hc.ls hc.lr
    hc.lm
  have hp := hc.seasons
  have p0 : (p : K) ≠ 0 := by rw [Nat.cast_ne_zero]; omega
  have hd : (fun i => (if false = true then vdiv else vsub) (some (xs.getD i 0)) (t i)) = d :=
    funext (detrended_eq false xs t)
  have hobs := seasons_observed cs xs p hc.nonempty centred hlen false (by simp)
  have hav : (av.length : K) = p := by simp [av, averages]
  have hg : ∀ f, f < p → (if false = true then vdiv else vsub) (seasonAvg d p xs.length f)
      (vdiv (foldPos (fun s _ d => vadd s d) (some 0) ((List.range p).map (seasonAvg d p xs.length)) 0) (vint (p : Int))) =
      some (mean (seasonNums d p f xs.length) - mean av) := by
    intro f hf
    rw [avg_list d p xs.length hobs, sumFold, zero_add, seasonAvg_eq, if_neg (hobs f hf)]
    unfold vint
    push_cast
    rw [vdiv_some, if_neg p0]
    simp only [Bool.false_eq_true, if_false, vsub_some, Option.some.injEq]
    congr 1
    unfold mean
    rw [hav]
  simp only [show movingAverage cs xs (ahead centred cs.length) = t from rfl] at r1 r2 r3 r5
  simp only [hd] at r2 r3
  have r2' : ∀ f : Nat, f < p → res.means.getLin f = .ok (some (mean (seasonNums d p f xs.length) - mean av)) := by
    intro f hf
    rw [getLin_eq (s4.wf hc.wm) (by omega) (by rw [SameShape.length s4, hc.lm]; omega), r2 f hf, hg f hf]
  have r3' : ∀ i : Nat, i < xs.length →
      res.seasonal.getLin i = .ok (some (mean (seasonNums d p (i % p) xs.length) - mean av)) := by
    intro i hi
    rw [getLin_eq (s2.wf hc.ws) (by omega) (by rw [SameShape.length s2, hc.ls]; omega), r3 i hi,
      hg (i % p) (Nat.mod_lt i hp)]
  refine ⟨res, e, r2', r3', ?_, ?_⟩
  · have : (List.range p).map (fun f => mean (seasonNums d p f xs.length) - mean av) = av.map (fun a => a - mean av) := by
      simp only [av, averages, List.map_map]; rfl
    rw [this, sum_map_sub, sum_eq av]; ring
  · intro hdr i hi
    have hr := r5 hdr i hi
    simp only [hd] at hr
    rw [hg (i % p) (Nat.mod_lt i hp)] at hr
    simp only [Bool.false_eq_true, if_false] at hr
    have hgl : res.resid.getLin i = read res.resid.mem i :=
      getLin_eq (s3.wf hc.wr) (by omega) (by rw [SameShape.length s3, hc.lr]; omega)
    constructor
    · intro hn
      rw [hgl, hr, hn]; rfl
    · intro y hy
      rw [hgl, hr, hy]
      exact ⟨_, _, r3' i hi, rfl, by ring⟩

/-- **C82**, the multiplicative version with enough data and a trend without a zero: the averages of the seasons are divided
by their average, so that they average one; and the series is the product of the three parts. -/
theorem C82_multiplicative (x trend seasonal resid means coefs : Mat (Val K)) (xs cs : List K) (p : Nat)
    (hc : Call x trend seasonal resid means coefs xs cs p) (doResid centred : Bool)
    (hlen : cs.length + p ≤ xs.length + 1)
    (h0 : ∀ i, movingAverage cs xs (ahead centred cs.length) i ≠ some 0)
    (hm0 : mean (averages (detrended true xs (movingAverage cs xs (ahead centred cs.length))) p xs.length) ≠ 0) :
    let t := movingAverage cs xs (ahead centred cs.length)
    let d := detrended true xs t
    let av := averages d p xs.length
    ∃ res, seasonalDecompositionMa x trend seasonal resid means (some coefs) p true doResid centred = .ok res ∧
      (∀ f : Nat, f < p → res.means.getLin f = .ok (some (mean (seasonNums d p f xs.length) / mean av))) ∧
      (∀ i : Nat, i < xs.length →
        res.seasonal.getLin i = .ok (some (mean (seasonNums d p (i % p) xs.length) / mean av))) ∧
      ((List.range p).map (fun f => mean (seasonNums d p f xs.length) / mean av)).sum = p ∧
      (doResid = true → ∀ i : Nat, i < xs.length →
        (t i = none → res.resid.getLin i = .ok none) ∧
        (∀ y, t i = some y → mean (seasonNums d p (i % p) xs.length) ≠ 0 →
          ∃ r s, res.seasonal.getLin i = .ok (some s) ∧ res.resid.getLin i = .ok (some r) ∧
          xs.getD i 0 = y * s * r)) := by
  intro t d av
  obtain ⟨res, e, s1, s2, s3, s4, r1, r2, r3, r4, r5⟩ := decomposition_core x trend seasonal resid means coefs xs cs p
    true doResid centred hc.series hc.coefs hc.nonempty hc.seasons hc.wt hc.ws hc.wr hc.wm hc.lt hc.ls hc.lr
    hc.lm
  have hp := hc.seasons
  have p0 : (p : K) ≠ 0 := by rw [Nat.cast_ne_zero]; omega
  have hd : (fun i => vdiv (some (xs.getD i 0)) (t i)) = d :=
    funext (detrended_eq true xs t)
  have hobs := seasons_observed cs xs p hc.nonempty centred hlen true (fun _ => h0)
  have hav : (av.length : K) = p := by simp [av, averages]
  have hm0' : mean av ≠ 0 := hm0
  have hg : ∀ f, f < p → vdiv (seasonAvg d p xs.length f)
      (vdiv (foldPos (fun s _ d => vadd s d) (some 0) ((List.range p).map (seasonAvg d p xs.length)) 0) (vint (p : Int))) =
      some (mean (seasonNums d p f xs.length) / mean av) := by
    intro f hf
    rw [avg_list d p xs.length hobs, sumFold, zero_add, seasonAvg_eq, if_neg (hobs f hf)]
    unfold vint
    push_cast
    rw [vdiv_some, if_neg p0]
    have : (averages d p xs.length).sum / (p : K) = mean av := by unfold mean; rw [hav]
    rw [this]
    simp only [vdiv_some, if_neg hm0']
  simp only [show movingAverage cs xs (ahead centred cs.length) = t from rfl, if_true] at r1 r2 r3 r5
  simp only [hd] at r2 r3
  have r2' : ∀ f : Nat, f < p → res.means.getLin f = .ok (some (mean (seasonNums d p f xs.length) / mean av)) := by
    intro f hf
    rw [getLin_eq (s4.wf hc.wm) (by omega) (by rw [SameShape.length s4, hc.lm]; omega), r2 f hf, hg f hf]
  have r3' : ∀ i : Nat, i < xs.length →
      res.seasonal.getLin i = .ok (some (mean (seasonNums d p (i % p) xs.length) / mean av)) := by
    intro i hi
    rw [getLin_eq (s2.wf hc.ws) (by omega) (by rw [SameShape.length s2, hc.ls]; omega), r3 i hi,
      hg (i % p) (Nat.mod_lt i hp)]
  refine ⟨res, e, r2', r3', ?_, ?_⟩
  · have : (List.range p).map (fun f => mean (seasonNums d p f xs.length) / mean av) = av.map (fun a => a / mean av) := by
      simp only [av, averages, List.map_map]; rfl
    rw [this, sum_map_div, sum_eq av, hav]; field_simp
  · intro hdr i hi
    have hr := r5 hdr i hi
    simp only [hd] at hr
    rw [hg (i % p) (Nat.mod_lt i hp)] at hr
    have hgl : res.resid.getLin i = read res.resid.mem i :=
      getLin_eq (s3.wf hc.wr) (by omega) (by rw [SameShape.length s3, hc.lr]; omega)
    constructor
    · intro hn
      rw [hgl, hr, hn]; rfl
    · intro y hy hs0
      have hy0 : y ≠ 0 := by rintro rfl; exact h0 i hy
      have hsne : mean (seasonNums d p (i % p) xs.length) / mean av ≠ 0 := div_ne_zero hs0 hm0'
      rw [hgl, hr, hy]
      simp only [vdiv_some, if_neg hy0, if_neg hsne]
      exact ⟨_, _, r3' i hi, rfl, by field_simp⟩

/-- **C82**, too little data: when a season has no number without trend, the whole seasonal part and all the residuals are
NaN, also those of the other seasons. -/
theorem C82_unobserved (x trend seasonal resid means coefs : Mat (Val K)) (xs cs : List K) (p : Nat)
    (hc : Call x trend seasonal resid means coefs xs cs p) (multiplicative doResid centred : Bool) (f : Nat) (hf : f < p)
    (hno : seasonNums (detrended multiplicative xs (movingAverage cs xs (ahead centred cs.length))) p f xs.length = []) :
    ∃ res, seasonalDecompositionMa x trend seasonal resid means (some coefs) p multiplicative doResid centred = .ok res ∧
      ∀ i : Nat, i < xs.length → res.seasonal.getLin i = .ok none ∧ (doResid = true → res.resid.getLin i = .ok none) := by
  obtain ⟨res, e, s1, s2, s3, s4, r1, r2, r3, r4, r5⟩ := decomposition_core x trend seasonal resid means coefs xs cs p
    multiplicative doResid centred hc.series hc.coefs hc.nonempty hc.seasons hc.wt hc.ws hc.wr hc.wm hc.lt hc.ls hc.lr
    hc.lm
  have hd : (fun i => (if multiplicative then vdiv else vsub) (some (xs.getD i 0))
      (movingAverage cs xs (ahead centred cs.length) i)) =
      detrended multiplicative xs (movingAverage cs xs (ahead centred cs.length)) :=
    funext (detrended_eq multiplicative xs _)
  have hz : foldPos (fun s _ d => vadd s d) (some 0) ((List.range p).map (seasonAvg (detrended multiplicative xs
      (movingAverage cs xs (ahead centred cs.length))) p xs.length)) 0 = none := by
    apply none_sum
    right
    rw [List.mem_map]
    exact ⟨f, List.mem_range.2 hf, by rw [seasonAvg_eq, if_pos hno]⟩
  refine ⟨res, e, fun i hi => ⟨?_, fun hdr => ?_⟩⟩
  · rw [getLin_eq (s2.wf hc.ws) (by omega) (by rw [SameShape.length s2, hc.ls]; omega), r3 i hi]
    simp only [hd, hz]
    cases multiplicative <;> simp
  · rw [getLin_eq (s3.wf hc.wr) (by omega) (by rw [SameShape.length s3, hc.lr]; omega), r5 hdr i hi]
    simp only [hd, hz]
    cases multiplicative <;> simp

/-- **C82**, what is refused: no coefficients (the documented default is not implemented), a trend storage that is too
short. -/
theorem C82_refused (x trend seasonal resid means coefs : Mat (Val K)) (p : Int) (multiplicative doResid centred : Bool) :
    seasonalDecompositionMa x trend seasonal resid means none p multiplicative doResid centred = .throws ∧
    (trend.length < x.length →
      seasonalDecompositionMa x trend seasonal resid means (some coefs) p multiplicative doResid centred = .throws) := by
  refine ⟨rfl, fun h => ?_⟩
  unfold seasonalDecompositionMa
  show (filterMa x coefs centred trend >>= _) = _
  rw [C81_average_refused x coefs trend h]
  rfl

end

/-! ## Non-vacuity -/

/-- An empty storage. -/
def exStore (n : Nat) : Mat (Val ℚ) := exVec (List.replicate n none)

example : seasonalDecompositionMa (exVec [some (1 : ℚ), some 5, some 3, some 7, some 5]) (exStore 5) (exStore 5) (exStore 5)
    (exStore 2) (some (exVec [some (1 / 4), some (1 / 2), some (1 / 4)])) 2 false true true =
    .ok ⟨exVec [none, some (7 / 2), some (9 / 2), some (11 / 2), none], exVec [some (-3 / 2), some (3 / 2), some (-3 / 2),
      some (3 / 2), some (-3 / 2)], exVec [none, some 0, some 0, some 0, none], exVec [some (-3 / 2), some (3 / 2)]⟩ := by
  decide +kernel

theorem exVec_wf {K : Type} (l : List (Val K)) : (exVec l).Wf :=
  ⟨by simp [exVec], by simp [exVec], rfl, by simp [exVec, Mat.mem]⟩

example : Call (exVec (([1, 5, 3, 7, 5] : List ℚ).map some)) (exStore 5) (exStore 5) (exStore 5) (exStore 2)
    (exVec (([1 / 4, 1 / 2, 1 / 4] : List ℚ).map some)) [1, 5, 3, 7, 5] [1 / 4, 1 / 2, 1 / 4] 2 ∧
    ([1 / 4, 1 / 2, 1 / 4] : List ℚ).length + 2 ≤ ([1, 5, 3, 7, 5] : List ℚ).length + 1 :=
  ⟨⟨exVec_cells _, exVec_cells _, by simp, by simp, exVec_wf _, exVec_wf _, exVec_wf _, exVec_wf _, rfl, rfl, rfl, rfl⟩,
    by simp⟩

end De
end LDT
