import Verif.Lemmas.Moments
import Mathlib.Algebra.Order.Field.Basic
import Mathlib.Algebra.Order.Field.Rat
import Mathlib.Algebra.Order.BigOperators.Group.List
import Mathlib.Data.Real.Sqrt
/-!
# C15 running moments = batch moments, C16 merging; C40 mean and variance

Specification: `wsum` (Σ w), `wmean` (Σ w x / Σ w), `wcentral k` (Σ w (x - mean)^k) of
`Verif.Lemmas.Moments`.
-/
namespace LDT
namespace Arr

section
variable {K : Type} [Field K] [DecidableEq K]

/-- Pushing a sequence of (possibly missing value, weight) pairs. -/
def pushAll (isWeighted skipNAN : Bool) (r : RM K) (l : List (Val K × K)) : RM K :=
  l.foldl (fun r p => r.push isWeighted skipNAN p.1 p.2) r

/-- The observed (value, weight) pairs of a sequence; all weights are one for the unweighted version. -/
def observed (isWeighted : Bool) (l : List (Val K × K)) : List (K × K) :=
  l.filterMap (fun p => p.1.map (fun x => (x, if isWeighted then p.2 else 1)))

/-- No non-empty initial part of the sample has weight zero (holds for positive weights). -/
def PrefixOK (l : List (K × K)) : Prop := ∀ n, 0 < n → n ≤ l.length → wsum (l.take n) ≠ 0

theorem pushAll_rep (isW : Bool) (l : List (Val K × K)) : ∀ (p : List (K × K)) (r : RM K) (m : Mom K),
    r.mom = some m → Rep p r.sumW m → r.count = p.length → PrefixOK (p ++ observed isW l) →
    ∃ m', (pushAll isW true r l).mom = some m' ∧ Rep (p ++ observed isW l) (pushAll isW true r l).sumW m' ∧
      (pushAll isW true r l).count = (p ++ observed isW l).length := by
  induction l with
  | nil => intro p r m h1 h2 h3 _; exact ⟨m, h1, by simpa [observed, pushAll] using h2, by simp [observed, pushAll, h3]⟩
  | cons v l ih =>
    intro p r m h1 h2 h3 h4
    obtain ⟨x, w⟩ := v
    cases x with
    | none =>
      have e : observed isW ((none, w) :: l) = observed isW l := by simp [observed]
      rw [e] at h4 ⊢
      have := ih p r m h1 h2 h3 h4
      simpa [pushAll, RM.push] using this
    | some x =>
      have e : observed isW ((some x, w) :: l) = (x, if isW then w else 1) :: observed isW l := by simp [observed]
      rw [e] at h4 ⊢
      generalize hw : (if isW = true then w else 1) = w' at *
      have hne : r.sumW + w' ≠ 0 := by
        have := h4 (p.length + 1) (by omega) (by simp)
        rw [List.take_append] at this
        simp only [Nat.add_sub_cancel_left, List.take_succ_cons, List.take_zero] at this
        rw [List.take_of_length_le (by omega), wsum_append, ← h2.hw] at this
        simpa [wsum] using this
      obtain ⟨m', hm', hr'⟩ := rep_update p x w' r.sumW m h2 hne
      have := ih (p ++ [(x, w')]) (r.push isW true (some x) w) m' (by simp [RM.push, hw, h1, hm'])
        (by simpa [RM.push, hw] using hr') (by simp [RM.push, h3]) (by simpa using h4)
      simpa [pushAll] using this

/-- **C15**: after any sequence of pushes (missing values are skipped) the accumulator holds the number,
total weight, mean and central sums of order 2, 3, 4 of the observed sample. -/
theorem C15_running_sums (isW : Bool) (l : List (Val K × K)) (h : PrefixOK (observed isW l)) :
    let r := pushAll isW true RM.empty l
    let s := observed isW l
    r.count = s.length ∧ r.sumW = wsum s ∧
      (s ≠ [] → r.mom = some ⟨wmean s, wcentral 2 s, wcentral 3 s, wcentral 4 s⟩) := by
  intro r s
  obtain ⟨m, h1, h2, h3⟩ := pushAll_rep isW l [] RM.empty ⟨0, 0, 0, 0⟩ rfl (rep_nil 0) rfl (by simpa using h)
  simp only [List.nil_append] at h2 h3
  refine ⟨h3, h2.hw, fun hs => ?_⟩
  have hw : r.sumW ≠ 0 := by
    rw [show r.sumW = wsum s from h2.hw]
    have := h s.length (List.length_pos_iff.2 hs) (Nat.le_refl _)
    rwa [List.take_of_length_le (Nat.le_refl _)] at this
  rw [show r.mom = some m from h1, rep_unique h2 hw]

/-- **C15**: mean and variance reported. -/
theorem C15_mean_variance (isW : Bool) (l : List (Val K × K)) (h : PrefixOK (observed isW l))
    (hne : observed isW l ≠ []) :
    let r := pushAll isW true RM.empty l
    let s := observed isW l
    r.getMean = some (wmean s) ∧ r.getVariance = some (wcentral 2 s / wsum s) := by
  obtain ⟨h1, h2, h3⟩ := C15_running_sums isW l h
  intro r s
  have hw : r.sumW ≠ 0 := by
    rw [show r.sumW = wsum s from h2]
    have := h s.length (List.length_pos_iff.2 hne) (Nat.le_refl _)
    rwa [List.take_of_length_le (Nat.le_refl _)] at this
  unfold RM.getMean RM.getVariance
  rw [if_neg hw, if_neg hw, show r.mom = _ from h3 hne, show r.sumW = wsum s from h2]
  exact ⟨rfl, rfl⟩

/-- Without skipping, one missing value makes every statistic missing, for good. -/
theorem C15_noskip_poison (isW : Bool) (l : List (Val K × K)) (h : ∃ p ∈ l, p.1 = none) :
    (pushAll isW false RM.empty l).getMean = none ∧ (pushAll isW false RM.empty l).getVariance = none := by
  have hp : ∀ (l : List (Val K × K)) (r : RM K), r.mom = none → (pushAll isW false r l).mom = none := by
    intro l
    induction l with
    | nil => intro r h; exact h
    | cons p l ih =>
      intro r h
      obtain ⟨x, w⟩ := p
      exact ih _ (by cases x <;> simp [RM.push, h])
  have hq : ∀ (l : List (Val K × K)) (r : RM K), (∃ p ∈ l, p.1 = none) → (pushAll isW false r l).mom = none := by
    intro l
    induction l with
    | nil => intro r h; simp at h
    | cons p l ih =>
      intro r h
      by_cases hx : p.1 = none
      · exact hp l _ (by simp [RM.push, hx])
      · exact ih _ (by
          obtain ⟨q, hq1, hq2⟩ := h
          rcases List.mem_cons.1 hq1 with e | e
          · subst e; exact absurd hq2 hx
          · exact ⟨q, e, hq2⟩)
  unfold RM.getMean RM.getVariance
  rw [hq l _ h]
  constructor <;> split <;> rfl

/-- An observation of weight zero pushed first destroys the accumulator: whatever is pushed later, the
mean is reported missing. -/
theorem C15_violated_zero_weight_first (x : K) (l : List (Val K × K)) :
    (pushAll true true RM.empty ((some x, 0) :: l)).getMean = none := by
  have hp : ∀ (l : List (Val K × K)) (r : RM K), r.mom = none → (pushAll true true r l).mom = none := by
    intro l
    induction l with
    | nil => intro r h; exact h
    | cons p l ih =>
      intro r h
      obtain ⟨x, w⟩ := p
      exact ih _ (by cases x <;> simp [RM.push, h])
  have : (pushAll true true RM.empty ((some x, 0) :: l)).mom = none :=
    hp l _ (by simp [RM.push, RM.empty, update])
  unfold RM.getMean
  rw [this]; split <;> rfl

/-! ## C40: mean and variance of an array -/

theorem momentsLoop_eq (isW skip : Bool) (l : List (Val K × K)) : ∀ r : RM K,
    momentsLoop isW skip l (r.sumW, r.mom) = ((pushAll isW skip r l).sumW, (pushAll isW skip r l).mom) := by
  induction l with
  | nil => intro r; rfl
  | cons p l ih =>
    intro r
    obtain ⟨x, w⟩ := p
    cases x with
    | none =>
      cases skip
      · exact ih (r.push isW false none w)
      · exact ih (r.push isW true none w)
    | some x => exact ih (r.push isW skip (some x) w)

/-- **C40**: with skipping, `Mean` and `Variance` return the (weighted) mean and population variance of the
observed values, if there is one. Partial: with no observed value the code writes through null pointers
(`C40_violated_mean_empty`). -/
theorem C40_mean_variance_partial (isW : Bool) (l : List (Val K × K)) (h : PrefixOK (observed isW l))
    (hne : observed isW l ≠ []) :
    mean isW true l = .ok (some (wmean (observed isW l))) ∧
    variance isW true l = .ok (some (wcentral 2 (observed isW l) / wsum (observed isW l))) := by
  obtain ⟨h1, h2, h3⟩ := C15_running_sums isW l h
  have hw : wsum (observed isW l) ≠ 0 := by
    have := h _ (List.length_pos_iff.2 hne) (Nat.le_refl _)
    rwa [List.take_of_length_le (Nat.le_refl _)] at this
  have e := momentsLoop_eq isW true l RM.empty
  have e' : momentsSum isW true l = (wsum (observed isW l), some ⟨wmean (observed isW l), wcentral 2 (observed isW l),
      wcentral 3 (observed isW l), wcentral 4 (observed isW l)⟩) := by
    rw [momentsSum, show ((0 : K), some (⟨0, 0, 0, 0⟩ : Mom K)) = ((RM.empty : RM K).sumW, (RM.empty : RM K).mom) from rfl,
      e, h2, h3 hne]
  unfold mean variance
  simp only [e', if_neg hw]
  exact ⟨rfl, rfl⟩

/-- Mean and variance of an array without any observed value dereference a null pointer. -/
theorem C40_violated_mean_empty (isW : Bool) (l : List (Val K × K)) (h : ∀ p ∈ l, p.1 = none) :
    mean isW true l = .ub ∧ variance isW true l = .ub := by
  have e : momentsSum isW true l = (0, some ⟨0, 0, 0, 0⟩) := by
    unfold momentsSum
    generalize ((0 : K), some (⟨0, 0, 0, 0⟩ : Mom K)) = s
    induction l generalizing s with
    | nil => rfl
    | cons p l ih =>
      obtain ⟨x, w⟩ := p
      have hx : x = none := h (x, w) (by simp)
      subst hx
      exact ih (fun p hp => h p (by simp [hp])) s
  unfold mean variance
  simp only [e]
  exact ⟨rfl, rfl⟩

end

/-! ## Positive weights -/
section
variable {K : Type} [Field K] [LinearOrder K] [IsStrictOrderedRing K]

theorem wsum_pos (l : List (K × K)) (hne : l ≠ []) (h : ∀ p ∈ l, 0 < p.2) : 0 < wsum l := by
  induction l with
  | nil => exact absurd rfl hne
  | cons p l ih =>
    have hp := h p (by simp)
    have hc : wsum (p :: l) = p.2 + wsum l := by simp [wsum]
    rw [hc]
    by_cases hl : l = []
    · subst hl; simpa [wsum] using hp
    · exact add_pos hp (ih hl (fun q hq => h q (by simp [hq])))

/-- Positive weights meet the condition of the theorems above. -/
theorem prefixOK_of_pos (l : List (K × K)) (h : ∀ p ∈ l, 0 < p.2) : PrefixOK l := by
  intro n hn hl
  apply ne_of_gt
  apply wsum_pos
  · intro e
    have := congrArg List.length e
    rw [List.length_take, List.length_nil] at this; omega
  · intro p hp; exact h p (List.mem_of_mem_take hp)

/-- Unweighted pushes always meet it. -/
theorem prefixOK_unweighted (l : List (Val K × K)) : PrefixOK (observed false l) := by
  apply prefixOK_of_pos
  intro p hp
  simp [observed] at hp
  obtain ⟨x, -, rfl⟩ := hp
  exact one_pos

/-- The accumulator after pushing a sample of positive weights. -/
def run (l : List (K × K)) : RM K := pushAll true true RM.empty (l.map (fun p => (some p.1, p.2)))

theorem observed_some (l : List (K × K)) : observed true (l.map (fun p => (some p.1, p.2))) = l := by
  induction l with
  | nil => rfl
  | cons p l ih => simp [observed]

theorem run_rep (l : List (K × K)) (h : ∀ p ∈ l, 0 < p.2) :
    ∃ m, (run l).mom = some m ∧ Rep l (run l).sumW m ∧ (run l).count = l.length ∧ (l = [] → m = ⟨0, 0, 0, 0⟩) := by
  obtain ⟨m, h1, h2, h3⟩ := pushAll_rep true (l.map (fun p => (some p.1, p.2))) [] RM.empty ⟨0, 0, 0, 0⟩ rfl (rep_nil 0)
    rfl (by rw [List.nil_append, observed_some]; exact prefixOK_of_pos l h)
  rw [List.nil_append, observed_some] at h2 h3
  refine ⟨m, h1, h2, h3, ?_⟩
  rintro rfl
  simp [pushAll, RM.empty] at h1
  exact h1.symm

/-! ## C16 -/

theorem rm_ext (a b : RM K) (h1 : a.count = b.count) (h2 : a.sumW = b.sumW) (h3 : a.mom = b.mom) : a = b := by
  cases a; cases b; simp_all

theorem combine_empty_right (w : K) (a : Mom K) (hw : w ≠ 0) : combine w a 0 ⟨0, 0, 0, 0⟩ = some a := by
  unfold combine
  simp only [add_zero, if_neg hw, Option.some.injEq]
  cases a
  simp only [Mom.mk.injEq]
  refine ⟨?_, ?_, ?_, ?_⟩ <;> field_simp <;> ring

/-- **C16**: merging the accumulators of two samples of positive weights is the accumulator fed with
both samples. -/
theorem C16_merge (skip : Bool) (xs ys : List (K × K)) (hx : ∀ p ∈ xs, 0 < p.2) (hy : ∀ p ∈ ys, 0 < p.2)
    (hne : skip = true ∨ xs ≠ [] ∨ ys ≠ []) :
    RM.combine skip (run ys) (run xs) = run (xs ++ ys) := by
  have hxy : ∀ p ∈ xs ++ ys, 0 < p.2 := fun p hp => (List.mem_append.1 hp).elim (hx p) (hy p)
  obtain ⟨a, a1, a2, a3, a4⟩ := run_rep xs hx
  obtain ⟨b, b1, b2, b3, b4⟩ := run_rep ys hy
  obtain ⟨c, c1, c2, c3, c4⟩ := run_rep (xs ++ ys) hxy
  have hc : (run (xs ++ ys)).sumW = (run xs).sumW + (run ys).sumW := by rw [c2.hw, a2.hw, b2.hw, wsum_append]
  unfold RM.combine
  rw [a1, b1]
  simp only
  by_cases hn : xs ++ ys = []
  · obtain ⟨e1, e2⟩ := List.append_eq_nil_iff.1 hn
    subst e1; subst e2
    have hs : skip = true := by tauto
    subst hs
    have hs0 : (run ([] : List (K × K))).sumW = 0 := rfl
    rw [hs0]
    simp [combine]
  · have hw : (run xs).sumW + (run ys).sumW ≠ 0 := by
      rw [← hc, c2.hw]; exact ne_of_gt (wsum_pos _ hn hxy)
    obtain ⟨m, hm, hr⟩ := rep_combine xs ys _ _ a b a2 b2 hw
    rw [hm]
    simp only
    apply rm_ext
    · simp only [a3, b3, c3, List.length_append]; push_cast; ring
    · simp only [hc]
    · simp only [c1]
      rw [hc] at c2
      rw [rep_unique hr hw, rep_unique c2 hw]

/-- **C16**: the order in which a sample is pushed does not matter. -/
theorem C16_order (xs ys : List (K × K)) (hp : xs.Perm ys) (hx : ∀ p ∈ xs, 0 < p.2) : run xs = run ys := by
  have hy : ∀ p ∈ ys, 0 < p.2 := fun p h => hx p (hp.mem_iff.2 h)
  obtain ⟨a, a1, a2, a3, a4⟩ := run_rep xs hx
  obtain ⟨b, b1, b2, b3, b4⟩ := run_rep ys hy
  have hw : (run xs).sumW = (run ys).sumW := by rw [a2.hw, b2.hw]; exact (hp.map _).sum_eq
  apply rm_ext
  · rw [a3, b3, hp.length_eq]
  · exact hw
  · rw [a1, b1]
    by_cases hn : xs = []
    · subst hn
      have := hp.nil_eq; subst this
      rw [a4 rfl, b4 rfl]
    · have h0 : (run xs).sumW ≠ 0 := by rw [a2.hw]; exact ne_of_gt (wsum_pos _ hn hx)
      have a2' := rep_perm a2 hp
      rw [hw] at a2' h0
      rw [rep_unique a2' h0, rep_unique b2 h0]

/-- A way to divide the work: parts are pushed one by one, accumulators are merged in any nesting. -/
inductive Work (K : Type) where
  | part (xs : List (K × K))
  | merge (a b : Work K)

/-- All observations of the work. -/
def Work.all : Work K → List (K × K)
  | .part xs => xs
  | .merge a b => a.all ++ b.all

/-- The accumulator computed (the receiver of `Combine` is the second one). -/
def Work.eval : Work K → RM K
  | .part xs => run xs
  | .merge a b => RM.combine true b.eval a.eval

/-- **C16**: however the observations are divided over accumulators and in whatever nesting and order these
are merged, the result is the accumulator fed with everything. -/
theorem C16_any_division (t : Work K) (s : List (K × K)) (hp : t.all.Perm s) (h : ∀ p ∈ s, 0 < p.2) :
    t.eval = run s := by
  have key : ∀ t : Work K, (∀ p ∈ t.all, 0 < p.2) → t.eval = run t.all := by
    intro t
    induction t with
    | part xs => intro _; rfl
    | merge a b iha ihb =>
      intro h
      have ha : ∀ p ∈ a.all, 0 < p.2 := fun p hp => h p (List.mem_append.2 (.inl hp))
      have hb : ∀ p ∈ b.all, 0 < p.2 := fun p hp => h p (List.mem_append.2 (.inr hp))
      rw [Work.eval, iha ha, ihb hb, C16_merge true a.all b.all ha hb (.inl rfl)]; rfl
  have ht : ∀ p ∈ t.all, 0 < p.2 := fun p hq => h p (hp.mem_iff.1 hq)
  rw [key t ht, C16_order _ _ hp ht]

/-- **C16**: merging with an accumulator that has not seen anything changes nothing. -/
theorem C16_empty_neutral (xs : List (K × K)) (h : ∀ p ∈ xs, 0 < p.2) :
    RM.combine true (run xs) RM.empty = run xs ∧ RM.combine true RM.empty (run xs) = run xs := by
  have e : (RM.empty : RM K) = run [] := rfl
  rw [e]
  constructor
  · have := C16_merge true [] xs (by simp) h (.inl rfl)
    simpa using this
  · have := C16_merge true xs [] h (by simp) (.inl rfl)
    simpa using this

end

/-- A non-trivial sample, divided in two. -/
example : RM.combine true (run [((4 : Rat), 1)]) (run [(1, 1), (2, 2)]) = run [(1, 1), (2, 2), (4, 1)] ∧
    (run [((1 : Rat), 1), (2, 2), (4, 1)]).getMean = some (9 / 4) := by
  constructor <;> decide +kernel

/-! ## Real statistics -/

/-- **C15**: skewness and (excess) kurtosis reported for a real sample with positive weights and non-zero
variance are the standardized third and fourth central moments (minus 3). -/
theorem C15_skewness_kurtosis (s : List (ℝ × ℝ)) (hne : s ≠ []) (h : ∀ p ∈ s, 0 < p.2) (hv : 0 < wcentral 2 s) :
    (run s).getSkewness = some ((wcentral 3 s / wsum s) / (wcentral 2 s / wsum s) ^ (3 / 2 : ℝ)) ∧
    (run s).getKurtosis = some ((wcentral 4 s / wsum s) / (wcentral 2 s / wsum s) ^ 2 - 3) := by
  obtain ⟨m, m1, m2, -, -⟩ := run_rep s h
  have hW : 0 < wsum s := wsum_pos s hne h
  have hw : (run s).sumW ≠ 0 := by rw [m2.hw]; exact ne_of_gt hW
  rw [rep_unique m2 hw] at m1
  have hs : (run s).sumW = wsum s := m2.hw
  constructor
  · unfold RM.getSkewness
    rw [if_neg hw, m1, hs]
    have p1 : pow15V (wcentral 2 s) = some (wcentral 2 s ^ (3 / 2 : ℝ)) := by
      unfold pow15V; rw [if_neg (not_lt.2 hv.le)]
    have p2 : sqrtV (wsum s) = some (Real.sqrt (wsum s)) := by
      unfold sqrtV; rw [if_neg (not_lt.2 hW.le)]
    have hp : 0 < wcentral 2 s ^ (3 / 2 : ℝ) := Real.rpow_pos_of_pos hv _
    simp only [Option.bind_eq_bind, Option.bind_some, p1, p2, divV]
    rw [if_neg hp.ne']
    congr 1
    rw [Real.div_rpow hv.le hW.le, show (3 / 2 : ℝ) = 1 + 1 / 2 by norm_num, Real.rpow_add hW, Real.rpow_one,
      ← Real.sqrt_eq_rpow]
    have hq : 0 < Real.sqrt (wsum s) := Real.sqrt_pos.2 hW
    rw [show (1 + 1 / 2 : ℝ) = 3 / 2 by norm_num]
    field_simp
  · unfold RM.getKurtosis
    rw [if_neg hw, m1, hs]
    have h2 : wcentral 2 s * wcentral 2 s ≠ 0 := mul_ne_zero hv.ne' hv.ne'
    simp only [Option.bind_eq_bind, Option.bind_some, divV, if_neg h2]
    congr 1
    field_simp

/-- **C16**, merging by summary statistics: combining with the mean, variance, skewness, kurtosis and
weight reported for another sample (with non-zero variance) is the same as pushing that sample.
Partial: a sample with zero variance has no skewness and is silently ignored
(`C16_violated_constant_sample`). -/
theorem C16_merge_statistics_partial (xs ys : List (ℝ × ℝ)) (hne : ys ≠ []) (hx : ∀ p ∈ xs, 0 < p.2)
    (hy : ∀ p ∈ ys, 0 < p.2) (hv : 0 < wcentral 2 ys) :
    (run xs).combineStats 4 (run ys).getMean (run ys).getVariance (run ys).getSkewness (run ys).getKurtosis
      (run ys).sumW (run ys).count = run (ys ++ xs) := by
  obtain ⟨m, m1, m2, -, -⟩ := run_rep ys hy
  have hW : 0 < wsum ys := wsum_pos ys hne hy
  have hs : (run ys).sumW = wsum ys := m2.hw
  have hw : (run ys).sumW ≠ 0 := by rw [hs]; exact hW.ne'
  rw [rep_unique m2 hw] at m1
  obtain ⟨sk, ku⟩ := C15_skewness_kurtosis ys hne hy hv
  have hmean : (run ys).getMean = some (wmean ys) := by
    unfold RM.getMean; rw [if_neg hw, m1]; rfl
  have hvar : (run ys).getVariance = some (wcentral 2 ys / wsum ys) := by
    unfold RM.getVariance; rw [if_neg hw, m1, hs]; rfl
  have hfrom : fromStats 4 (run ys).getMean (run ys).getVariance (run ys).getSkewness (run ys).getKurtosis
      (run ys).sumW = some ⟨wmean ys, wcentral 2 ys, wcentral 3 ys, wcentral 4 ys⟩ := by
    rw [hmean, hvar, sk, ku, hs]
    unfold fromStats
    have e2 : wcentral 2 ys / wsum ys * wsum ys = wcentral 2 ys := div_mul_cancel₀ _ hW.ne'
    have p1 : pow15V (wcentral 2 ys) = some (wcentral 2 ys ^ (3 / 2 : ℝ)) := by
      unfold pow15V; rw [if_neg (not_lt.2 hv.le)]
    have p2 : sqrtV (wsum ys) = some (Real.sqrt (wsum ys)) := by
      unfold sqrtV; rw [if_neg (not_lt.2 hW.le)]
    have hq : 0 < Real.sqrt (wsum ys) := Real.sqrt_pos.2 hW
    have hp : 0 < wcentral 2 ys ^ (3 / 2 : ℝ) := Real.rpow_pos_of_pos hv _
    simp only [Option.bind_eq_bind, Option.bind_some, ge_iff_le, Nat.reduceLeDiff, if_true, Option.map_some, e2, p1, p2,
      divV, if_neg hq.ne', if_neg hW.ne']
    congr 2
    · rw [Real.div_rpow hv.le hW.le, show wsum ys ^ (3 / 2 : ℝ) = wsum ys * Real.sqrt (wsum ys) by
        rw [show (3 / 2 : ℝ) = 1 + 1 / 2 by norm_num, Real.rpow_add hW, Real.rpow_one, ← Real.sqrt_eq_rpow]]
      field_simp
    · field_simp; ring
  unfold RM.combineStats
  rw [hfrom]
  simp only
  rw [← C16_merge true ys xs hy hx (.inl rfl)]
  congr 1
  apply rm_ext
  · rfl
  · rfl
  · exact m1.symm

/-- A sample with zero variance has no finite skewness, and combining by its statistics ignores it for
three or four moments: the result is unchanged although its mean and weight are known. -/
theorem C16_violated_constant_sample (r : RM ℝ) (ys : List (ℝ × ℝ)) (hne : ys ≠ []) (hy : ∀ p ∈ ys, 0 < p.2)
    (hv : wcentral 2 ys = 0) :
    r.combineStats 4 (run ys).getMean (run ys).getVariance (run ys).getSkewness (run ys).getKurtosis
      (run ys).sumW (run ys).count = r := by
  obtain ⟨m, m1, m2, -, -⟩ := run_rep ys hy
  have hW : 0 < wsum ys := wsum_pos ys hne hy
  have hs : (run ys).sumW = wsum ys := m2.hw
  have hw : (run ys).sumW ≠ 0 := by rw [hs]; exact hW.ne'
  rw [rep_unique m2 hw] at m1
  have hsk : (run ys).getSkewness = none := by
    unfold RM.getSkewness
    rw [if_neg hw, m1, hs, hv]
    have p1 : pow15V 0 = some 0 := by
      unfold pow15V; rw [if_neg (lt_irrefl _), Real.zero_rpow (by norm_num)]
    have p2 : sqrtV (wsum ys) = some (Real.sqrt (wsum ys)) := by
      unfold sqrtV; rw [if_neg (not_lt.2 hW.le)]
    simp [p1, p2, divV]
  unfold RM.combineStats
  have : fromStats 4 (run ys).getMean (run ys).getVariance (run ys).getSkewness (run ys).getKurtosis
      (run ys).sumW = none := by
    rw [hsk]
    unfold fromStats
    cases (run ys).getMean with
    | none => rfl
    | some mean =>
      cases (run ys).getVariance with
      | none => rfl
      | some v =>
        simp only [Option.bind_eq_bind, Option.bind_some, ge_iff_le, Nat.reduceLeDiff, if_true, Option.map_some]
        cases pow15V (v * (run ys).sumW) <;> rfl
  rw [this]

/-- The sample `[5, 5]` is such a sample. -/
example : wcentral 2 [((5 : ℝ), (1 : ℝ)), (5, 1)] = 0 := by
  simp [wcentral, csum, wmean, wsum]; norm_num

/-- A sample with positive variance. -/
example : 0 < wcentral 2 [((1 : ℝ), (1 : ℝ)), (3, 1)] := by
  simp [wcentral, csum, wmean, wsum]; norm_num

end Arr
end LDT
