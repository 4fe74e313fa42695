import Verif.Props.DistCdf
/-!
# C104: the listed support of a discrete distribution

`GetPmfSupportSize` counts the possible integers of a window and `GetPmfSupport` lists them with their masses; a window around a bounded
support lists everything, so that the listed masses add up to one.
-/
namespace LDT
namespace Di
open Op

theorem trunc_int (k : ℤ) : trunc (k : ℝ) = k := by
  unfold trunc; split_ifs <;> simp

/-- The integers of the window that are possible. -/
noncomputable def Dist.window (d : Dist) (lo hi : ℤ) : Finset ℤ := (Finset.Icc lo hi).filter fun k : ℤ => d.impossible (k : ℝ) = false

theorem window_size {lo hi : ℤ} (h : lo ≤ hi) : ((Finset.Icc lo hi).card : ℤ) = hi - lo + 1 := by
  rw [Int.card_Icc, Int.toNat_of_nonneg (by omega)]; omega

theorem uniform_window (a b lo hi : ℤ) : (Dist.mk .uniformDis a b).window lo hi = Finset.Icc (max a lo) (min b hi) := by
  ext k
  simp only [Dist.window, Finset.mem_filter, Finset.mem_Icc, Dist.impossible, Dist.minimum, Dist.maximum, Dbl.lt, Bool.or_eq_false_iff, decide_eq_false_iff_not, not_lt,
    Int.cast_le]
  omega

theorem binomial_window (p : ℝ) (n : ℕ) (lo hi : ℤ) : (Dist.mk .binomial p n).window lo hi = Finset.Icc (max 0 lo) (min (n : ℤ) hi) := by
  ext k
  have h1 : (k : ℝ) ≤ n ↔ k ≤ (n : ℤ) := by exact_mod_cast Iff.rfl
  have h2 : (0 : ℝ) ≤ k ↔ 0 ≤ k := by exact_mod_cast Iff.rfl
  simp only [Dist.window, Finset.mem_filter, Finset.mem_Icc, Dist.impossible, Dist.minimum, Dist.maximum, Dbl.lt, Bool.or_eq_false_iff, decide_eq_false_iff_not, not_lt,
    h1, h2]
  omega

/-- Discrete uniform: the size is the number of possible integers in the window, if there is one. -/
theorem C104_size_uniform (a b lo hi : ℤ) (d : Dist) (hd : make .uniformDis a b = .ok d) (hne : (d.window lo hi).Nonempty) :
    d.supportSize lo hi = .ok ((d.window lo hi).card : ℤ) := by
  have := made hd; subst this
  rw [uniform_window] at hne ⊢
  have h : max a lo ≤ min b hi := Finset.nonempty_Icc.mp hne
  rw [window_size h]
  simp only [Dist.supportSize]
  have : min (b : ℝ) hi - max (a : ℝ) lo = ((min b hi - max a lo : ℤ) : ℝ) := by push_cast; rfl
  rw [this, trunc_int]

/-- Binomial: the same. -/
theorem C104_size_binomial (p : ℝ) (n : ℕ) (lo hi : ℤ) (d : Dist) (hd : make .binomial p n = .ok d) (hne : (d.window lo hi).Nonempty) :
    d.supportSize lo hi = .ok ((d.window lo hi).card : ℤ) := by
  have := made hd; subst this
  rw [binomial_window] at hne ⊢
  have h : max 0 lo ≤ min (n : ℤ) hi := Finset.nonempty_Icc.mp hne
  rw [window_size h]
  simp only [Dist.supportSize]
  have : min (n : ℝ) hi - max (0 : ℝ) lo = ((min (n : ℤ) hi - max 0 lo : ℤ) : ℝ) := by push_cast; rfl
  rw [this, trunc_int]

/-- Poisson and geometric: the same for a window of natural numbers. -/
theorem C104_size_unbounded (k : Kind) (hk : k = .poisson ∨ k = .geometric) (p q : ℝ) (lo hi : ℤ) (h0 : 0 ≤ lo) (h1 : lo ≤ hi) (d : Dist) (hd : make k p q = .ok d) :
    d.supportSize lo hi = .ok ((d.window lo hi).card : ℤ) := by
  have := made hd; subst this
  have hw : (Dist.mk k p q).window lo hi = Finset.Icc lo hi := by
    refine Finset.filter_true_of_mem fun j hj => ?_
    have : (0 : ℝ) ≤ j := by have := (Finset.mem_Icc.mp hj).1; exact_mod_cast h0.trans this
    rcases hk with rfl | rfl <;> simp [Dist.impossible, Dist.minimum, Dist.maximum, Dbl.lt] <;> exact_mod_cast this
  rw [hw, window_size h1]
  have : (hi : ℝ) - lo = ((hi - lo : ℤ) : ℝ) := by push_cast; rfl
  rcases hk with rfl | rfl <;> (simp only [Dist.supportSize]; rw [this, trunc_int])

/-- The listed points are the integers from `m` on, each once and in order, with their masses or logarithms. -/
theorem C104_points (d : Dist) (hd : d.isDiscrete = true) (log : Bool) (m : ℤ) (n : ℕ) (hn : 0 < n) :
    ∃ L, d.support log n false m = .ok L ∧ L.length = n ∧
      ∀ i (h : i < L.length), L[i] = (((m + i : ℤ) : ℝ), if log then d.logPdf ((m + i : ℤ) : ℝ) else d.pdf ((m + i : ℤ) : ℝ)) := by
  refine ⟨(List.range n).map fun i : ℕ => ((m : ℝ) + i, if log then d.logPdf ((m : ℝ) + i) else d.pdf ((m : ℝ) + i)), ?_, by simp, ?_⟩
  · unfold Dist.isDiscrete at hd
    unfold Dist.support
    rw [if_neg (by omega)]
    split at hd <;> simp_all
  · intro i h
    simp

theorem sum_int (f : ℤ → ℝ) (m : ℤ) : ∀ n : ℕ, ((List.range n).map fun i : ℕ => f (m + i)).sum = ∑ k ∈ Finset.Icc m (m + n - 1), f k
  | 0 => by simp
  | n + 1 => by
    have e : Finset.Icc m (m + (n + 1 : ℕ) - 1) = insert (m + n) (Finset.Icc m (m + n - 1)) := by
      ext k; simp only [Finset.mem_insert, Finset.mem_Icc]; push_cast; omega
    rw [e, Finset.sum_insert (by simp), List.range_succ, List.map_append, List.sum_append, sum_int f m n]
    simp [add_comm]

/-- If the reported mass is one on the integers from `m` to `M` and zero elsewhere, the listed masses add up to one. -/
theorem sum_one {d : Dist} (hd : d.isDiscrete = true) (hm : IsMass d.pdf) {m M : ℤ} (hle : m ≤ M)
    (hz : ∀ k : ℤ, k < m ∨ M < k → d.impossible (k : ℝ) = true) :
    ∃ L, d.support false (M - m + 1).toNat false m = .ok L ∧ (L.map fun z => real z.2).sum = 1 := by
  obtain ⟨L, hL, hlen, hget⟩ := C104_points d hd false m (M - m + 1).toNat (by omega)
  refine ⟨L, hL, ?_⟩
  have e : (L.map fun z => real z.2) = (List.range (M - m + 1).toNat).map fun i : ℕ => d.mass (m + i) := by
    apply List.ext_getElem
    · simp [hlen]
    · intro i h1 h2
      rw [List.getElem_map, hget i (by simpa using h1)]
      simp [Dist.mass]
  rw [e, sum_int, show m + ((M - m + 1).toNat : ℤ) - 1 = M by omega]
  have ht : HasSum (fun k : ℤ => d.mass k * 1) 1 := hm.total
  have hf : HasSum (fun k : ℤ => d.mass k * 1) (∑ k ∈ Finset.Icc m M, d.mass k * 1) := by
    refine hasSum_sum_of_ne_finset_zero fun k hk => ?_
    rw [Finset.mem_Icc] at hk
    rw [mul_one]
    show real (d.pdf k) = 0
    rw [Dist.pdf, if_pos (hz k (by omega))]; rfl
  have := hf.unique ht
  simpa using this

/-- Windows around the bounded supports: the listed masses add up to one. -/
theorem C104_complete (lo hi : ℤ) :
    (∀ (a b : ℤ) (d : Dist), make .uniformDis a b = .ok d → lo ≤ a → b ≤ hi →
      ∃ N : ℕ, d.supportSize lo hi = .ok (N : ℤ) ∧ ∃ L, d.support false N false a = .ok L ∧ (L.map fun z => real z.2).sum = 1) ∧
    (∀ (p : ℝ) (n : ℕ) (d : Dist), make .binomial p n = .ok d → lo ≤ 0 → n ≤ hi →
      ∃ N : ℕ, d.supportSize lo hi = .ok (N : ℤ) ∧ ∃ L, d.support false N false (0 : ℤ) = .ok L ∧ (L.map fun z => real z.2).sum = 1) ∧
    (∀ (p q : ℝ) (d : Dist), make .bernoulli p q = .ok d →
      ∃ N : ℕ, d.supportSize lo hi = .ok (N : ℤ) ∧ ∃ L, d.support false N false (0 : ℤ) = .ok L ∧ (L.map fun z => real z.2).sum = 1) := by
  refine ⟨fun a b d hd h1 h2 => ?_, fun p n d hd h1 h2 => ?_, fun p q d hd => ?_⟩
  · have hab : a ≤ b := by
      by_contra h
      have : (a : ℝ) > b := by exact_mod_cast not_le.mp h
      simp [make, this] at hd
    have hm := (C99_uniform a b d hd).1
    have hs := C104_size_uniform a b lo hi d hd
    have := made hd; subst this
    rw [uniform_window, max_eq_left h1, min_eq_left h2] at hs
    refine ⟨(b - a + 1).toNat, ?_, sum_one rfl hm hab fun k hk => ?_⟩
    · rw [hs (Finset.nonempty_Icc.mpr hab), Int.card_Icc]; congr 2; congr 1; omega
    · simp only [Dist.impossible, Dist.minimum, Dist.maximum, Dbl.lt, Bool.or_eq_true, decide_eq_true_eq, Int.cast_lt]; exact hk
  · have hm := (C99_binomial p n d hd).1
    have hs := C104_size_binomial p n lo hi d hd
    have := made hd; subst this
    rw [binomial_window, max_eq_left h1, min_eq_left h2] at hs
    refine ⟨((n : ℤ) - 0 + 1).toNat, ?_, sum_one rfl hm (by omega) fun k hk => ?_⟩
    · rw [hs (Finset.nonempty_Icc.mpr (by omega)), Int.card_Icc]; congr 2
    · have e1 : (k : ℝ) < 0 ↔ k < 0 := by exact_mod_cast Iff.rfl
      have e2 : (n : ℝ) < k ↔ (n : ℤ) < k := by exact_mod_cast Iff.rfl
      simp only [Dist.impossible, Dist.minimum, Dist.maximum, Dbl.lt, Bool.or_eq_true, decide_eq_true_eq, e1, e2]; exact hk
  · have hm := (C99_bernoulli p q d hd).1
    have := made hd; subst this
    refine ⟨((1 : ℤ) - 0 + 1).toNat, by simp [Dist.supportSize], sum_one rfl hm (by omega) fun k hk => ?_⟩
    have e1 : (k : ℝ) < 0 ↔ k < 0 := by exact_mod_cast Iff.rfl
    have e2 : (1 : ℝ) < k ↔ (1 : ℤ) < k := by exact_mod_cast Iff.rfl
    simp only [Dist.impossible, Dist.minimum, Dist.maximum, Dbl.lt, Bool.or_eq_true, decide_eq_true_eq, e1, e2]; exact hk

theorem triple_getElem {β : Type} (f g h : ℕ → β) : ∀ (n i : ℕ), i < n → ∀ j, j < 3 →
    ((List.range n).flatMap fun i => [f i, g i, h i])[3 * i + j]? = [f i, g i, h i][j]?
  | n + 1, i, hi, j, hj => by
    have hlen : ∀ m, ((List.range m).flatMap fun i => [f i, g i, h i]).length = 3 * m := by
      intro m; simp [List.length_flatMap]; omega
    rw [List.range_succ, List.flatMap_append]
    rcases Nat.lt_succ_iff_lt_or_eq.mp hi with hlt | rfl
    · rw [List.getElem?_append_left (by rw [hlen]; omega)]
      exact triple_getElem f g h n i hlt j hj
    · rw [List.getElem?_append_right (by rw [hlen]; omega), hlen]
      simp

/-- For a plot with three entries per point, each value stands between two zeros at the same point. -/
theorem C104_plot (d : Dist) (hd : d.isDiscrete = true) (log : Bool) (m : ℝ) (n : ℕ) (hn : 0 < n) :
    ∃ L, d.support log (3 * n) true m = .ok L ∧ L.length = 3 * n ∧ ∀ i, i < n →
      L[3 * i]? = some (m + i, .num 0) ∧ L[3 * i + 1]? = some (m + i, if log then d.logPdf (m + i) else d.pdf (m + i)) ∧ L[3 * i + 2]? = some (m + i, .num 0) := by
  refine ⟨(List.range n).flatMap fun i : ℕ => [(m + i, .num 0), (m + i, if log then d.logPdf (m + i) else d.pdf (m + i)), (m + i, .num 0)], ?_,
    by simp [List.length_flatMap]; omega, fun i hi => ?_⟩
  · unfold Dist.isDiscrete at hd
    unfold Dist.support
    rw [if_neg (by omega), Nat.mul_div_cancel_left n (by omega)]
    split at hd <;> simp_all
  · have t := triple_getElem (fun i : ℕ => (m + (i : ℝ), Dbl.num 0)) (fun i : ℕ => (m + (i : ℝ), if log then d.logPdf (m + i) else d.pdf (m + i)))
      (fun i : ℕ => (m + (i : ℝ), Dbl.num 0)) n i hi
    exact ⟨t 0 (by omega), t 1 (by omega), t 2 (by omega)⟩

/-- Continuous laws have no mass function to list. -/
theorem C104_refused (d : Dist) (hd : d.isDiscrete = false) (log plot : Bool) (lo hi : ℝ) (n : ℕ) :
    d.supportSize lo hi = .throws ∧ d.support log n plot lo = .throws ∧ d.supportIncrement = .throws := by
  unfold Dist.isDiscrete at hd
  unfold Dist.supportSize Dist.support Dist.supportIncrement
  split at hd <;> simp_all

/-- Windows that are counted wrongly: negative numbers for Poisson, an empty intersection, and bounds that are not whole. -/
theorem C104_window_violated :
    (∃ d, make .poisson 1 0 = .ok d ∧ d.supportSize (-5 : ℤ) (5 : ℤ) = .ok 11 ∧ (d.window (-5) 5).card = 6) ∧
    (∃ d, make .uniformDis (5 : ℤ) (6 : ℤ) = .ok d ∧ d.supportSize (0 : ℤ) (3 : ℤ) = .ok (-1) ∧ (d.window 0 3).card = 0) ∧
    (∃ d, make .poisson 1 0 = .ok d ∧ d.supportSize (1 / 2) (5 / 2) = .ok 3) := by
  refine ⟨⟨⟨.poisson, 1, 0⟩, by simp only [make]; rw [if_neg (by norm_num)], ?_, ?_⟩, ⟨⟨.uniformDis, (5 : ℤ), (6 : ℤ)⟩, by simp only [make]; rw [if_neg (by norm_num)], ?_, ?_⟩,
    ⟨⟨.poisson, 1, 0⟩, by simp only [make]; rw [if_neg (by norm_num)], ?_⟩⟩
  · simp only [Dist.supportSize]
    rw [show ((5 : ℤ) : ℝ) - ((-5 : ℤ) : ℝ) = ((10 : ℤ) : ℝ) by norm_num, trunc_int]; rfl
  · have : (Dist.mk .poisson 1 0).window (-5) 5 = Finset.Icc 0 5 := by
      ext k
      have h2 : (0 : ℝ) ≤ k ↔ 0 ≤ k := by exact_mod_cast Iff.rfl
      simp only [Dist.window, Finset.mem_filter, Finset.mem_Icc, Dist.impossible, Dist.minimum, Dist.maximum, Dbl.lt, Bool.or_eq_false_iff, decide_eq_false_iff_not, not_lt, h2]
      simp; omega
    rw [this]; rfl
  · simp only [Dist.supportSize]
    rw [show min ((6 : ℤ) : ℝ) ((3 : ℤ) : ℝ) - max ((5 : ℤ) : ℝ) ((0 : ℤ) : ℝ) = ((-2 : ℤ) : ℝ) by norm_num, trunc_int]; rfl
  · rw [uniform_window]; rfl
  · simp only [Dist.supportSize]
    rw [show (5 / 2 : ℝ) - 1 / 2 = ((2 : ℤ) : ℝ) by norm_num, trunc_int]; rfl

/-- The hypotheses are met: a die in a window from 0 to 9. -/
example : ∃ d, make .uniformDis (1 : ℤ) (6 : ℤ) = .ok d ∧ (d.window 0 9).Nonempty := by
  refine ⟨⟨.uniformDis, (1 : ℤ), (6 : ℤ)⟩, by simp only [make]; rw [if_neg (by norm_num)], ?_⟩
  rw [uniform_window]; exact ⟨3, by decide⟩

end Di
end LDT
