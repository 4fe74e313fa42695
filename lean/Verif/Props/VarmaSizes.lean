import Verif.Props.Varma
namespace LDT
namespace Varma
open Mx Poly

variable {K : Type}

/-! ## C51: lags and sizes -/

/-- The lags of `(p, P)_s` are `1 … p` and `s, 2s, …, Ps`. -/
theorem C51_lags_mem {p P s : Int} (hp : 0 ≤ p) (hP : 0 ≤ P) (hs : P ≠ 0 → 0 < s) (l : Int) :
    l ∈ expandPoly p P s ↔ (1 ≤ l ∧ l ≤ p) ∨ ∃ k, 1 ≤ k ∧ k ≤ P ∧ l = s * k := by
  rw [expandPoly_eq hp hP hs, List.mem_append]
  apply or_congr
  · rw [mem_upTo]; omega
  · rw [List.mem_map]
    constructor
    · rintro ⟨k, hk, rfl⟩
      rw [List.mem_range] at hk
      exact ⟨k + 1, by omega, by omega, by ring⟩
    · rintro ⟨k, h1, h2, rfl⟩
      refine ⟨(k - 1).toNat, by rw [List.mem_range]; omega, ?_⟩
      rw [Int.toNat_of_nonneg (by omega)]; ring

theorem expandPoly_length {p P s : Int} (hp : 0 ≤ p) (hP : 0 ≤ P) (hs : P ≠ 0 → 0 < s) :
    ((expandPoly p P s).length : Int) = p + P := by
  rw [expandPoly_eq hp hP hs, List.length_append, List.length_map, List.length_range, length_upTo]
  push_cast; omega

theorem expandPoly_sorted {p P s : Int} (hp : 0 ≤ p) (hP : 0 ≤ P) (hs : P ≠ 0 → p < s) :
    (expandPoly p P s).Pairwise (· < ·) := by
  rw [expandPoly_eq hp hP (fun h => by have := hs h; omega), List.pairwise_append]
  refine ⟨?_, ?_, ?_⟩
  · unfold upTo
    rw [List.pairwise_map]
    exact List.pairwise_lt_range.imp (fun h => by omega)
  · by_cases hP0 : P = 0
    · subst hP0; simp
    have := hs hP0
    rw [List.pairwise_map]
    refine List.pairwise_lt_range.imp (fun {a b} h => ?_)
    have : s * (a : Int) < s * (b : Int) := by
      apply Int.mul_lt_mul_of_pos_left <;> omega
    omega
  · intro a ha b hb
    rw [List.mem_map] at hb
    obtain ⟨k, hk, rfl⟩ := hb
    rw [List.mem_range] at hk
    have h1 := hs (by omega)
    rw [mem_upTo] at ha
    have : 0 ≤ s * (k : Int) := mul_nonneg (by omega) (by omega)
    omega

/-- As long as the seasonal period exceeds the regular order, the lag list is strictly increasing (no lag twice),
has `p + P` entries, and the reported largest lag is the largest lag. -/
theorem C51_lags_sorted {p P s : Int} (hp : 0 ≤ p) (hP : 0 ≤ P) (hs : P ≠ 0 → p < s) :
    (expandPoly p P s).Pairwise (· < ·) ∧ ((expandPoly p P s).length : Int) = p + P ∧
      (∀ l ∈ expandPoly p P s, 1 ≤ l ∧ l ≤ ((expandPoly p P s).getLast?).getD 0) ∧
      ((expandPoly p P s).getLast?).getD 0 = max p (s * P) := by
  have hs0 : P ≠ 0 → 0 < s := fun h => by have := hs h; omega
  have hsort := expandPoly_sorted hp hP hs
  have hmem := C51_lags_mem hp hP hs0
  have hsP : 0 ≤ s * P := by
    by_cases h : P = 0
    · simp [h]
    · exact mul_nonneg (by have := hs0 h; omega) hP
  have hone : ∀ l ∈ expandPoly p P s, 1 ≤ l ∧ l ≤ max p (s * P) := by
    intro l hl
    rcases (hmem l).1 hl with h | ⟨k, h1, h2, rfl⟩
    · omega
    · have := hs0 (by omega)
      have h3 : s * 1 ≤ s * k := mul_le_mul_of_nonneg_left h1 (by omega)
      have h4 : s * k ≤ s * P := mul_le_mul_of_nonneg_left h2 (by omega)
      omega
  have hlast : ((expandPoly p P s).getLast?).getD 0 = max p (s * P) := by
    rw [expandPoly_eq hp hP hs0]
    by_cases hP0 : P = 0
    · subst hP0
      simp only [Int.toNat_zero, List.range_zero, List.map_nil, List.append_nil, mul_zero]
      unfold upTo
      rw [List.getLast?_eq_getElem?, List.length_map, List.length_range, show (p + 1 - 1).toNat = p.toNat by omega]
      by_cases h0 : p = 0
      · subst h0; rfl
      · rw [List.getElem?_map, List.getElem?_range (by omega)]; simp; omega
    · rw [List.getLast?_append_of_ne_nil _ (by simp; omega), List.getLast?_eq_getElem?, List.length_map,
        List.length_range, List.getElem?_map, List.getElem?_range (by omega)]
      simp only [Option.map_some, Option.getD_some]
      have := hs hP0
      have e : s + s * ((P.toNat - 1 : Nat) : Int) = s * P := by
        rw [Nat.cast_sub (by omega), Int.toNat_of_nonneg hP]; push_cast; ring
      have h3 : s * 1 ≤ s * P := mul_le_mul_of_nonneg_left (by omega) (by omega)
      rw [e]; omega
  exact ⟨hsort, expandPoly_length hp hP hs0, fun l hl => by rw [hlast]; exact hone l hl, hlast⟩

/-- When the regular order reaches the period, the lag `s` appears twice. -/
theorem C51_lags_violated_duplicate {p P s : Int} (hs : 1 ≤ s) (hP : 1 ≤ P) (hp : s ≤ p) :
    ¬ (expandPoly p P s).Nodup := by
  rw [expandPoly_eq (by omega) (by omega) (by omega)]
  intro h
  rw [List.nodup_append] at h
  refine h.2.2 s ?_ s ?_ rfl
  · rw [mem_upTo]; omega
  · rw [List.mem_map]; exact ⟨0, by rw [List.mem_range]; omega, by simp⟩

/-- When the regular order exceeds the largest seasonal lag, the "largest lag" used for sizes is too small: some
lag of the model is larger. -/
theorem C51_max_violated {p P s : Int} (hs : 1 ≤ s) (hP : 1 ≤ P) (hp : s * P < p) :
    p ∈ expandPoly p P s ∧ ((expandPoly p P s).getLast?).getD 0 < p := by
  have h3 : s * 1 ≤ s * P := mul_le_mul_of_nonneg_left hP (by omega)
  rw [expandPoly_eq (by omega) (by omega) (by omega)]
  constructor
  · rw [List.mem_append]; left; rw [mem_upTo]; omega
  · rw [List.getLast?_append_of_ne_nil _ (by simp; omega), List.getLast?_eq_getElem?, List.length_map,
        List.length_range, List.getElem?_map, List.getElem?_range (by omega)]
    simp only [Option.map_some, Option.getD_some]
    have e : s + s * ((P.toNat - 1 : Nat) : Int) = s * P := by
      rw [Nat.cast_sub (by omega), Int.toNat_of_nonneg (by omega)]; push_cast; ring
    rw [e]; exact hp

/-- The constructor accepts exactly non-negative orders with something to estimate and, without seasons (period
below 2), no seasonal order; the parameter and observation counts are then the expected ones. -/
theorem C51_sizes (junk : Int) {obs eqs exo p d q P D Q m : Int}
    (hdm : d + 1 ≤ intMax) (hDm : m + 1 ≤ intMax) (hmax : d + D * m + 1 ≤ intMax) :
    (0 ≤ p ∧ 0 ≤ d ∧ 0 ≤ q ∧ 0 ≤ P ∧ 0 ≤ D ∧ 0 ≤ Q ∧ (m < 2 → P = 0 ∧ D = 0 ∧ Q = 0) ∧
      ¬ (p = 0 ∧ q = 0 ∧ P = 0 ∧ Q = 0) ∧
      ∃ z, makeSizes junk obs eqs exo p d q P D Q m = .ok z ∧
        z.arLength = p + P ∧ z.maLength = q + Q ∧ z.diffDegree = d + D * (if m < 2 then 0 else m) ∧
        z.maStart = (p + P) * eqs + exo ∧ z.numParamsEq = (p + P + q + Q) * eqs + exo ∧
        z.numParams = ((p + P + q + Q) * eqs + exo) * eqs ∧
        ((P ≠ 0 → p < m) → z.arMax = max p ((if m < 2 then 0 else m) * P) ∧
          z.T = obs - max p ((if m < 2 then 0 else m) * P) - (d + D * (if m < 2 then 0 else m)))) ∨
    (¬ (0 ≤ p ∧ 0 ≤ d ∧ 0 ≤ q ∧ 0 ≤ P ∧ 0 ≤ D ∧ 0 ≤ Q ∧ (m < 2 → P = 0 ∧ D = 0 ∧ Q = 0) ∧
      ¬ (p = 0 ∧ q = 0 ∧ P = 0 ∧ Q = 0)) ∧ makeSizes junk obs eqs exo p d q P D Q m = .throws) := by
  unfold makeSizes
  simp only
  by_cases h1 : p < 0 ∨ d < 0 ∨ D < 0 ∨ P < 0 ∨ q < 0 ∨ Q < 0 ∨ (if m < 2 then 0 else m) < 0
  · rw [if_pos h1]; right; refine ⟨?_, rfl⟩
    split_ifs at h1 <;> omega
  rw [if_neg h1]
  by_cases h2 : (if m < 2 then 0 else m) = 0 ∧ (P ≠ 0 ∨ Q ≠ 0 ∨ D ≠ 0)
  · rw [if_pos h2]; right; refine ⟨?_, rfl⟩
    split_ifs at h2 <;> omega
  rw [if_neg h2]
  by_cases h3 : p = 0 ∧ q = 0 ∧ P = 0 ∧ Q = 0
  · rw [if_pos h3]; right; exact ⟨by omega, rfl⟩
  rw [if_neg h3]
  left
  have hm2 : m < 2 → P = 0 ∧ D = 0 ∧ Q = 0 := by
    intro h; rw [if_pos h] at h2; omega
  obtain ⟨s, hsdef⟩ : ∃ s, s = if m < 2 then 0 else m := ⟨_, rfl⟩
  rw [← hsdef]
  have hDs : D * s = D * m := by
    rw [hsdef]; split_ifs with h
    · rw [(hm2 h).2.1]; simp
    · rfl
  have hspos : (P ≠ 0 ∨ D ≠ 0 ∨ Q ≠ 0) → 2 ≤ s := by
    intro h; rw [hsdef]; split_ifs with hh
    · have := hm2 hh; omega
    · omega
  have hsle : s + 1 ≤ intMax := by
    rw [hsdef]; split_ifs
    · decide
    · exact hDm
  obtain ⟨dp, e, _, l⟩ := C48_diffPoly junk (d := d) (D := D) (s := s) (by omega) (by omega)
    (fun h => by have := hspos (by omega); omega) hdm hsle (by rw [hDs]; exact hmax)
  refine ⟨by omega, by omega, by omega, by omega, by omega, by omega, hm2, h3, _, by rw [e]; rfl, ?_⟩
  have hDs0 : 0 ≤ D * s := by
    by_cases h : D = 0
    · simp [h]
    · exact mul_nonneg (by omega) (by have := hspos (by omega); omega)
  have a1 := expandPoly_length (p := p) (P := P) (s := s) (by omega) (by omega) (fun h => by have := hspos (by omega); omega)
  have a2 := expandPoly_length (p := q) (P := Q) (s := s) (by omega) (by omega) (fun h => by have := hspos (by omega); omega)
  have hdd : (if dp.length = 0 then (0 : Int) else (dp.length : Int) - 1) = d + D * s := by
    rw [if_neg (by omega)]; omega
  refine ⟨a1, a2, hdd, ?_, ?_, ?_, ?_⟩
  · simp only [Sizes.maStart, Sizes.arLength, a1]
  · simp only [Sizes.numParamsEq, Sizes.maStart, Sizes.arLength, Sizes.maLength, a1, a2]; ring
  · simp only [Sizes.numParams, Sizes.numParamsEq, Sizes.maStart, Sizes.arLength, Sizes.maLength, a1, a2]; ring
  · intro hpm
    obtain ⟨_, _, _, hlast⟩ := C51_lags_sorted (p := p) (P := P) (s := s) (by omega) (by omega)
      (fun h => by
        have h1 := hpm h
        have h2 := hspos (by omega)
        rw [hsdef]; split_ifs with hh
        · rw [hsdef, if_pos hh] at h2; omega
        · exact h1)
    refine ⟨hlast, ?_⟩
    simp only [Sizes.T, Sizes.arMaxD, Sizes.arMax, Sizes.diffDegree, hlast, hdd]; ring

example : expandPoly 2 2 4 = [1, 2, 4, 8] := by decide +kernel
example : expandPoly 5 1 4 = [1, 2, 3, 4, 5, 4] := by decide +kernel
example : (do let z ← makeSizes 9 40 2 1 1 1 1 1 0 1 4; pure (z.arLags, z.maLags, z.diffPoly, z.numParamsEq, z.T))
    = .ok ([1, 4], [1, 4], [1, -1], 9, 35) := by decide +kernel

/-! ## C52: differencing and undifferencing -/

/-- `Difference` writes `Σ_f c_f · y(t-f)` for every series and every time with enough history. -/
theorem C52_difference [Ring K] {poly : List Int} {y storage : Mat K} (hp : poly ≠ []) (wy : y.Wf)
    (ws : storage.Wf) (hr : storage.rows = y.rows) (hc : storage.cols = y.cols - (poly.length - 1)) :
    ∃ d, difference poly y storage = .ok d ∧ SameShape storage d ∧ d.Wf ∧
      ∀ j t, d.InR j t → d.get j t = .ok (∑ f ∈ Finset.range poly.length,
        (((poly[f]?).getD 0 : Int) : K) * y.val j (t + (poly.length - 1) - f)) := by
  have hc0 := ws.cols_nonneg
  obtain ⟨d, e, s, w, c⟩ := difference_spec hp wy ws hr (by omega) (by omega)
  refine ⟨d, e, s, w, fun j t h => ?_⟩
  rw [get_val w h, c j t (s.inR.1 h), if_pos (by have := h.2.2.2; rw [s.cols] at this; omega)]
  rfl

/-- `UnDiferences` (with leading coefficient one) keeps the first columns and makes every later column satisfy the
difference equation whose right-hand side was in that column. -/
theorem C52_undifference [Ring K] {poly : List Int} {st : Mat K} (h1 : poly.head? = some 1) (ws : st.Wf) :
    ∃ d, undifference poly st = .ok d ∧ SameShape st d ∧ d.Wf ∧
      (∀ i j, st.InR i j → j < (poly.length : Int) - 1 → d.val i j = st.val i j) ∧
      (∀ i j, st.InR i j → (poly.length : Int) - 1 ≤ j →
        ∑ f ∈ Finset.range poly.length, (((poly[f]?).getD 0 : Int) : K) * d.val i (j - f) = st.val i j) := by
  have hp : poly ≠ [] := by intro h; rw [h] at h1; simp at h1
  obtain ⟨d, e, s, w, c⟩ := undifference_spec hp ws
  refine ⟨d, e, s, w, fun i j hin hj => ?_, fun i j hin hj => ?_⟩
  · rw [c i j hin, if_pos hj, sub_zero]
  · obtain ⟨n, hn⟩ : ∃ n, poly.length = n + 1 := ⟨poly.length - 1, by
      have : poly.length ≠ 0 := by simpa using hp
      omega⟩
    have hc := c i j hin
    rw [if_neg (by omega), show poly.length - 1 = n by omega] at hc
    rw [hn, Finset.sum_range_succ', ← List.head?_eq_getElem?, h1]
    simp only [Option.getD_some, Int.cast_one, one_mul, Nat.cast_zero, sub_zero]
    rw [hc]
    simp only [coef, Nat.cast_add, Nat.cast_one]
    abel

/-- Round trip: a panel that starts with the first columns of `y` and continues with the differences of `y` is
undifferenced to `y`. -/
theorem C52_roundtrip [Ring K] {poly : List Int} {y storage st : Mat K} (h1 : poly.head? = some 1) (wy : y.Wf)
    (ws : storage.Wf) (hr : storage.rows = y.rows) (hc : storage.cols = y.cols - (poly.length - 1))
    (wst : st.Wf) (hr2 : st.rows = y.rows) (hc2 : st.cols = y.cols) {d : Mat K}
    (hd : difference poly y storage = .ok d)
    (hhead : ∀ i j, y.InR i j → j < (poly.length : Int) - 1 → st.val i j = y.val i j)
    (htail : ∀ i j, y.InR i j → (poly.length : Int) - 1 ≤ j → st.val i j = d.val i (j - (poly.length - 1))) :
    ∃ r, undifference poly st = .ok r ∧ ∀ i j, y.InR i j → r.get i j = y.get i j := by
  have hp : poly ≠ [] := by intro h; rw [h] at h1; simp at h1
  obtain ⟨d', e', s', w', c'⟩ := C52_difference hp wy ws hr hc
  rw [hd] at e'; cases e'
  obtain ⟨r, e, s, w, c⟩ := undifference_spec hp wst
  refine ⟨r, e, ?_⟩
  have hin : ∀ i j, y.InR i j ↔ st.InR i j := by
    intro i j; unfold Mat.InR; rw [hr2, hc2]
  obtain ⟨n, hn⟩ : ∃ n, poly.length = n + 1 := ⟨poly.length - 1, by
    have : poly.length ≠ 0 := by simpa using hp
    omega⟩
  have key : ∀ (q : Nat) i j, y.InR i j → j < q → r.val i j = y.val i j := by
    intro q
    induction q with
    | zero => intro i j h hj; have := h.2.2.1; omega
    | succ q ih =>
      intro i j h hj
      have hcij := c i j ((hin i j).1 h)
      by_cases hjh : j < (poly.length : Int) - 1
      · rw [hcij, if_pos hjh, sub_zero, hhead i j h hjh]
      · rw [if_neg hjh, htail i j h (by omega)] at hcij
        have hdin : d.InR i (j - (poly.length - 1)) := by
          rw [s'.inR]; refine ⟨h.1, by rw [hr]; exact h.2.1, by omega, by have := h.2.2.2; rw [hc]; omega⟩
        have hdv := c' i _ hdin
        rw [get_val w' hdin] at hdv
        have hdv := Outcome.ok.inj hdv
        rw [hcij, hdv, hn, Finset.sum_range_succ', ← List.head?_eq_getElem?, h1]
        simp only [Option.getD_some, Int.cast_one, one_mul, Nat.cast_zero, sub_zero]
        rw [show (n + 1 - 1 : Nat) = n by omega]
        have hsum : ∑ k ∈ Finset.range n, ((coef poly (k + 1) : Int) : K) * r.val i (j - (k + 1))
            = ∑ k ∈ Finset.range n, (((poly[k + 1]?).getD 0 : Int) : K)
                * y.val i (j - (((n + 1 : Nat) : Int) - 1) + (((n + 1 : Nat) : Int) - 1) - ((k + 1 : Nat) : Int)) := by
          refine Finset.sum_congr rfl (fun k hk => ?_)
          have hk' := Finset.mem_range.1 hk
          rw [ih i (j - (k + 1)) ⟨h.1, h.2.1, by omega, by have := h.2.2.2; omega⟩ (by omega)]
          rw [show j - (((n + 1 : Nat) : Int) - 1) + (((n + 1 : Nat) : Int) - 1) - ((k + 1 : Nat) : Int) = j - (k + 1) by
            push_cast; ring]
          rfl
        rw [hsum, show j - (((n + 1 : Nat) : Int) - 1) + (((n + 1 : Nat) : Int) - 1) = j by ring]
        abel
  intro i j h
  rw [get_val w (s.inR.2 ((hin i j).1 h)), get_val wy h, key (y.cols.toNat) i j h (by
    have := h.2.2.2; have := wy.cols_nonneg; omega)]

example : (do
    let d ← difference (K := Int) [1, -1, 0, 0, -1, 1] { rows := 1, cols := 7, data := some [1, 2, 4, 8, 16, 32, 64] }
      { rows := 1, cols := 2, data := some [99, 99] }
    let u ← undifference (K := Int) [1, -1, 0, 0, -1, 1] { rows := 1, cols := 7, data := some ([1, 2, 4, 8, 16] ++ d.mem) }
    pure (d.mem, u.mem)) = .ok ([(15 : Int), 30], [1, 2, 4, 8, 16, 32, 64]) := by decide +kernel

/-! ## C53: forecast variances -/

end Varma
end LDT
