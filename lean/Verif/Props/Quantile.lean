import Verif.Props.Descriptive
import Verif.Spec.Quantile
import Mathlib.Tactic.Linarith
/-!
# C80: `Descriptive::QuantileSorted`
-/
namespace LDT
namespace De
open Mx Stat
open Arr (Val)

variable {K : Type} [Field K] [LinearOrder K] [IsStrictOrderedRing K] [FloorRing K]

theorem ordStat_low (xs : List K) {k : Int} (h : k ≤ 1) : ordStat xs k = xs.getD 0 0 := by
  unfold ordStat
  congr 1; omega

theorem ordStat_high (xs : List K) {k : Int} (h : (xs.length : Int) ≤ k) : ordStat xs k = xs.getD (xs.length - 1) 0 := by
  unfold ordStat
  congr 1; omega

theorem ordStat_mid (xs : List K) {k : Int} (h1 : 1 ≤ k) (h : k ≤ xs.length) : ordStat xs k = xs.getD (k - 1).toNat 0 := by
  unfold ordStat
  congr 1; omega

theorem lineAt_const {x : Int → K} {t : K} (h : x (⌊t⌋ + 1) = x ⌊t⌋) : lineAt x t = x ⌊t⌋ := by
  unfold lineAt; rw [h]; ring

theorem read_num {m : Mat (Val K)} {xs : List K} (h : IsCells m (xs.map some)) {k : Int} (h0 : 0 ≤ k)
    (h1 : k < xs.length) : read m.mem k = .ok (some (xs.getD k.toNat 0)) := by
  have := isCells_read h k.toNat (some (xs.getD k.toNat 0)) (by
    rw [List.getElem?_map, List.getD_eq_getElem?_getD]
    rw [List.getElem?_eq_getElem (by omega)]; rfl)
  rw [zero_add, Int.toNat_of_nonneg h0] at this
  exact this

/-- **C80**, the value: for every number `tau`, the point at the position `(n + 1/3) τ + 1/3` of the line through the order
statistics. -/
theorem C80_value (m : Mat (Val K)) (xs : List K) (h : IsCells m (xs.map some)) (hne : xs ≠ []) (tau : K) :
    quantileSorted m tau = .ok (some (lineAt (ordStat xs) (position xs.length tau))) := by
  have hl : m.length = xs.length := by rw [← h.len, List.length_map]
  have hp : 0 < xs.length := List.length_pos_iff.2 hne
  have n0 : (0 : K) < xs.length := by exact_mod_cast hp
  unfold quantileSorted
  simp only [hl]
  have first : read m.mem 0 = .ok (some (xs.getD 0 0)) := by
    have := read_num h (k := 0) (le_refl _) (by omega)
    simpa using this
  have last : read m.mem ((xs.length : Int) - 1) = .ok (some (xs.getD (xs.length - 1) 0)) := by
    have := read_num h (k := (xs.length : Int) - 1) (by omega) (by omega)
    rw [show ((xs.length : Int) - 1).toNat = xs.length - 1 by omega] at this
    exact this
  have low : ∀ t : K, ⌊t⌋ < 1 → lineAt (ordStat xs) t = xs.getD 0 0 := by
    intro t ht
    rw [lineAt_const, ordStat_low xs (by omega)]
    rw [ordStat_low xs (by omega), ordStat_low xs (by omega)]
  have high : ∀ t : K, (xs.length : Int) ≤ ⌊t⌋ → lineAt (ordStat xs) t = xs.getD (xs.length - 1) 0 := by
    intro t ht
    rw [lineAt_const, ordStat_high xs (by omega)]
    rw [ordStat_high xs (by omega), ordStat_high xs (by omega)]
  by_cases h1 : xs.length = 1
  · rw [if_pos (Or.inl (by omega)), first]
    rcases lt_or_ge ⌊position xs.length tau⌋ 1 with h2 | h2
    · rw [low _ h2]
    · rw [high _ (by omega), h1]
  by_cases ht : tau ≤ 0
  · rw [if_pos (Or.inr ht), first, low]
    rw [Int.floor_lt]
    unfold position
    have : ((xs.length : K) + 1 / 3) * tau ≤ 0 := mul_nonpos_of_nonneg_of_nonpos (by positivity) ht
    push_cast; linarith
  rw [if_neg (by simp only [not_or]; exact ⟨by omega, ht⟩)]
  by_cases ht1 : tau ≥ 1
  · rw [if_pos ht1, last, high]
    rw [Int.le_floor]
    unfold position
    have : ((xs.length : K) + 1 / 3) * 1 ≤ ((xs.length : K) + 1 / 3) * tau := mul_le_mul_of_nonneg_left ht1 (by positivity)
    push_cast; linarith
  rw [if_neg ht1]
  have ep : (((xs.length : Int) : K) + 1 / 3) * tau + 1 / 3 = position xs.length tau := by
    unfold position; push_cast; rfl
  rw [ep]
  by_cases hf : ⌊position xs.length tau⌋ < 1
  · rw [if_pos hf, first, low _ hf]
  rw [if_neg hf]
  by_cases hf2 : ⌊position xs.length tau⌋ ≥ (xs.length : Int)
  · rw [if_pos hf2, high _ hf2]
    have := h.cell (xs.length - 1) (some (xs.getD (xs.length - 1) 0)) (by
      rw [List.getElem?_map, List.getD_eq_getElem?_getD, List.getElem?_eq_getElem (by omega)]; rfl)
    rw [show ((xs.length - 1 : Nat) : Int) = (xs.length : Int) - 1 by omega] at this
    exact this
  rw [if_neg hf2]
  rw [read_num h (by omega) (by omega), Outcome.ok_bind, read_num h (by omega) (by omega), Outcome.ok_bind]
  simp only [vsub_some, vmul_some, vadd_some, Outcome.pure_eq, Outcome.ok.injEq, Option.some.injEq]
  unfold lineAt
  rw [ordStat_mid xs (by omega) (by omega), ordStat_mid xs (by omega) (by omega)]
  rw [show ⌊position xs.length tau⌋ + 1 - 1 = ⌊position xs.length tau⌋ by ring]
  unfold Int.fract
  rfl

/-! ## Consequences -/

theorem getD_sorted {xs : List K} (hs : xs.Pairwise (· ≤ ·)) {i j : Nat} (hij : i ≤ j) (hj : j < xs.length) :
    xs.getD i 0 ≤ xs.getD j 0 := by
  rw [List.getD_eq_getElem?_getD, List.getD_eq_getElem?_getD, List.getElem?_eq_getElem (by omega),
    List.getElem?_eq_getElem hj]
  simp only [Option.getD_some]
  rcases Nat.lt_or_ge i j with h | h
  · exact List.pairwise_iff_getElem.1 hs i j (by omega) hj h
  · have : i = j := by omega
    subst this; exact le_refl _

theorem ordStat_mono {xs : List K} (hs : xs.Pairwise (· ≤ ·)) (hne : xs ≠ []) : Monotone (ordStat xs) := by
  intro a b hab
  have hp : 0 < xs.length := List.length_pos_iff.2 hne
  unfold ordStat
  apply getD_sorted hs <;> omega

theorem lineAt_between {x : Int → K} (hx : Monotone x) (t : K) : x ⌊t⌋ ≤ lineAt x t ∧ lineAt x t ≤ x (⌊t⌋ + 1) := by
  have h1 := hx (show ⌊t⌋ ≤ ⌊t⌋ + 1 by omega)
  have f0 := Int.fract_nonneg t
  have f1 := (Int.fract_lt_one t).le
  unfold lineAt
  have h0 : 0 ≤ x (⌊t⌋ + 1) - x ⌊t⌋ := by linarith
  constructor
  · have := mul_nonneg f0 h0; linarith
  · have := mul_le_mul_of_nonneg_right f1 h0; linarith

theorem lineAt_mono {x : Int → K} (hx : Monotone x) : Monotone (lineAt x) := by
  intro s t hst
  have hf : ⌊s⌋ ≤ ⌊t⌋ := Int.floor_le_floor hst
  rcases eq_or_lt_of_le hf with e | e
  · have h0 : 0 ≤ x (⌊t⌋ + 1) - x ⌊t⌋ := by have := hx (show ⌊t⌋ ≤ ⌊t⌋ + 1 by omega); linarith
    have : Int.fract s ≤ Int.fract t := by unfold Int.fract; rw [e]; linarith
    unfold lineAt
    rw [e]
    have := mul_le_mul_of_nonneg_right this h0
    linarith
  · exact (lineAt_between hx s).2.trans ((hx (by omega)).trans (lineAt_between hx t).1)

/-- **C80**, within the range of the data. -/
theorem C80_bounds (m : Mat (Val K)) (xs : List K) (h : IsCells m (xs.map some)) (hne : xs ≠ [])
    (hs : xs.Pairwise (· ≤ ·)) (tau : K) :
    ∃ q, quantileSorted m tau = .ok (some q) ∧ xs.head hne ≤ q ∧ q ≤ xs.getLast hne := by
  have hp : 0 < xs.length := List.length_pos_iff.2 hne
  refine ⟨_, C80_value m xs h hne tau, ?_, ?_⟩
  · rw [List.head_eq_getElem]
    have e := ordStat_low xs (k := min 1 ⌊position xs.length tau⌋) (by omega)
    rw [List.getD_eq_getElem?_getD, List.getElem?_eq_getElem hp, Option.getD_some] at e
    rw [← e]
    exact (ordStat_mono hs hne (by omega)).trans (lineAt_between (ordStat_mono hs hne) _).1
  · rw [List.getLast_eq_getElem]
    have e := ordStat_high xs (k := max xs.length (⌊position xs.length tau⌋ + 1)) (by omega)
    rw [List.getD_eq_getElem?_getD, List.getElem?_eq_getElem (by omega), Option.getD_some] at e
    rw [← e]
    exact (lineAt_between (ordStat_mono hs hne) _).2.trans (ordStat_mono hs hne (by omega))

/-- **C80**, monotone in `tau`. -/
theorem C80_monotone (m : Mat (Val K)) (xs : List K) (h : IsCells m (xs.map some)) (hne : xs ≠ [])
    (hs : xs.Pairwise (· ≤ ·)) (tau tau' : K) (ht : tau ≤ tau') :
    ∃ q q', quantileSorted m tau = .ok (some q) ∧ quantileSorted m tau' = .ok (some q') ∧ q ≤ q' := by
  refine ⟨_, _, C80_value m xs h hne tau, C80_value m xs h hne tau', ?_⟩
  apply lineAt_mono (ordStat_mono hs hne)
  unfold position
  have : (0 : K) ≤ (xs.length : K) + 1 / 3 := by positivity
  have := mul_le_mul_of_nonneg_left ht this
  linarith

/-- **C80**, the ends. -/
theorem C80_ends (m : Mat (Val K)) (xs : List K) (h : IsCells m (xs.map some)) (hne : xs ≠ []) (tau : K) :
    (tau ≤ 0 → quantileSorted m tau = .ok (some (xs.head hne))) ∧
    (1 ≤ tau → quantileSorted m tau = .ok (some (xs.getLast hne))) := by
  have hp : 0 < xs.length := List.length_pos_iff.2 hne
  constructor
  · intro ht
    unfold quantileSorted
    rw [if_pos (Or.inr ht)]
    have := read_num h (k := 0) (le_refl _) (by omega)
    rw [this, List.head_eq_getElem, List.getD_eq_getElem?_getD, Int.toNat_zero, List.getElem?_eq_getElem hp]; rfl
  · intro ht
    have := C80_value m xs h hne tau
    rw [this]
    have hf : (xs.length : Int) ≤ ⌊position xs.length tau⌋ := by
      rw [Int.le_floor]
      unfold position
      have : ((xs.length : K) + 1 / 3) * 1 ≤ ((xs.length : K) + 1 / 3) * tau :=
        mul_le_mul_of_nonneg_left ht (by positivity)
      push_cast; linarith
    rw [lineAt_const (by rw [ordStat_high xs (by omega), ordStat_high xs (by omega)]), ordStat_high xs (by omega),
      List.getLast_eq_getElem, List.getD_eq_getElem?_getD, List.getElem?_eq_getElem (by omega)]
    rfl

theorem lineAt_int (x : Int → K) (k : Int) : lineAt x (k : K) = x k := by
  unfold lineAt; rw [Int.floor_intCast, Int.fract_intCast]; ring

/-- **C80**, at the plotting position `(k - 1/3) / (n + 1/3)` the quantile is the `k`-th number. -/
theorem C80_order_statistic (m : Mat (Val K)) (xs : List K) (h : IsCells m (xs.map some)) (k : Nat)
    (hk : k < xs.length) :
    quantileSorted m ((((k : K) + 1) - 1 / 3) / ((xs.length : K) + 1 / 3)) = .ok (some xs[k]) := by
  have hne : xs ≠ [] := by rintro rfl; simp at hk
  have n0 : (0 : K) < (xs.length : K) + 1 / 3 := by positivity
  rw [C80_value m xs h hne]
  have : position xs.length ((((k : K) + 1) - 1 / 3) / ((xs.length : K) + 1 / 3)) = (((k : Int) + 1 : Int) : K) := by
    unfold position
    rw [mul_div_cancel₀ _ n0.ne']
    push_cast; ring
  rw [this, lineAt_int, ordStat_mid xs (by omega) (by omega), List.getD_eq_getElem?_getD,
    show ((k : Int) + 1 - 1).toNat = k by omega, List.getElem?_eq_getElem hk]
  rfl

/-- **C80**, the median: the middle one of an odd number of data, the average of the two in the middle of an even one. -/
theorem C80_median (m : Mat (Val K)) (xs : List K) (h : IsCells m (xs.map some)) (k : Nat) :
    (∀ hk : xs.length = 2 * k + 1, quantileSorted m (1 / 2) = .ok (some (xs[k]'(by omega)))) ∧
    (∀ hk : xs.length = 2 * k + 2,
      quantileSorted m (1 / 2) = .ok (some ((xs[k]'(by omega) + xs[k + 1]'(by omega)) / 2))) := by
  constructor
  · intro hk
    have hne : xs ≠ [] := by rintro rfl; simp at hk
    rw [C80_value m xs h hne]
    have : position xs.length (1 / 2 : K) = (((k : Int) + 1 : Int) : K) := by
      unfold position; rw [hk]; push_cast; ring
    rw [this, lineAt_int, ordStat_mid xs (by omega) (by omega), List.getD_eq_getElem?_getD,
      show ((k : Int) + 1 - 1).toNat = k by omega, List.getElem?_eq_getElem (by omega)]
    rfl
  · intro hk
    have hne : xs ≠ [] := by rintro rfl; simp at hk
    rw [C80_value m xs h hne]
    have : position xs.length (1 / 2 : K) = (((k : Int) + 1 : Int) : K) + 1 / 2 := by
      unfold position; rw [hk]; push_cast; ring
    have hfl : ⌊position xs.length (1 / 2 : K)⌋ = (k : Int) + 1 := by
      rw [this, Int.floor_intCast_add]
      have : ⌊(1 / 2 : K)⌋ = 0 := by rw [Int.floor_eq_iff]; norm_num
      rw [this]; ring
    have hfr : Int.fract (position xs.length (1 / 2 : K)) = 1 / 2 := by
      unfold Int.fract; rw [hfl, this]; push_cast; ring
    unfold lineAt
    rw [hfl, hfr, ordStat_mid xs (by omega) (by omega), ordStat_mid xs (by omega) (by omega), List.getD_eq_getElem?_getD,
      List.getD_eq_getElem?_getD, show ((k : Int) + 1 - 1).toNat = k by omega,
      show ((k : Int) + 1 + 1 - 1).toNat = k + 1 by omega, List.getElem?_eq_getElem (by omega),
      List.getElem?_eq_getElem (by omega)]
    simp only [Option.getD_some, Outcome.ok.injEq, Option.some.injEq]
    ring

theorem ordStat_map {f : K → K} {xs : List K} (hne : xs ≠ []) (k : Int) : ordStat (xs.map f) k = f (ordStat xs k) := by
  have hp : 0 < xs.length := List.length_pos_iff.2 hne
  unfold ordStat
  rw [List.length_map, List.getD_eq_getElem?_getD, List.getD_eq_getElem?_getD, List.getElem?_map,
    List.getElem?_eq_getElem (by omega)]
  rfl

/-- **C80**, a change of the origin and of the scale of the data. -/
theorem C80_affine (m m' : Mat (Val K)) (xs : List K) (a b : K) (h : IsCells m (xs.map some))
    (h' : IsCells m' ((xs.map (fun x => a * x + b)).map some)) (hne : xs ≠ []) (tau q : K)
    (hq : quantileSorted m tau = .ok (some q)) : quantileSorted m' tau = .ok (some (a * q + b)) := by
  rw [C80_value m xs h hne] at hq
  rw [C80_value m' _ h' (by simpa using hne)]
  simp only [Outcome.ok.injEq, Option.some.injEq] at *
  rw [← hq, List.length_map]
  unfold lineAt
  rw [ordStat_map hne, ordStat_map hne]
  ring

theorem ordStat_reverse {xs : List K} (hne : xs ≠ []) (k : Int) :
    ordStat xs.reverse k = ordStat xs ((xs.length : Int) + 1 - k) := by
  have hp : 0 < xs.length := List.length_pos_iff.2 hne
  unfold ordStat
  rw [List.length_reverse, List.getD_eq_getElem?_getD, List.getD_eq_getElem?_getD, List.getElem?_reverse (by omega)]
  congr 2; omega

theorem lineAt_flip (x : Int → K) (n : Int) (t : K) : lineAt (fun k => x (n - k)) ((n : K) - t) = lineAt x t := by
  unfold lineAt
  by_cases hf : Int.fract t = 0
  · have ht : t = (⌊t⌋ : K) := by unfold Int.fract at hf; linarith
    have : (n : K) - t = ((n - ⌊t⌋ : Int) : K) := by rw [ht]; push_cast; simp
    rw [this, Int.floor_intCast, Int.fract_intCast, hf]
    simp
  · have f0 : 0 < Int.fract t := lt_of_le_of_ne (Int.fract_nonneg t) (Ne.symm hf)
    have f1 := Int.fract_lt_one t
    have e : ⌊(n : K) - t⌋ = n - ⌊t⌋ - 1 := by
      rw [Int.floor_eq_iff]
      unfold Int.fract at f0 f1
      push_cast
      constructor <;> linarith
    have e2 : Int.fract ((n : K) - t) = 1 - Int.fract t := by
      unfold Int.fract; rw [e]; push_cast; ring
    rw [e, e2]
    beta_reduce
    rw [show n - (n - ⌊t⌋ - 1) = ⌊t⌋ + 1 by ring, show n - (n - ⌊t⌋ - 1 + 1) = ⌊t⌋ by ring]
    ring

/-- **C80**, symmetry: the quantile of the negated data (sorted again) at `1 - tau` is the negated quantile. -/
theorem C80_symmetric (m m' : Mat (Val K)) (xs : List K) (h : IsCells m (xs.map some))
    (h' : IsCells m' ((xs.reverse.map (fun x => -x)).map some)) (hne : xs ≠ []) (tau q : K)
    (hq : quantileSorted m tau = .ok (some q)) : quantileSorted m' (1 - tau) = .ok (some (-q)) := by
  rw [C80_value m xs h hne] at hq
  have hr : xs.reverse ≠ [] := by simpa using hne
  rw [C80_value m' _ h' (by simpa using hne)]
  simp only [Outcome.ok.injEq, Option.some.injEq] at *
  rw [← hq, List.length_map, List.length_reverse]
  have hpos : position xs.length (1 - tau) = (((xs.length : Int) + 1 : Int) : K) - position xs.length tau := by
    unfold position; push_cast; ring
  rw [hpos, ← lineAt_flip (ordStat xs) ((xs.length : Int) + 1)]
  unfold lineAt
  rw [ordStat_map hr, ordStat_map hr, ordStat_reverse hne, ordStat_reverse hne]
  ring

/-- **C80 is violated by no data**: the cell in front is read although there is none. -/
theorem C80_violated_empty (tau : K) (r : Int) :
    quantileSorted ({ rows := r, cols := 0, data := some [] } : Mat (Val K)) tau = .ub := by
  unfold quantileSorted
  have e0 : (({ rows := r, cols := 0, data := some [] } : Mat (Val K)).length) = 0 := by simp [Mat.length]
  have rd : ∀ k, read ({ rows := r, cols := 0, data := some [] } : Mat (Val K)).mem k = .ub := by
    intro k; unfold Mx.read; simp [Mat.mem]
  simp only [e0, rd]
  by_cases h1 : tau ≤ 0
  · rw [if_pos (Or.inr h1)]
  rw [if_neg (by simp [h1])]
  by_cases h2 : tau ≥ 1
  · rw [if_pos h2]
  rw [if_neg h2, if_pos]
  rw [Int.floor_lt]
  push_cast
  linarith [not_le.1 h2]

/-! ## Non-vacuity -/

example : quantileSorted (exVec [some (1 : ℚ), some 2, some 4, some 8]) (1 / 2) = .ok (some 3) ∧
    quantileSorted (exVec [some (1 : ℚ), some 2, some 4, some 8]) (1 / 4) = .ok (some (17 / 12)) := by decide +kernel

example : IsCells (exVec (([1, 2, 4, 8] : List ℚ).map some)) (([1, 2, 4, 8] : List ℚ).map some) ∧
    ([1, 2, 4, 8] : List ℚ).Pairwise (· ≤ ·) := ⟨exVec_cells _, by decide +kernel⟩

end De
end LDT
