import Verif.Model.Empirical
import Verif.Props.NelderMead1
import Mathlib.Tactic.IntervalCases
/-!
# C110: distributions given by 103 quantiles

`GetQuantileApprox` and `GetCDFApprox` join the given points by straight lines; they are inverse to each other between the outermost points.
-/
namespace LDT
namespace Em
open Op

section
variable {K : Type} [Field K] [LinearOrder K] [IsStrictOrderedRing K]

/-- The probabilities that the 103 quantiles belong to: 0.0001, 0.001, 0.01, 0.02, ..., 0.99, 0.999, 0.9999. -/
def grid (i : ℕ) : K :=
  if i = 0 then 1 / 10000 else if i = 1 then 1 / 1000 else if i = 101 then 999 / 1000 else if i = 102 then 9999 / 10000 else ((i : K) - 1) / 100

theorem grid_mid {i : ℕ} (h1 : 2 ≤ i) (h2 : i ≤ 100) : (grid i : K) = ((i : K) - 1) / 100 := by
  unfold grid
  rw [if_neg (by omega), if_neg (by omega), if_neg (by omega), if_neg (by omega)]

theorem grid_lt {i : ℕ} (h : i < 102) : (grid i : K) < grid (i + 1) := by
  by_cases h0 : i = 0
  · subst h0; simp [grid]; norm_num
  by_cases h1 : i = 1
  · subst h1; rw [grid_mid (i := 1 + 1) (by norm_num) (by norm_num)]; simp [grid]; norm_num
  by_cases h2 : i = 100
  · subst h2; rw [grid_mid (by norm_num) (by norm_num)]; simp [grid]; norm_num
  by_cases h3 : i = 101
  · subst h3; simp [grid]; norm_num
  · rw [grid_mid (by omega) (by omega), grid_mid (by omega) (by omega)]
    push_cast
    linarith

theorem grid_mono {i j : ℕ} (h : i ≤ j) (hj : j ≤ 102) : (grid i : K) ≤ grid j := by
  induction j, h using Nat.le_induction with
  | base => exact le_rfl
  | succ j hij ih => exact (ih (by omega)).trans (grid_lt (by omega)).le

theorem at_ok (Q : Fin 103 → K) (i : ℕ) (h : i < 103) : quantileAt Q (i : Int) = .ok (Q ⟨i, h⟩) := by
  unfold quantileAt
  rw [dif_pos (by omega)]
  simp

/-- The straight line through `(a, u)` and `(b, v)`. -/
def line (a u b v x : K) : K := u + (x - a) * (v - u) / (b - a)

theorem line_left (a u b v : K) : line a u b v a = u := by simp [line]

theorem line_right {a b : K} (h : a < b) (u v : K) : line a u b v b = v := by
  unfold line
  rw [mul_div_assoc, mul_div_cancel₀ _ (sub_pos.mpr h).ne']; ring

theorem line_inverse {a b u v : K} (h : a < b) (h' : u < v) (x : K) : line u a v b (line a u b v x) = x := by
  unfold line
  have h1 := (sub_pos.mpr h).ne'
  have h2 := (sub_pos.mpr h').ne'
  field_simp
  ring

theorem line_lt {a b u v : K} (h : a < b) (h' : u < v) {x y : K} (hxy : x < y) : line a u b v x < line a u b v y := by
  unfold line
  have h1 := sub_pos.mpr h
  have h2 := sub_pos.mpr h'
  have := mul_lt_mul_of_pos_right (sub_lt_sub_right hxy a) h2
  have := div_lt_div_of_pos_right this h1
  linarith

/-! ## GetCDFApprox -/

theorem position_ok {Q : Fin 103 → K} {x : K} (hx : x ≤ Q 102) : ∀ (fuel i : ℕ) (d : K) (hs : i + fuel = 103) (_ : 1 ≤ i) (_ : 1 ≤ fuel),
    Q ⟨i - 1, by omega⟩ < x →
    ∃ (k : ℕ) (hk : k < 103), 1 ≤ k ∧ position Q (.num x) fuel i d = .ok ((k : Int), Q ⟨k, hk⟩) ∧ Q ⟨k - 1, by omega⟩ < x ∧ x ≤ Q ⟨k, hk⟩
  | fuel + 1, i, d, h, hi, hf, hlt => by
    rw [position, at_ok Q i (by omega)]
    simp only [bind, Outcome.bind]
    by_cases hle : x ≤ Q ⟨i, by omega⟩
    · refine ⟨i, by omega, hi, ?_, hlt, hle⟩
      rw [if_pos (by simpa [Dbl.le] using hle)]
    · rw [if_neg (by simpa [Dbl.le] using hle)]
      by_cases hf0 : fuel = 0
      · exfalso
        have : i = 102 := by omega
        subst this
        exact hle hx
      · exact_mod_cast position_ok hx fuel (i + 1) _ (by omega) (by omega) (by omega) (by simpa using not_le.mp hle)

theorem stepAt_grid {k : ℕ} (h1 : 1 ≤ k) (h2 : k ≤ 102) : (stepAt (k : Int) : K × K) = (grid k - grid (k - 1), grid k) := by
  unfold stepAt
  by_cases a : k = 1
  · subst a; simp [grid]
  by_cases b : k = 102
  · subst b; simp [grid]
  by_cases c : k = 2
  · subst c; rw [if_neg (by norm_num), if_neg (by norm_num), if_pos (by norm_num), grid_mid (by norm_num) (by norm_num)]; simp [grid]; norm_num
  by_cases e : k = 101
  · subst e; rw [if_neg (by norm_num), if_neg (by norm_num), if_neg (by norm_num), if_pos (by norm_num), grid_mid (i := 101 - 1) (by norm_num) (by norm_num)]; simp [grid]; norm_num
  · rw [if_neg (by omega), if_neg (by omega), if_neg (by omega), if_neg (by omega), grid_mid (by omega) (by omega), grid_mid (by omega) (by omega)]
    push_cast [Nat.cast_sub h1]
    congr 1; ring

theorem cdf_raw {Q : Fin 103 → K} (hQ : StrictMono Q) {x : K} {i : ℕ} (hi : i < 102) (h1 : Q ⟨i, by omega⟩ ≤ x) (h2 : x ≤ Q ⟨i + 1, by omega⟩) :
    cdf Q (.num x) = .ok (.num (line (Q ⟨i, by omega⟩) (grid i) (Q ⟨i + 1, by omega⟩) (grid (i + 1)) x)) := by
  have hQi : ∀ a b (ha : a < 103) (hb : b < 103), a < b → Q ⟨a, ha⟩ < Q ⟨b, hb⟩ := fun a b ha hb h => hQ (by simpa using h)
  have hQle : ∀ a b (ha : a < 103) (hb : b < 103), a ≤ b → Q ⟨a, ha⟩ ≤ Q ⟨b, hb⟩ := fun a b ha hb h => hQ.monotone (by simpa using h)
  have a0 := at_ok Q 0 (by norm_num)
  have a1 := at_ok Q 1 (by norm_num)
  have a101 := at_ok Q 101 (by norm_num)
  have a102 := at_ok Q 102 (by norm_num)
  unfold cdf
  simp only [Nat.cast_zero, Nat.cast_one, Nat.cast_ofNat] at a0 a1 a101 a102
  rw [a0, a102]
  show (if _ then _ else _) = _
  by_cases c0 : x ≤ Q ⟨0, by norm_num⟩
  · rw [if_pos c0, a1]
    have hi0 : i = 0 := by
      by_contra hne
      have := hQi 0 i (by norm_num) (by omega) (by omega)
      linarith
    subst hi0
    have hx : x = Q ⟨0, by norm_num⟩ := le_antisymm c0 h1
    have hpos := sub_pos.mpr (hQi 0 1 (by norm_num) (by norm_num) (by norm_num))
    show Outcome.ok _ = _
    rw [hx, line_left]
    simp only [quotient, sub_self, zero_mul, zero_div]
    rw [if_neg hpos.ne']
    simp [less, grid]
  · rw [if_neg c0]
    by_cases c1 : x ≥ Q ⟨102, by norm_num⟩
    · rw [if_pos c1, a101]
      have hi0 : i = 101 := by
        by_contra hne
        have := hQi (i + 1) 102 (by omega) (by norm_num) (by omega)
        linarith
      subst hi0
      have hx : x = Q ⟨102, by norm_num⟩ := le_antisymm h2 c1
      have hl := hQi 101 102 (by norm_num) (by norm_num) (by norm_num)
      have hpos := sub_pos.mpr hl
      show Outcome.ok _ = _
      rw [hx, line_right hl]
      simp only [quotient, sub_self, zero_mul, zero_div]
      rw [if_neg hpos.ne']
      simp [less, grid]
    · rw [if_neg c1]
      obtain ⟨k, hk, k1, kp, ka, kb⟩ := position_ok (Q := Q) (not_le.mp c1).le 102 1 0 rfl le_rfl (by norm_num) (by simpa using c0)
      have kp' : position Q (Dbl.num x) 102 1 0 = .ok ((k : Int), Q ⟨k, hk⟩) := kp
      rw [kp']
      show (quantileAt Q (k : Int) >>= _) = _
      rw [at_ok Q k hk]
      show (quantileAt Q ((k : Int) - 1) >>= _) = _
      rw [show ((k : Int) - 1) = ((k - 1 : ℕ) : Int) by omega, at_ok Q (k - 1) (by omega)]
      show Outcome.ok _ = _
      simp only
      rw [stepAt_grid k1 (by omega)]
      have hpos := sub_pos.mpr (hQi (k - 1) k (by omega) hk (by omega))
      simp only [quotient]
      rw [if_neg hpos.ne']
      have hval : ∀ g g' : K, less g (Dbl.num ((Q ⟨k, hk⟩ - x) * (g - g') / (Q ⟨k, hk⟩ - Q ⟨k - 1, by omega⟩))) =
          Dbl.num (line (Q ⟨k - 1, by omega⟩) g' (Q ⟨k, hk⟩) g x) := by
        intro g g'
        have := hpos.ne'
        simp only [less, line]
        congr 1
        field_simp
        ring
      rw [hval]
      by_cases e : k = i + 1
      · subst e; rfl
      · have hki : k = i := by
          by_contra hne
          rcases Nat.lt_or_ge k i with h | h
          · have := hQi k i hk (by omega) h; linarith
          · have := hQle (i + 1) (k - 1) (by omega) (by omega) (by omega)
            linarith
        subst hki
        have hx : x = Q ⟨k, hk⟩ := le_antisymm kb h1
        rw [hx, line_right (sub_pos.mp hpos), line_left]

/-- Between two neighbouring quantiles, `GetCDFApprox` is the straight line between the given points; at the quantiles it is their probability. -/
theorem C110_cdf (Q : Fin 103 → K) (hQ : StrictMono Q) :
    (∀ i : Fin 103, cdf Q (.num (Q i)) = .ok (.num (grid i))) ∧
    (∀ (i : ℕ) (hi : i < 102) (x : K), Q ⟨i, by omega⟩ ≤ x → x ≤ Q ⟨i + 1, by omega⟩ →
      cdf Q (.num x) = .ok (.num (line (Q ⟨i, by omega⟩) (grid i) (Q ⟨i + 1, by omega⟩) (grid (i + 1)) x))) := by
  refine ⟨fun i => ?_, fun i hi x h1 h2 => cdf_raw hQ hi h1 h2⟩
  by_cases h : i.val < 102
  · have := cdf_raw hQ (x := Q i) h le_rfl (hQ.monotone (by simp [Fin.le_def]))
    rw [this]
    exact congrArg (fun v => Outcome.ok (Dbl.num v)) (line_left _ _ _ _)
  · have hi : i = ⟨101 + 1, by norm_num⟩ := Fin.ext (by have := i.isLt; simp; omega)
    rw [hi, cdf_raw hQ (i := 101) (by norm_num) (hQ.monotone (by simp [Fin.le_def])) le_rfl, line_right (hQ (by simp [Fin.lt_def]))]

/-- Every number between the outermost quantiles is between neighbours. -/
theorem between {F : ℕ → K} {x : K} : ∀ n, F 0 ≤ x → x ≤ F (n + 1) → ∃ i, i ≤ n ∧ F i ≤ x ∧ x ≤ F (i + 1)
  | 0, h1, h2 => ⟨0, le_rfl, h1, h2⟩
  | n + 1, h1, h2 => by
    by_cases h : x ≤ F (n + 1)
    · obtain ⟨i, hi, h3, h4⟩ := between n h1 h
      exact ⟨i, by omega, h3, h4⟩
    · exact ⟨n + 1, le_rfl, (not_le.mp h).le, h2⟩

theorem between_Q {Q : Fin 103 → K} {x : K} (h1 : Q 0 ≤ x) (h2 : x ≤ Q 102) : ∃ (i : ℕ) (hi : i < 102), Q ⟨i, by omega⟩ ≤ x ∧ x ≤ Q ⟨i + 1, by omega⟩ := by
  obtain ⟨i, hi, h3, h4⟩ := between (F := fun i => if h : i < 103 then Q ⟨i, h⟩ else 0) (x := x) 101 (by simpa using h1) (by simpa using h2)
  refine ⟨i, by omega, ?_, ?_⟩
  · simpa [show i < 103 by omega] using h3
  · simpa [show i + 1 < 103 by omega] using h4

theorem between_grid {p : K} (h1 : grid 0 ≤ p) (h2 : p ≤ grid 102) : ∃ i, i < 102 ∧ grid i ≤ p ∧ p ≤ grid (i + 1) := by
  obtain ⟨i, hi, h3, h4⟩ := between (F := grid) (x := p) 101 h1 h2
  exact ⟨i, by omega, h3, h4⟩

/-! ## GetQuantileApprox -/

variable [FloorRing K]

theorem quantile_raw (Q : Fin 103 → K) {p : K} {i : ℕ} (hi : i < 102) (h1 : grid i ≤ p) (h2 : p ≤ grid (i + 1)) :
    quantile Q p = .ok (.num (line (grid i) (Q ⟨i, by omega⟩) (grid (i + 1)) (Q ⟨i + 1, by omega⟩) p)) := by
  have g0 : (grid 0 : K) = 1 / 10000 := by simp [grid]
  have g1 : (grid 1 : K) = 1 / 1000 := by simp [grid]
  have g2 : (grid 2 : K) = 1 / 100 := by rw [grid_mid (by norm_num) (by norm_num)]; norm_num
  have g100 : (grid 100 : K) = 99 / 100 := by rw [grid_mid (by norm_num) (by norm_num)]; norm_num
  have g101 : (grid 101 : K) = 999 / 1000 := by simp [grid]
  have g102 : (grid 102 : K) = 9999 / 10000 := by simp [grid]
  have l0 := grid_mono (K := K) (Nat.zero_le i) (by omega)
  have l1 := grid_mono (K := K) (show i + 1 ≤ 102 by omega) le_rfl
  have a0 := at_ok Q 0 (by norm_num)
  have a1 := at_ok Q 1 (by norm_num)
  have a101 := at_ok Q 101 (by norm_num)
  have a102 := at_ok Q 102 (by norm_num)
  simp only [Nat.cast_zero, Nat.cast_one, Nat.cast_ofNat] at a0 a1 a101 a102
  have lo : (1 / 10000 : K) ≤ p := by rw [← g0]; exact l0.trans h1
  have hi' : p ≤ (9999 / 10000 : K) := by rw [← g102]; exact h2.trans l1
  have p0 : (0 : K) < 1 / 10000 := by norm_num
  have p1 : (9999 / 10000 : K) < 1 := by norm_num
  -- any index whose interval contains `p` gives the same line
  have uniq : ∀ j, j < 102 → (hj : j < 102) → grid j ≤ p → p ≤ grid (j + 1) →
      line (grid j) (Q ⟨j, by omega⟩) (grid (j + 1)) (Q ⟨j + 1, by omega⟩) p = line (grid i) (Q ⟨i, by omega⟩) (grid (i + 1)) (Q ⟨i + 1, by omega⟩) p := by
    intro j _ hj j1 j2
    rcases lt_trichotomy i j with h | h | h
    · have e : p = grid (i + 1) := le_antisymm h2 ((grid_mono (by omega) (by omega)).trans j1)
      have hji : j = i + 1 := by
        by_contra hne
        have := grid_lt (K := K) (i := i + 1) (by omega)
        have := grid_mono (K := K) (show i + 1 + 1 ≤ j by omega) (by omega)
        linarith
      subst hji
      rw [e, line_left, line_right (grid_lt hi)]
    · subst h; rfl
    · have e : p = grid (j + 1) := le_antisymm j2 ((grid_mono (by omega) (by omega)).trans h1)
      have hji : i = j + 1 := by
        by_contra hne
        have := grid_lt (K := K) (i := j + 1) (by omega)
        have := grid_mono (K := K) (show j + 1 + 1 ≤ i by omega) (by omega)
        linarith
      subst hji
      rw [e, line_left, line_right (grid_lt hj)]
  unfold quantile
  rw [if_neg (by linarith), if_neg (by linarith), a0, a1, a101, a102]
  show (if _ then _ else _) = _
  by_cases c0 : p ≤ 1 / 10000
  · rw [if_pos c0]
    have := uniq 0 (by norm_num) (by norm_num) (by rw [g0]; exact lo) (by rw [show 0 + 1 = 1 from rfl, g1]; linarith)
    rw [← this]
    show Outcome.ok _ = Outcome.ok (Dbl.num (line (grid 0) (Q ⟨0, by norm_num⟩) (grid 1) (Q ⟨1, by norm_num⟩) p))
    rw [g0, g1]; rfl
  · rw [if_neg c0]
    by_cases c1 : p ≥ 9999 / 10000
    · rw [if_pos c1]
      have hp : p = 9999 / 10000 := le_antisymm hi' c1
      have := uniq 101 (by norm_num) (by norm_num) (by rw [g101]; linarith) (by rw [show 101 + 1 = 102 from rfl, g102]; exact hi')
      rw [← this]
      show Outcome.ok _ = Outcome.ok (Dbl.num (line (grid 101) (Q ⟨101, by norm_num⟩) (grid 102) (Q ⟨102, by norm_num⟩) p))
      rw [hp, ← g102, line_right (grid_lt (by norm_num))]
      simp
    · rw [if_neg c1]
      have fin : ∀ j : ℕ, (hj : j < 102) → grid j ≤ p → p ≤ grid (j + 1) → (interval p).1 = (j : Int) → (interval p).2.1 = grid j →
          ((interval p).2.2 = grid (j + 1) - grid j ∨ p = grid j) →
          (quantileAt Q (interval p).1 >>= fun a => quantileAt Q ((interval p).1 + 1) >>= fun b =>
            Outcome.ok (Dbl.num (a + (p - (interval p).2.1) * (b - a) / (interval p).2.2))) =
          Outcome.ok (Dbl.num (line (grid i) (Q ⟨i, by omega⟩) (grid (i + 1)) (Q ⟨i + 1, by omega⟩) p)) := by
        intro j hj j1 j2 e1 e2 e3
        rw [← uniq j hj hj j1 j2, e1, e2, at_ok Q j (by omega)]
        show (quantileAt Q ((j : Int) + 1) >>= _) = _
        rw [show ((j : Int) + 1) = ((j + 1 : ℕ) : Int) by omega, at_ok Q (j + 1) (by omega)]
        show Outcome.ok _ = _
        rcases e3 with e3 | e3
        · rw [e3]; rfl
        · have z : p - grid j = 0 := by rw [← e3]; exact sub_self p
          simp only [line, z, zero_mul, zero_div]
      unfold interval at fin
      show (quantileAt Q (interval p).1 >>= fun a => quantileAt Q ((interval p).1 + 1) >>= fun b =>
            Outcome.ok (Dbl.num (a + (p - (interval p).2.1) * (b - a) / (interval p).2.2))) = _
      unfold interval
      by_cases d1 : p < 1 / 1000
      · exact fin 0 (by norm_num) (by rw [g0]; exact lo) (by rw [show 0 + 1 = 1 from rfl, g1]; exact d1.le) (by rw [if_pos d1]; rfl)
          (by rw [if_pos d1, g0]) (.inl (by rw [if_pos d1, show 0 + 1 = 1 from rfl, g0, g1]))
      by_cases d2 : p > 999 / 1000
      · exact fin 101 (by norm_num) (by rw [g101]; exact d2.le) (by rw [show 101 + 1 = 102 from rfl, g102]; exact hi') (by rw [if_neg d1, if_pos d2]; rfl)
          (by rw [if_neg d1, if_pos d2, g101]) (.inl (by rw [if_neg d1, if_pos d2, show 101 + 1 = 102 from rfl, g101, g102]))
      by_cases d3 : p < 1 / 100
      · exact fin 1 (by norm_num) (by rw [g1]; exact not_lt.mp d1) (by rw [show 1 + 1 = 2 from rfl, g2]; exact d3.le) (by rw [if_neg d1, if_neg d2, if_pos d3]; rfl)
          (by rw [if_neg d1, if_neg d2, if_pos d3, g1]) (.inl (by rw [if_neg d1, if_neg d2, if_pos d3, show 1 + 1 = 2 from rfl, g1, g2]))
      by_cases d4 : p > 99 / 100
      · exact fin 100 (by norm_num) (by rw [g100]; exact d4.le) (by rw [show 100 + 1 = 101 from rfl, g101]; exact not_lt.mp d2) (by rw [if_neg d1, if_neg d2, if_neg d3, if_pos d4]; rfl)
          (by rw [if_neg d1, if_neg d2, if_neg d3, if_pos d4, g100]) (.inl (by rw [if_neg d1, if_neg d2, if_neg d3, if_pos d4, show 100 + 1 = 101 from rfl, g100, g101]))
      · have f1 : 1 ≤ ⌊p * 100⌋ := by rw [Int.le_floor]; push_cast; linarith [not_lt.mp d3]
        have f2 : ⌊p * 100⌋ ≤ 99 := by
          have : (⌊p * 100⌋ : K) ≤ 99 := (Int.floor_le _).trans (by linarith [not_lt.mp d4])
          exact_mod_cast this
        obtain ⟨m, hm⟩ : ∃ m : ℕ, ⌊p * 100⌋ = (m : Int) := ⟨⌊p * 100⌋.toNat, by omega⟩
        have fl := Int.floor_le (p * 100)
        have fu := Int.lt_floor_add_one (p * 100)
        rw [hm] at f1 f2 fl fu
        have gm : (grid (m + 1) : K) = (m : K) / 100 := by rw [grid_mid (by omega) (by omega)]; push_cast; ring
        have fl' : (m : K) ≤ p * 100 := by exact_mod_cast fl
        have fu' : p * 100 < (m : K) + 1 := by exact_mod_cast fu
        refine fin (m + 1) (by omega) (by rw [gm]; linarith) ?_ (by rw [if_neg d1, if_neg d2, if_neg d3, if_neg d4, hm]; push_cast; rfl)
          (by rw [if_neg d1, if_neg d2, if_neg d3, if_neg d4, hm, gm]; push_cast; rfl) ?_
        · by_cases h99 : m = 99
          · subst h99; rw [show 99 + 1 + 1 = 101 from rfl, g101]; exact not_lt.mp d2
          · rw [grid_mid (by omega) (by omega)]; push_cast; linarith
        · by_cases h99 : m = 99
          · right; subst h99
            rw [show 99 + 1 = 100 from rfl, g100]
            refine le_antisymm (not_lt.mp d4) ?_
            push_cast at fl'; linarith
          · left
            rw [if_neg d1, if_neg d2, if_neg d3, if_neg d4, gm, grid_mid (by omega) (by omega)]
            push_cast; ring

/-- Between two neighbouring probabilities, `GetQuantileApprox` is the straight line between the given points; at the probabilities it is the
given quantile. -/
theorem C110_quantile (Q : Fin 103 → K) :
    (∀ i : Fin 103, quantile Q (grid i) = .ok (.num (Q i))) ∧
    (∀ (i : ℕ) (hi : i < 102) (p : K), grid i ≤ p → p ≤ grid (i + 1) →
      quantile Q p = .ok (.num (line (grid i) (Q ⟨i, by omega⟩) (grid (i + 1)) (Q ⟨i + 1, by omega⟩) p))) := by
  refine ⟨fun i => ?_, fun i hi p h1 h2 => quantile_raw Q hi h1 h2⟩
  by_cases h : i.val < 102
  · rw [quantile_raw Q h le_rfl (grid_lt h).le]
    exact congrArg (fun v => Outcome.ok (Dbl.num v)) (line_left _ _ _ _)
  · have hi : i = ⟨101 + 1, by norm_num⟩ := Fin.ext (by have := i.isLt; simp; omega)
    rw [hi]
    show quantile Q (grid (101 + 1)) = _
    rw [quantile_raw Q (i := 101) (by norm_num) (grid_lt (by norm_num)).le le_rfl, line_right (grid_lt (by norm_num))]

/-- Outside the given probabilities `GetQuantileApprox` goes on along the first and the last line; it is infinite at zero and one. -/
theorem C110_quantile_tails (Q : Fin 103 → K) (p : K) :
    (0 < p → p ≤ grid 0 → quantile Q p = .ok (.num (line (grid 0) (Q 0) (grid 1) (Q 1) p))) ∧
    (grid 102 ≤ p → p < 1 → quantile Q p = .ok (.num (line (grid 101) (Q 101) (grid 102) (Q 102) p))) ∧
    (p ≤ 0 → quantile Q p = .ok .ninf) ∧ (1 ≤ p → quantile Q p = .ok .pinf) := by
  have g0 : (grid 0 : K) = 1 / 10000 := by simp [grid]
  have g1 : (grid 1 : K) = 1 / 1000 := by simp [grid]
  have g101 : (grid 101 : K) = 999 / 1000 := by simp [grid]
  have g102 : (grid 102 : K) = 9999 / 10000 := by simp [grid]
  have a0 := at_ok Q 0 (by norm_num)
  have a1 := at_ok Q 1 (by norm_num)
  have a101 := at_ok Q 101 (by norm_num)
  have a102 := at_ok Q 102 (by norm_num)
  simp only [Nat.cast_zero, Nat.cast_one, Nat.cast_ofNat] at a0 a1 a101 a102
  have p0 : (1 / 10000 : K) < 1 := by norm_num
  have p1 : (0 : K) < 9999 / 10000 := by norm_num
  have p2 : (1 / 10000 : K) < 9999 / 10000 := by norm_num
  refine ⟨fun h1 h2 => ?_, fun h1 h2 => ?_, fun h => ?_, fun h => ?_⟩
  · rw [g0] at h2
    unfold quantile
    rw [if_neg (by linarith), if_neg (by linarith), a0, a1, a101, a102]
    show (if _ then _ else _) = _
    rw [if_pos h2, g0, g1]; rfl
  · rw [g102] at h1
    unfold quantile
    rw [if_neg (by linarith), if_neg (by linarith), a0, a1, a101, a102]
    show (if _ then _ else _) = _
    rw [if_neg (by linarith), if_pos h1]
    have e : ∀ a b : K, b + (p - 9999 / 10000) * (b - a) / (9999 / 10000 - 999 / 1000) = line (grid 101) a (grid 102) b p := by
      intro a b
      rw [g101, g102]
      unfold line
      ring
    show Outcome.ok (Dbl.num _) = _
    exact congrArg (fun v => Outcome.ok (Dbl.num v)) (e _ _)
  · unfold quantile; rw [if_pos h]
  · unfold quantile
    rw [if_neg (by linarith [zero_lt_one (α := K)]), if_pos h]

theorem line_between {a b u v x : K} (h : a < b) (h' : u < v) (h1 : a ≤ x) (h2 : x ≤ b) : u ≤ line a u b v x ∧ line a u b v x ≤ v := by
  constructor
  · rcases h1.eq_or_lt with e | l
    · rw [← e, line_left]
    · have := line_lt h h' l; rw [line_left] at this; exact this.le
  · rcases h2.eq_or_lt with e | l
    · rw [e, line_right h]
    · have := line_lt h h' l; rw [line_right h] at this; exact this.le

/-- The two are inverse to each other between the outermost points. -/
theorem C110_inverse (Q : Fin 103 → K) (hQ : StrictMono Q) :
    (∀ x, Q 0 ≤ x → x ≤ Q 102 → ∃ p, cdf Q (.num x) = .ok (.num p) ∧ grid 0 ≤ p ∧ p ≤ grid 102 ∧ quantile Q p = .ok (.num x)) ∧
    (∀ p, grid 0 ≤ p → p ≤ grid 102 → ∃ x, quantile Q p = .ok (.num x) ∧ Q 0 ≤ x ∧ x ≤ Q 102 ∧ cdf Q (.num x) = .ok (.num p)) := by
  constructor
  · intro x h1 h2
    obtain ⟨i, hi, h3, h4⟩ := between_Q h1 h2
    have hl : Q ⟨i, by omega⟩ < Q ⟨i + 1, by omega⟩ := hQ (by simp [Fin.lt_def])
    obtain ⟨b1, b2⟩ := line_between hl (grid_lt (K := K) hi) h3 h4
    refine ⟨_, cdf_raw hQ hi h3 h4, (grid_mono (Nat.zero_le i) (by omega)).trans b1, b2.trans (grid_mono (by omega) le_rfl), ?_⟩
    rw [quantile_raw Q hi b1 b2, line_inverse hl (grid_lt hi)]
  · intro p h1 h2
    obtain ⟨i, hi, h3, h4⟩ := between_grid h1 h2
    have hl : Q ⟨i, by omega⟩ < Q ⟨i + 1, by omega⟩ := hQ (by simp [Fin.lt_def])
    obtain ⟨b1, b2⟩ := line_between (grid_lt (K := K) hi) hl h3 h4
    refine ⟨_, quantile_raw Q hi h3 h4, (hQ.monotone (by simp [Fin.le_def])).trans b1, b2.trans (hQ.monotone (by simp [Fin.le_def]; omega)), ?_⟩
    rw [cdf_raw hQ hi b1 b2, line_inverse (grid_lt hi) hl]

/-- Larger probabilities have larger quantiles. -/
theorem C110_quantile_rises (Q : Fin 103 → K) (hQ : StrictMono Q) (p p' : K) (h0 : 0 < p) (hlt : p < p') (h1 : p' < 1) :
    ∃ x x', quantile Q p = .ok (.num x) ∧ quantile Q p' = .ok (.num x') ∧ x < x' := by
  have q01 : Q 0 < Q 1 := hQ (by decide)
  have q12 : Q 101 < Q 102 := hQ (by decide)
  have G0 := grid_lt (K := K) (i := 0) (by norm_num)
  have G1 := grid_lt (K := K) (i := 101) (by norm_num)
  have g02 : (grid 0 : K) < grid 102 := lt_of_lt_of_le G0 (grid_mono (by norm_num) le_rfl)
  -- values on the three parts
  have L : ∀ q, 0 < q → q ≤ grid 0 → ∃ y, quantile Q q = .ok (.num y) ∧ y = line (grid 0) (Q 0) (grid 1) (Q 1) q := fun q a b =>
    ⟨_, (C110_quantile_tails Q q).1 a b, rfl⟩
  have R : ∀ q, grid 102 ≤ q → q < 1 → ∃ y, quantile Q q = .ok (.num y) ∧ y = line (grid 101) (Q 101) (grid 102) (Q 102) q := fun q a b =>
    ⟨_, (C110_quantile_tails Q q).2.1 a b, rfl⟩
  have M := (C110_inverse Q hQ).2
  have Lle : ∀ q, q ≤ grid 0 → line (grid 0) (Q 0) (grid 1) (Q 1) q ≤ Q 0 ∧ (q < grid 0 → line (grid 0) (Q 0) (grid 1) (Q 1) q < Q 0) := fun q hq => by
    constructor
    · rcases hq.eq_or_lt with e | l
      · rw [e, line_left]
      · have := line_lt G0 q01 l; rw [line_left] at this; exact this.le
    · intro l
      have := line_lt G0 q01 l; rwa [line_left] at this
  have Rle : ∀ q, grid 102 ≤ q → Q 102 ≤ line (grid 101) (Q 101) (grid 102) (Q 102) q ∧ (grid 102 < q → Q 102 < line (grid 101) (Q 101) (grid 102) (Q 102) q) := fun q hq => by
    constructor
    · rcases hq.eq_or_lt with e | l
      · rw [← e, line_right G1]
      · have := line_lt G1 q12 l; rw [line_right G1] at this; exact this.le
    · intro l
      have := line_lt G1 q12 l; rwa [line_right G1] at this
  have q02 : Q 0 < Q 102 := hQ (by decide)
  by_cases a : p ≤ grid 0
  · obtain ⟨x, hx, ex⟩ := L p h0 a
    by_cases b : p' ≤ grid 0
    · obtain ⟨x', hx', ex'⟩ := L p' (h0.trans hlt) b
      exact ⟨x, x', hx, hx', by rw [ex, ex']; exact line_lt G0 q01 hlt⟩
    · by_cases c : p' ≤ grid 102
      · obtain ⟨x', hx', l1, l2, hc⟩ := M p' (not_le.mp b).le c
        refine ⟨x, x', hx, hx', ?_⟩
        have : Q 0 ≠ x' := by
          rintro rfl
          rw [(C110_cdf Q hQ).1 0] at hc
          injection hc with hc; injection hc with hc
          exact b (by rw [← hc]; rfl)
        rw [ex]; exact lt_of_le_of_lt (Lle p a).1 (lt_of_le_of_ne l1 this)
      · obtain ⟨x', hx', ex'⟩ := R p' (not_le.mp c).le h1
        exact ⟨x, x', hx, hx', by rw [ex, ex']; exact lt_of_le_of_lt (Lle p a).1 (q02.trans_le (Rle p' (not_le.mp c).le).1)⟩
  · by_cases c : p' ≤ grid 102
    · obtain ⟨x, hx, l1, l2, hc⟩ := M p (not_le.mp a).le (hlt.le.trans c)
      obtain ⟨x', hx', l1', l2', hc'⟩ := M p' ((not_le.mp a).le.trans hlt.le) c
      refine ⟨x, x', hx, hx', ?_⟩
      -- along the lines between neighbours
      obtain ⟨i, hi, i1, i2⟩ := between_grid (not_le.mp a).le (hlt.le.trans c)
      obtain ⟨j, hj, j1, j2⟩ := between_grid ((not_le.mp a).le.trans hlt.le) c
      have hl : ∀ i, (hi : i < 102) → Q ⟨i, by omega⟩ < Q ⟨i + 1, by omega⟩ := fun i hi => hQ (by simp [Fin.lt_def])
      have ex := quantile_raw Q hi i1 i2
      have ex' := quantile_raw Q hj j1 j2
      rw [hx] at ex; rw [hx'] at ex'
      injection ex with ex; injection ex with ex
      injection ex' with ex'; injection ex' with ex'
      rcases lt_trichotomy i j with h | h | h
      · have b1 := (line_between (grid_lt (K := K) hi) (hl i hi) i1 i2).2
        have b2 := (line_between (grid_lt (K := K) hj) (hl j hj) j1 j2).1
        rw [← ex] at b1; rw [← ex'] at b2
        have b3 : Q ⟨i + 1, by omega⟩ ≤ Q ⟨j, by omega⟩ := hQ.monotone (by simp [Fin.le_def]; omega)
        refine lt_of_le_of_ne (b1.trans (b3.trans b2)) ?_
        rintro rfl
        rw [hc] at hc'
        injection hc' with hc'; injection hc' with hc'
        exact hlt.ne hc'
      · subst h
        rw [ex, ex']; exact line_lt (grid_lt hi) (hl i hi) hlt
      · have := grid_mono (K := K) (show j + 1 ≤ i by omega) (by omega)
        linarith
    · obtain ⟨x', hx', ex'⟩ := R p' (not_le.mp c).le h1
      by_cases b : p ≤ grid 102
      · obtain ⟨x, hx, l1, l2, hc⟩ := M p (not_le.mp a).le b
        exact ⟨x, x', hx, hx', by rw [ex']; exact lt_of_le_of_lt l2 ((Rle p' (not_le.mp c).le).2 (not_le.mp c))⟩
      · obtain ⟨x, hx, ex⟩ := R p (not_le.mp b).le (hlt.trans h1)
        exact ⟨x, x', hx, hx', by rw [ex, ex']; exact line_lt G1 q12 hlt⟩

omit [FloorRing K] in
/-- Below the smallest and above the largest quantile `GetCDFApprox` goes the wrong way: it grows to the left and falls to the right, beyond all
bounds, whatever the quantiles. -/
theorem C110_tails_violated (Q : Fin 103 → K) (hQ : StrictMono Q) (t : K) (ht : 0 < t) :
    (∃ c, cdf Q (.num (Q 0 - t * (Q 1 - Q 0))) = .ok (.num c) ∧ c = grid 0 + t * (9 / 10000)) ∧
    (∃ c, cdf Q (.num (Q 102 + t * (Q 102 - Q 101))) = .ok (.num c) ∧ c = grid 102 - t * (9 / 10000)) := by
  have q01 : Q 0 < Q 1 := hQ (by decide)
  have q12 : Q 101 < Q 102 := hQ (by decide)
  have q02 : Q 0 < Q 102 := hQ (by decide)
  have s1 := sub_pos.mpr q01
  have s2 := sub_pos.mpr q12
  have a0 := at_ok Q 0 (by norm_num)
  have a1 := at_ok Q 1 (by norm_num)
  have a101 := at_ok Q 101 (by norm_num)
  have a102 := at_ok Q 102 (by norm_num)
  have f0 : (⟨0, by norm_num⟩ : Fin 103) = 0 := rfl
  have f1 : (⟨1, by norm_num⟩ : Fin 103) = 1 := rfl
  have f101 : (⟨101, by norm_num⟩ : Fin 103) = 101 := rfl
  have f102 : (⟨102, by norm_num⟩ : Fin 103) = 102 := rfl
  simp only [Nat.cast_zero, Nat.cast_one, Nat.cast_ofNat, f0, f1, f101, f102] at a0 a1 a101 a102
  have u1 := mul_pos ht s1
  have u2 := mul_pos ht s2
  refine ⟨⟨_, ?_, rfl⟩, ⟨_, ?_, rfl⟩⟩
  · unfold cdf
    rw [a0, a102]
    show (if _ then _ else _) = _
    rw [if_pos (by linarith), a1]
    show Outcome.ok _ = _
    unfold quotient
    rw [if_neg s1.ne']
    simp only [less, grid]
    congr 2
    rw [if_pos trivial]
    have := s1.ne'
    field_simp
    ring
  · unfold cdf
    rw [a0, a102]
    show (if _ then _ else _) = _
    rw [if_neg (by linarith), if_pos (by linarith), a101]
    show Outcome.ok _ = _
    unfold quotient
    rw [if_neg s2.ne']
    simp only [less, grid]
    congr 2
    have := s2.ne'
    norm_num
    field_simp

omit [FloorRing K] in
theorem position_nan (Q : Fin 103 → K) : ∀ (fuel i : ℕ) (d : K), i + fuel = 103 → ∃ d', position Q .nan fuel i d = .ok (103, d')
  | 0, i, d, h => ⟨d, by rw [position, show i = 103 by omega]; rfl⟩
  | fuel + 1, i, d, h => by
    obtain ⟨d', h'⟩ := position_nan Q fuel (i + 1) (Q ⟨i, by omega⟩) (by omega)
    refine ⟨d', ?_⟩
    rw [position, at_ok Q i (by omega)]
    simp only [bind, Outcome.bind]
    rw [if_neg (by simp [Dbl.le])]
    exact_mod_cast h'

omit [FloorRing K] in
/-- For `NaN` the search passes the last quantile and the program reads behind the array. -/
theorem C110_nan_violated (Q : Fin 103 → K) : cdf Q .nan = .ub := by
  obtain ⟨d, h⟩ := position_nan Q 102 1 0 rfl
  have h' : position Q .nan 102 1 0 = .ok (103, d) := h
  unfold cdf
  rw [h']
  rfl

end

/-! ## Combine -/

section
variable {K : Type} [Field K] [LinearOrder K] (o : Ops K) (big tol : Dbl K)

/-- Nothing is combined from nothing; a single distribution is copied. -/
theorem C110_combine_single (Q : Fin 103 → K) (weights : Option (List K)) :
    combine o big tol [] weights = .throws ∧ ∃ r, combine o big tol [Q] weights = .ok r ∧ r.length = 103 ∧ ∀ i : Fin 103, r[i.val]? = some (.num (Q i)) := by
  refine ⟨rfl, _, rfl, List.length_ofFn, fun i => by rw [List.getElem?_ofFn, dif_pos i.isLt]⟩

/-- The distance between the average of the distribution functions at `x` and the `i`th probability. -/
def Distance (ws : List (Dbl K)) (dists : List (Fin 103 → K)) (i : ℕ) (x : Dbl K) : Dbl K :=
  o.abs (o.sub ((ws.zip dists).foldl (fun s d => o.add s (o.mul d.1 (cdfValue d.2 x))) (o.ofInt 0)) (.num (grid i)))

theorem loop_spec (l : List (Dbl K × (Fin 103 → K))) : ∀ (n i : ℕ) (s : Dbl K),
    (combineLoop o big tol l n i s).length = n ∧
    ∀ k, k < n → ∃ a b, (s :: combineLoop o big tol l n i s)[k]? = some a ∧ (combineLoop o big tol l n i s)[k]? = some b ∧
      b = (minimize1 o big (objective o l (.num (prob (i + k)))) a (o.div (o.ofInt 1) (o.ofInt 10)) 500 tol a .nan).1
  | 0, _, _ => ⟨rfl, fun k hk => by omega⟩
  | n + 1, i, s => by
    obtain ⟨h1, h2⟩ := loop_spec l n (i + 1) (minimize1 o big (objective o l (.num (prob i))) s (o.div (o.ofInt 1) (o.ofInt 10)) 500 tol s .nan).1
    refine ⟨by simp [combineLoop, h1], fun k hk => ?_⟩
    cases k with
    | zero => exact ⟨s, _, rfl, rfl, rfl⟩
    | succ k =>
      obtain ⟨a, b, ha, hb, e⟩ := h2 k (by omega)
      refine ⟨a, b, ha, hb, ?_⟩
      rw [e, show i + (k + 1) = i + 1 + k by omega]

/-- Two or more: there are 103 results, and each is the previous one or is not farther (with the penalty of the search) from its probability than
the previous one; the first is compared with the smallest first quantile. -/
theorem C110_combine (Q Q' : Fin 103 → K) (rest : List (Fin 103 → K)) (ws : List K) :
    ∃ r s, combine o big tol (Q :: Q' :: rest) (some ws) = .ok r ∧ r.length = 103 ∧
      (∃ D ∈ Q :: Q' :: rest, s = .num (D 0)) ∧ (∀ D ∈ Q :: Q' :: rest, (Dbl.num (D 0)).lt s = false) ∧
      ∀ i, i < 103 → ∃ a b, (s :: r)[i]? = some a ∧ r[i]? = some b ∧
        (b = a ∨ (goal1 o big (Distance o (ws.map .num) (Q :: Q' :: rest) i) a .nan b).le (goal1 o big (Distance o (ws.map .num) (Q :: Q' :: rest) i) a .nan a) = true) := by
  obtain ⟨h1, h2⟩ := loop_spec o big tol ((ws.map Dbl.num).zip (Q :: Q' :: rest)) 103 0
    ((Q :: Q' :: rest).foldl (fun (mi : Dbl K) Q => if (Dbl.num (Q 0)).lt mi then .num (Q 0) else mi) .pinf)
  have hfold : ∀ (l : List (Fin 103 → K)) (a : Dbl K), a ≠ .nan →
      (l.foldl (fun (mi : Dbl K) Q => if (Dbl.num (Q 0)).lt mi then .num (Q 0) else mi) a = a ∨
        ∃ D ∈ l, l.foldl (fun (mi : Dbl K) Q => if (Dbl.num (Q 0)).lt mi then .num (Q 0) else mi) a = .num (D 0)) ∧
      (∀ D ∈ l, (Dbl.num (D 0)).lt (l.foldl (fun (mi : Dbl K) Q => if (Dbl.num (Q 0)).lt mi then .num (Q 0) else mi) a) = false) ∧
      ∀ y : Dbl K, y.lt a = false → a ≠ .nan → y.lt (l.foldl (fun (mi : Dbl K) Q => if (Dbl.num (Q 0)).lt mi then .num (Q 0) else mi) a) = false := by
    intro l
    induction l with
    | nil => intro a _; exact ⟨Or.inl rfl, by simp, fun y h _ => h⟩
    | cons D l ih =>
      intro a ha
      simp only [List.foldl_cons]
      by_cases h : (Dbl.num (D 0)).lt a = true
      · rw [if_pos h]
        obtain ⟨i1, i2, i3⟩ := ih (.num (D 0)) (by simp)
        refine ⟨Or.inr ?_, ?_, ?_⟩
        · rcases i1 with i1 | ⟨E, hE, i1⟩
          · exact ⟨D, by simp, i1⟩
          · exact ⟨E, by simp [hE], i1⟩
        · intro E hE
          rcases List.mem_cons.mp hE with rfl | hE
          · exact i3 _ (by simp [Dbl.lt]) (by simp)
          · exact i2 E hE
        · intro y hy hn
          refine i3 y ?_ (by simp)
          revert hy h
          cases y <;> cases a <;> simp [Dbl.lt] <;> intros <;> order
      · rw [if_neg h]
        obtain ⟨i1, i2, i3⟩ := ih a ha
        refine ⟨?_, ?_, i3⟩
        · rcases i1 with i1 | ⟨E, hE, i1⟩
          · exact Or.inl i1
          · exact Or.inr ⟨E, by simp [hE], i1⟩
        · intro E hE
          rcases List.mem_cons.mp hE with rfl | hE
          · exact i3 _ (by simpa using h) ha
          · exact i2 E hE
  obtain ⟨f1, f2, -⟩ := hfold (Q :: Q' :: rest) .pinf (by simp)
  refine ⟨_, _, rfl, h1, ?_, f2, fun i hi => ?_⟩
  · rcases f1 with f1 | f1
    · exfalso
      have := f2 Q (by simp)
      rw [f1] at this
      simp [Dbl.lt] at this
    · exact f1
  · obtain ⟨a, b, ha, hb, e⟩ := h2 i hi
    refine ⟨a, b, ha, hb, ?_⟩
    have eo : objective o ((ws.map Dbl.num).zip (Q :: Q' :: rest)) (.num (prob (0 + i))) = Distance o (ws.map .num) (Q :: Q' :: rest) i := by
      funext x
      rw [Nat.zero_add]; rfl
    rw [eo] at e
    obtain ⟨x, it, hx, -, -, hcase, -⟩ := C96_found o big (Distance o (ws.map .num) (Q :: Q' :: rest) i) a (o.div (o.ofInt 1) (o.ofInt 10)) 500 tol a .nan
    rw [hx] at e
    have hn : nearest (some a) (some Dbl.nan) a = a := by
      cases a <;> simp [nearest, Dbl.lt]
    rw [hn] at hcase
    simp only at e
    rw [e]
    exact hcase

/-- The hypotheses are met: equally spaced quantiles. -/
example : ∃ Q : Fin 103 → ℚ, StrictMono Q := ⟨fun i => i.val, fun i j h => by simpa using h⟩

end
end Em
end LDT
