import Verif.Lemmas.VarmaSimRun
import Verif.Props.SurSim
import Verif.Props.Crps
/-! # C132: out-of-sample scores of a VARMA model -/
namespace LDT
namespace Vs
open Mx Op Score
open Dc (bind_ok)
open Su (backD sqrtD lambda lambdasOk Results cell requiresVariance finish scored)

section
variable {crps : Dbl ℝ → Dbl ℝ → Outcome (Dbl ℝ)} {u : Setup} {data : Cols} {σ : Type} {fit : Estimator σ} {T maxInvalid : ℤ} {kept : σ}

theorem make_ok {u' : Setup} (h : u.make T = .ok u') : u' = u ∧ u.count ≠ 0 ∧ u.count < T ∧ u.horizons ≠ [] := by
  unfold Setup.make at h
  by_cases h1 : u.count = 0 ∨ u.count ≥ T
  · rw [if_pos h1] at h; cases h
  rw [if_neg h1] at h
  by_cases h2 : u.horizons = []
  · rw [if_pos h2] at h; cases h
  rw [if_neg h2] at h
  exact ⟨(Outcome.ok.inj h).symm, by omega, by omega, h2⟩

theorem calculate_parts (hu : Ascending u) {r : Result} (h : calculate crps u T data fit maxInvalid kept = .ok r) :
    u.count ≠ 0 ∧ u.count < T ∧ u.count < data.length ∧ ∃ g f s, Ran u fit u.count.toNat kept false g f ∧ s.valid = g.length ∧
      s.counter = comparisons u g ∧ s.invalid = f.length + early u u.count.toNat ∧
      sums crps u data ((data.length : ℤ) - 1) g (zeros u) = .ok s.results ∧ finished (σ := σ) u maxInvalid s = .ok r := by
  unfold calculate at h
  obtain ⟨u', h1, h⟩ := bind_ok h
  obtain ⟨e0, h2, h3, -⟩ := make_ok h1
  subst u'
  by_cases hd : (data.length : ℤ) - u.count ≤ 0
  · rw [if_pos hd] at h; cases h
  rw [if_neg hd] at h
  obtain ⟨s, h4, h⟩ := bind_ok h
  obtain ⟨g, f, k1, k2, k3, k4, k5⟩ := loop_ran hu _ (by omega) _ _ h4
  exact ⟨h2, h3, by omega, g, f, s, k1, by simpa using k2, by simpa using k3, by simpa using k4, k5, h⟩

theorem comparisons_pos (hu : Ascending u) {n : ℕ} {q : σ} {b : Bool} {g f} (h : Ran u fit n q b g f) : 0 < comparisons u g ↔ g ≠ [] := by
  cases g with
  | nil => simp [comparisons]
  | cons s g =>
    refine ⟨fun _ => by simp, fun _ => ?_⟩
    unfold comparisons
    rw [List.map_cons, List.sum_cons]
    have h1 := (h.mem s List.mem_cons_self).1
    have h2 := compared_ne hu h1
    rw [compared_eq hu] at h2
    omega

/-- **C132.** A result counts the simulations that succeed: there is at least one, and no more than `maxInvalidSim` fail. Each number of periods from the
requested one down to the first horizon has been left out once. -/
theorem C132_valid (hu : Ascending u) {r : Result} (h : calculate crps u T data fit maxInvalid kept = .ok r) :
    0 < u.count ∧ u.count < T ∧ u.count < data.length ∧ ∃ g f, Ran u fit u.count.toNat kept false g f ∧ r.valid = g.length ∧ 0 < r.valid ∧
      (f.length : ℤ) ≤ maxInvalid ∧ ((g.length + f.length : ℕ) : ℤ) = max 0 (u.count - max (u.hMin - 1) 0) := by
  obtain ⟨h1, h2, h3, g, f, s, k1, k2, k3, k4, k5, k6⟩ := calculate_parts hu h
  unfold finished at k6
  by_cases hc : s.counter = 0 ∨ s.invalid > maxInvalid
  · rw [if_pos hc] at k6; cases k6
  rw [if_neg hc] at k6
  have hr : r.valid = g.length := by rw [← Outcome.ok.inj k6, ← k2]
  have hg : g ≠ [] := (comparisons_pos hu k1).1 (by omega)
  have hpos : 0 < g.length := List.length_pos_of_ne_nil hg
  have hlen := k1.length
  have he : 0 ≤ early u u.count.toNat := by unfold early; split <;> omega
  refine ⟨by omega, h2, h3, g, f, k1, hr, by omega, by omega, ?_⟩
  rw [hlen]
  omega

/-- **C132.** Only periods that the estimation leaves out are used to score it. -/
theorem C132_honest {final : ℤ} {s : ℤ × Fit} {h : ℤ} (hp : 1 ≤ h) (hh : h ∈ within u s.1) :
    final - s.1 < final - s.1 + h ∧ final - s.1 + h ≤ final := by
  unfold within at hh
  have := (List.mem_filter.1 hh).2
  simp only [decide_eq_true_eq] at this
  omega

/-! ## The scores -/

theorem not_num_le {a : ℝ} (h : 0 < a) : ¬ ((Dbl.num a).le (.num 0) = true) := by
  show ¬ (decide (a ≤ 0) = true)
  simpa using h

theorem abs_num (a : ℝ) : (exact : Ops ℝ).abs (.num a) = .num |a| := by
  show Dbl.num (if a < 0 then -a else a) = _
  rw [Su.abs_ite]

theorem div_num {a b : ℝ} (h : b ≠ 0) : (exact : Ops ℝ).div (.num a) (.num b) = .num (a / b) := by
  show (if b = 0 then _ else _) = _
  rw [if_neg h]

theorem num_lt (a b : ℝ) : ((Dbl.num a).lt (.num b) = true) ↔ a < b := by
  show decide (a < b) = true ↔ _
  simp

theorem direction_num (x : Comparison) : direction (.num x.actual) (.num x.forecast) (.num x.last) = .num (loss (fun _ _ => 0) .direction x) := by
  classical
  have hl : loss (fun _ _ => 0) .direction x = if SameDirection x then 1 else 0 := rfl
  rw [hl]
  unfold direction SameDirection
  rw [if_neg (by simp)]
  by_cases h1 : x.last < x.actual
  · rw [if_pos ((num_lt _ _).2 h1)]
    by_cases h2 : x.last < x.forecast
    · rw [if_pos ((num_lt _ _).2 h2), if_pos (Or.inl ⟨h1, h2⟩)]
    · rw [if_neg (fun hh => h2 ((num_lt _ _).1 hh)), if_neg]
      rintro (⟨-, a⟩ | ⟨a, -⟩ | ⟨a, -⟩)
      · exact h2 a
      · exact absurd h1 (not_lt.2 a.le)
      · exact absurd a h1.ne'
  rw [if_neg (fun hh => h1 ((num_lt _ _).1 hh))]
  by_cases h3 : x.actual < x.last
  · rw [if_pos ((num_lt _ _).2 h3)]
    by_cases h2 : x.forecast < x.last
    · rw [if_pos ((num_lt _ _).2 h2), if_pos (Or.inr (Or.inl ⟨h3, h2⟩))]
    · rw [if_neg (fun hh => h2 ((num_lt _ _).1 hh)), if_neg]
      rintro (⟨a, -⟩ | ⟨-, a⟩ | ⟨a, -⟩)
      · exact h1 a
      · exact h2 a
      · exact absurd a h3.ne
  rw [if_neg (fun hh => h3 ((num_lt _ _).1 hh))]
  have h4 : x.actual = x.last := le_antisymm (not_lt.1 h1) (not_lt.1 h3)
  rw [if_pos ⟨by rw [h4], by simp⟩]
  by_cases h2 : x.forecast = x.last
  · rw [if_pos (by rw [h2]), if_pos (Or.inr (Or.inr ⟨h4, h2⟩))]
  · rw [if_neg (fun hh => h2 (Dbl.num.inj hh)), if_neg]
    rintro (⟨a, -⟩ | ⟨a, -⟩ | ⟨-, a⟩)
    · exact h1 a
    · exact h3 a
    · exact h2 a

theorem sign_num (a f : ℝ) : sign (.num a) (.num f) = .num (if a * f = 0 then 1 / 2 else if 0 < a * f then 1 else 0) := by
  unfold sign
  dsimp only
  rw [if_neg (by simp)]
  by_cases h0 : a = 0 ∨ f = 0
  · rw [if_pos (h0.imp (fun h => by rw [h]) fun h => by rw [h]), if_pos (mul_eq_zero.2 h0)]
  · rw [if_neg (fun h => h0 (h.imp (fun h => Dbl.num.inj h) fun h => Dbl.num.inj h)), if_neg (fun h => h0 (mul_eq_zero.1 h))]
    simp only [num_lt]
    push Not at h0
    by_cases h1 : (0 < a ∧ f < 0) ∨ (a < 0 ∧ 0 < f)
    · rw [if_pos h1, if_neg]
      rcases h1 with ⟨h1, h2⟩ | ⟨h1, h2⟩
      · exact not_lt.2 (mul_neg_of_pos_of_neg h1 h2).le
      · exact not_lt.2 (mul_neg_of_neg_of_pos h1 h2).le
    · rw [if_neg h1, if_pos]
      push Not at h1
      rcases lt_or_gt_of_ne h0.1 with ha | ha
      · have : f < 0 := lt_of_le_of_ne (h1.2 ha) h0.2
        exact mul_pos_of_neg_of_neg ha this
      · have : 0 < f := lt_of_le_of_ne (h1.1 ha) h0.2.symm
        exact mul_pos ha this

theorem score_num {e : Sco} (he : Implemented e) {c : ℝ → ℝ → ℝ} {x : Point} {k : Comparison} (hx : x.Is (e = .crps) k)
    (hc : e = .crps → crps (.num (k.actual - k.forecast)) (.num k.std) = .ok (.num (c (k.actual - k.forecast) k.std)))
    (hy : e = .mape ∨ e = .rmspe → 0 < k.actual) : Point.score crps e x = .ok (.num (loss c e k)) := by
  obtain ⟨h1, h2, h3, h4⟩ := hx
  unfold Point.score
  rw [h1, h2, h3]
  have hs : (exact : Ops ℝ).sub (.num k.actual) (.num k.forecast) = .num (k.actual - k.forecast) := rfl
  rw [hs]
  cases e <;> try (simp [Implemented] at he; done)
  · show Outcome.ok (direction _ _ _) = _
    rw [direction_num]; rfl
  · show Outcome.ok (sign _ _) = _
    rw [sign_num]
    rfl
  · show Outcome.ok ((exact : Ops ℝ).abs _) = _
    rw [abs_num]; rfl
  · have h0 := hy (Or.inl rfl)
    show Outcome.ok (if _ then _ else _) = _
    rw [if_neg (not_num_le h0), abs_num, div_num h0.ne']
    congr 2
    show _ = |(k.actual - k.forecast) / k.actual|
    rw [abs_div, abs_of_pos h0]
  · show Outcome.ok (Dbl.num ((k.actual - k.forecast) * (k.actual - k.forecast))) = Outcome.ok (Dbl.num ((k.actual - k.forecast) ^ 2))
    rw [sq]
  · have h0 := hy (Or.inr rfl)
    show Outcome.ok (if _ then _ else (exact : Ops ℝ).div (.num ((k.actual - k.forecast) * (k.actual - k.forecast))) (.num (k.actual * k.actual))) = _
    rw [if_neg (not_num_le h0), div_num (mul_pos h0 h0).ne']
    congr 2
    show _ = ((k.actual - k.forecast) / k.actual) ^ 2
    rw [div_pow, sq, sq]
  · rw [h4 rfl]; exact hc rfl

theorem finish_num {e : Sco} {v : ℝ} (h : e = .rmse ∨ e = .rmspe → 0 ≤ v) : finish e (.num v) = .num (scored e v) := by
  unfold finish
  cases e
  case mape =>
    simp only [reduceCtorEq, or_self, if_false, true_or, if_true, scored]
    show Dbl.num (v * 100) = _
    rw [mul_comm]
  case rmse =>
    simp only [reduceCtorEq, or_self, or_false, if_false, if_true, sqrtD, scored]
    rw [if_neg (not_lt.2 (h (Or.inl rfl)))]
  case rmspe =>
    simp only [or_true, if_true, sqrtD, scored]
    rw [if_neg (not_lt.2 (h (Or.inr rfl)))]
    show Dbl.num (Real.sqrt v * 100) = _
    rw [mul_comm]
  all_goals simp [scored]

theorem finish_nan (e : Sco) : finish e .nan = .nan := by
  unfold finish
  by_cases a : e = .rmse ∨ e = .rmspe <;> by_cases b : e = .mape ∨ e = .rmspe
  all_goals simp only [if_pos, if_neg, a, b, if_true, if_false]
  all_goals rfl

theorem cell_zeros {i j : ℕ} {e : Sco} (he : u.metrics[i]? = some e) (hj : j < u.eqs) : cell (zeros u) i j = some (.num 0) := by
  unfold cell zeros
  rw [List.getElem?_map, he]
  show (List.replicate u.eqs (Dbl.num (0 : ℝ)))[j]? = _
  rw [List.getElem?_replicate, if_pos hj]

theorem cell_averages {i j n : ℕ} {e : Sco} {t : Results} {v : Dbl ℝ} (he : u.metrics[i]? = some e) (hv : cell t i j = some v) :
    cell (averages u n t) i j = some (finish e ((exact : Ops ℝ).div v (.num n))) :=
  Su.cell_zipWith (fn := fun e v => finish e ((exact : Ops ℝ).div v (.num n))) he hv

theorem forall₂_num {e : Sco} {c : ℝ → ℝ → ℝ} : ∀ {X : List Point} {C : List Comparison} {Ts : List (Dbl ℝ)},
    List.Forall₂ (fun x k => Point.score crps e x = .ok (.num (loss c e k))) X C → List.Forall₂ (fun x t => Point.score crps e x = .ok t) X Ts →
    Ts = (C.map (loss c e)).map Dbl.num
  | _, _, _, .nil, .nil => rfl
  | _, _, _, .cons h1 h2, .cons k1 k2 => by
    rw [h1] at k1
    rw [List.map_cons, List.map_cons, ← Outcome.ok.inj k1, ← forall₂_num h2 k2]

theorem forall₂_of {α β : Type} {R S : α → β → Prop} : ∀ {X : List α} {C : List β}, List.Forall₂ R X C → (∀ x, ∀ k ∈ C, R x k → S x k) → List.Forall₂ S X C
  | _, _, .nil, _ => .nil
  | _, _, .cons h1 h2, h => .cons (h _ _ List.mem_cons_self h1) (forall₂_of h2 fun x k hk => h x k (List.mem_cons_of_mem _ hk))

/-- The averages over some simulations. -/
theorem scores_num (hu : Ascending u) {final : ℤ} {g : List (ℤ × Fit)} {t : Results} (ht : sums crps u data final g (zeros u) = .ok t)
    (hpos : 0 < comparisons u g) {i j : ℕ} {e : Sco} (he : u.metrics[i]? = some e) (hi : Implemented e) (hj : j < u.eqs) {C : List Comparison}
    (hC : List.Forall₂ (fun x k => Point.Is x (e = .crps) k) (points u data final j g) C) {c : ℝ → ℝ → ℝ}
    (hc : e = .crps → ∀ k ∈ C, crps (.num (k.actual - k.forecast)) (.num k.std) = .ok (.num (c (k.actual - k.forecast) k.std)))
    (hy : e = .mape ∨ e = .rmspe → ∀ k ∈ C, 0 < k.actual) :
    cell (averages u (comparisons u g) t) i j = some (.num (scored e (mean (C.map (loss c e))))) := by
  obtain ⟨-, h2⟩ := sums_fold hu.2 g (zeros u) t (by simp [zeros]) ht
  obtain ⟨Ts, k1, k2⟩ := h2 i e he j _ (cell_zeros he hj)
  have hN : List.Forall₂ (fun x k => Point.score crps e x = .ok (.num (loss c e k))) (points u data final j g) C :=
    forall₂_of hC fun x k hk hx => score_num hi hx (fun h => hc h k hk) fun h => hy h k hk
  obtain rfl := forall₂_num hN k1
  rw [foldl_num, zero_add] at k2
  have hlen : C.length = comparisons u g := by rw [← hC.length_eq, points_length]
  have hne : ((comparisons u g : ℕ) : ℝ) ≠ 0 := by exact_mod_cast hpos.ne'
  rw [cell_averages he k2, div_num hne, finish_num]
  · congr 3
    unfold mean
    rw [List.length_map, hlen]
  · intro hh
    refine div_nonneg (List.sum_nonneg fun x hx => ?_) (Nat.cast_nonneg _)
    obtain ⟨k, -, rfl⟩ := List.mem_map.1 hx
    rcases hh with rfl | rfl
    · exact sq_nonneg _
    · exact sq_nonneg _

theorem scores_nan (hu : Ascending u) {final : ℤ} {g : List (ℤ × Fit)} {t : Results} (ht : sums crps u data final g (zeros u) = .ok t)
    {i j n : ℕ} {e : Sco} (he : u.metrics[i]? = some e) (hj : j < u.eqs) {x : Point} (hx : x ∈ points u data final j g)
    (hn : Point.score crps e x = .ok .nan) : cell (averages u n t) i j = some .nan := by
  obtain ⟨-, h2⟩ := sums_fold hu.2 g (zeros u) t (by simp [zeros]) ht
  obtain ⟨Ts, k1, k2⟩ := h2 i e he j _ (cell_zeros he hj)
  have hmem : Dbl.nan ∈ Ts := by
    clear k2 h2 ht
    generalize points u data final j g = X at hx k1
    induction k1 with
    | nil => cases hx
    | cons a1 a2 ih =>
      rcases List.mem_cons.1 hx with rfl | hx
      · rw [hn] at a1
        rw [← Outcome.ok.inj a1]
        exact List.mem_cons_self
      · exact List.mem_cons_of_mem _ (ih hx)
  rw [foldl_nan Ts _ (Or.inr hmem)] at k2
  rw [cell_averages he k2]
  have : (exact : Ops ℝ).div .nan (.num (n : ℝ)) = .nan := rfl
  rw [this, finish_nan]

/-- **C132.** The score of variable `j` is that of the mean loss over all horizons of all simulations that succeed (roots are taken of the means, percentages
are multiplied by 100). The forecast `h` periods ahead is compared with what was observed `h` periods after the last observation used. -/
theorem C132_scores (hu : Ascending u) {r : Result} (h : calculate crps u T data fit maxInvalid kept = .ok r) {g f}
    (hg : Ran u fit u.count.toNat kept false g f) {i j : ℕ} {e : Sco} (he : u.metrics[i]? = some e) (hi : Implemented e) (hj : j < u.eqs)
    {C : List Comparison} (hC : List.Forall₂ (fun x k => Point.Is x (e = .crps) k) (points u data ((data.length : ℤ) - 1) j g) C) {c : ℝ → ℝ → ℝ}
    (hc : e = .crps → ∀ k ∈ C, crps (.num (k.actual - k.forecast)) (.num k.std) = .ok (.num (c (k.actual - k.forecast) k.std)))
    (hy : e = .mape ∨ e = .rmspe → ∀ k ∈ C, 0 < k.actual) :
    cell r.results i j = some (.num (scored e (mean (C.map (loss c e))))) := by
  obtain ⟨h1, h2, h3, g', f', s, k1, k2, k3, k4, k5, k6⟩ := calculate_parts hu h
  obtain ⟨rfl, rfl⟩ := hg.unique k1
  unfold finished at k6
  by_cases hcn : s.counter = 0 ∨ s.invalid > maxInvalid
  · rw [if_pos hcn] at k6; cases k6
  rw [if_neg hcn] at k6
  rw [← Outcome.ok.inj k6]
  dsimp only
  rw [k3]
  exact scores_num hu k5 (by omega) he hi hj hC hc hy

/-- **C132.** Percentages are NaN as soon as one of the actual values is not positive. -/
theorem C132_percentages (hu : Ascending u) {r : Result} (h : calculate crps u T data fit maxInvalid kept = .ok r) {g f}
    (hg : Ran u fit u.count.toNat kept false g f) {i j : ℕ} {e : Sco} (he : u.metrics[i]? = some e) (hi : e = .mape ∨ e = .rmspe) (hj : j < u.eqs)
    {x : Point} (hx : x ∈ points u data ((data.length : ℤ) - 1) j g) {a : ℝ} (ha : x.actual = .num a) (h0 : a ≤ 0) :
    cell r.results i j = some .nan := by
  obtain ⟨h1, h2, h3, g', f', s, k1, k2, k3, k4, k5, k6⟩ := calculate_parts hu h
  obtain ⟨rfl, rfl⟩ := hg.unique k1
  unfold finished at k6
  by_cases hcn : s.counter = 0 ∨ s.invalid > maxInvalid
  · rw [if_pos hcn] at k6; cases k6
  rw [if_neg hcn] at k6
  rw [← Outcome.ok.inj k6]
  refine scores_nan hu k5 he hj hx ?_
  unfold Point.score
  have hle : (Dbl.num a).le (.num 0) = true := by show decide (a ≤ 0) = true; simpa using h0
  rw [ha]
  rcases hi with rfl | rfl
  · show Outcome.ok (if _ then _ else _) = _
    rw [if_pos hle]
  · show Outcome.ok (if _ then _ else _) = _
    rw [if_pos hle]

/-! ## When there is a result -/

/-- **C132.** With horizons from 1 on, the only reasons to throw after the first checks are that no simulation succeeds and that more than `maxInvalidSim` fail. -/
theorem C132_fails_iff (hu : Ascending u) (hs : Scorable crps u) (h1 : u.hMin = 1) (hc : 0 < u.count) (hT : u.count < T) (hd : u.count < data.length) {g f}
    (hg : Ran u fit u.count.toNat kept false g f) (hr : ∀ s ∈ g, Reaches u s.2 (min s.1 u.hMax)) :
    ((g = [] ∨ maxInvalid < f.length) → calculate crps u T data fit maxInvalid kept = .throws) ∧
    (g ≠ [] ∧ (f.length : ℤ) ≤ maxInvalid → ∃ r, calculate crps u T data fit maxInvalid kept = .ok r) := by
  have key : calculate crps u T data fit maxInvalid kept =
      (loop crps u data fit maxInvalid u.count.toNat ⟨kept, false, zeros u, 0, 0, 0⟩ >>= finished u maxInvalid) := by
    unfold calculate
    have hm : u.make T = .ok u := by
      unfold Setup.make
      rw [if_neg (by omega), if_neg hu.1]
    rw [hm, Outcome.ok_bind, if_neg (by omega)]
  have hlt : u.count.toNat < data.length := by omega
  have he : early u u.count.toNat = 0 := by unfold early; rw [if_neg (by omega)]
  rw [key]
  rcases loop_all (crps := crps) (data := data) (maxInvalid := maxInvalid) hu hg hlt ⟨kept, false, zeros u, 0, 0, 0⟩ rfl rfl (fun x hx t => by
      obtain ⟨-, a2, a3, -⟩ := hg.mem x hx
      exact simulate_ok hs (by omega) (by omega) (by omega) (hr x hx) t) with ⟨e, hb⟩ | ⟨s', e⟩
  · rw [e]
    dsimp only at hb
    exact ⟨fun _ => rfl, fun hh => by omega⟩
  · rw [e, Outcome.ok_bind]
    obtain ⟨g', f', k1, k2, k3, k4, k5⟩ := loop_ran hu _ (by omega) _ _ e
    obtain ⟨rfl, rfl⟩ := hg.unique k1
    have hcp := comparisons_pos hu hg
    rw [he] at k4
    dsimp only at k3 k4
    unfold finished
    refine ⟨fun hh => ?_, fun hh => ⟨_, by rw [if_neg]; have := hcp.2 hh.1; omega⟩⟩
    rw [if_pos]
    rcases hh with hh | hh
    · left
      have : ¬ 0 < comparisons u g := fun hp => (hcp.1 hp) hh
      omega
    · right; omega

/-- **C132.** What is refused before any estimation: no simulations, or as many as there are periods or more; no horizons. -/
theorem C132_refused (h : u.count = 0 ∨ T ≤ u.count ∨ (data.length : ℤ) ≤ u.count ∨ u.horizons = []) :
    calculate crps u T data fit maxInvalid kept = .throws := by
  unfold calculate Setup.make
  by_cases h1 : u.count = 0 ∨ u.count ≥ T
  · rw [if_pos h1]; rfl
  rw [if_neg h1]
  by_cases h2 : u.horizons = []
  · rw [if_pos h2]; rfl
  rw [if_neg h2, Outcome.ok_bind, if_pos]
  rcases h with h | h | h | h
  · omega
  · omega
  · omega
  · exact absurd h h2

/-! ## What does not hold -/

/-- **C132 (violated).** If the first horizon is not 1, the end of the simulations is counted as one that failed: when none may fail, there is never a result,
although every simulation that was made has succeeded. -/
theorem C132_later_horizons_violated (hu : Ascending u) (h1 : 1 < u.hMin) (h0 : maxInvalid ≤ 0) (r : Result) :
    calculate crps u T data fit maxInvalid kept ≠ .ok r := by
  intro h
  obtain ⟨c0, -⟩ := C132_valid hu h
  obtain ⟨-, h2, h3, g, f, s, k1, k2, k3, k4, k5, k6⟩ := calculate_parts hu h
  unfold finished at k6
  by_cases hc : s.counter = 0 ∨ s.invalid > maxInvalid
  · rw [if_pos hc] at k6; cases k6
  have he : early u u.count.toNat = 1 := by unfold early; rw [if_pos ⟨h1, by omega⟩]
  omega

end

/-! ## Examples -/

/-- A series of four periods. -/
noncomputable def series : Cols := [fun _ => .num 1, fun _ => .num 2, fun _ => .num 4, fun _ => .num 8]

/-- Forecasts without any error. -/
noncomputable def oracle : Estimator Unit := fun _ se _ _ => ((), .done ⟨1, series.drop (3 - se).toNat, []⟩)

/-- Forecasts that are the last observation. -/
noncomputable def naive : Estimator Unit := fun _ se H _ => ((), .done ⟨1, List.replicate (H.toNat + 1) ((series.getD (3 - se).toNat) fun _ => .nan), []⟩)

/-- Mean absolute error of one variable, two simulations. -/
def plan (h : List ℤ) : Setup := ⟨1, h, [.mae], 2, false, none⟩

/-- **C132 (violated).** The horizons must be ascending: with 1, 3, 2 the mean absolute error of forecasts without any error is NaN (with 1, 2 it is 0). -/
theorem C132_order_violated (crps : Dbl ℝ → Dbl ℝ → Outcome (Dbl ℝ)) :
    calculate crps (plan [1, 3, 2]) 4 series oracle 0 () = .ok ⟨[[.nan]], 2⟩ := by
  rfl

theorem plan_ascending : Ascending (plan [1, 2]) := ⟨by simp [plan], by simp [plan]⟩

theorem plan_scorable (crps : Dbl ℝ → Dbl ℝ → Outcome (Dbl ℝ)) : Scorable crps (plan [1, 2]) where
  metrics := by simp [plan, Implemented]
  crps := by simp [plan]
  lambdas := by simp [plan]
  horizons := by simp [plan]

/-- The two simulations of the plan with the last observation as forecast. -/
theorem plan_ran : Ran (plan [1, 2]) naive (plan [1, 2]).count.toNat () false
    [(2, ⟨1, List.replicate 3 (fun _ => .num 2), []⟩), (1, ⟨1, List.replicate 2 (fun _ => .num 4), []⟩)] [] :=
  .done (by decide) rfl (.done (by decide) rfl (.stop (Or.inl rfl)))

/-- The hypotheses of `C132_fails_iff` hold of a plan with two simulations. -/
theorem plan_runs (crps : Dbl ℝ → Dbl ℝ → Outcome (Dbl ℝ)) : ∃ r, calculate crps (plan [1, 2]) 4 series naive 0 () = .ok r :=
  (C132_fails_iff plan_ascending (plan_scorable crps) rfl (by decide) (by decide) (by decide) plan_ran (by
    intro s hs
    rcases List.mem_cons.1 hs with rfl | hs
    · exact ⟨by decide, by decide, fun h => by cases h⟩
    rcases List.mem_cons.1 hs with rfl | hs
    · exact ⟨by decide, by decide, fun h => by cases h⟩
    cases hs)).2 ⟨by simp, by decide⟩

/-- Three forecasts are compared: 4 and 8 with 2, 8 with 4. The mean absolute error is 4. -/
example (crps : Dbl ℝ → Dbl ℝ → Outcome (Dbl ℝ)) {r : Result} (h : calculate crps (plan [1, 2]) 4 series naive 0 () = .ok r) :
    cell r.results 0 0 = some (.num 4) := by
  have := C132_scores (C := [⟨2, 4, 2, 0⟩, ⟨2, 8, 2, 0⟩, ⟨4, 8, 4, 0⟩]) (c := fun _ _ => 0) plan_ascending h plan_ran (i := 0) (j := 0) (e := .mae) rfl
    (by simp [Implemented]) (by decide)
    (.cons ⟨rfl, rfl, rfl, fun h => by cases h⟩ (.cons ⟨rfl, rfl, rfl, fun h => by cases h⟩ (.cons ⟨rfl, rfl, rfl, fun h => by cases h⟩ .nil)))
    (fun h => by cases h) (fun h => by rcases h with h | h <;> cases h)
  rw [this]
  simp only [List.map_cons, List.map_nil, loss, mean, scored, List.sum_cons, List.sum_nil, List.length_cons, List.length_nil]
  norm_num

end Vs
end LDT
