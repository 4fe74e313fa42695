import Verif.Spec.SurFit
import Verif.Lemmas.SurAlg
import Verif.Props.MatrixStd
/-!
# Lemmas about the goodness of fit
-/
namespace LDT
namespace Su
open Mx Matrix Ls Stat
open Arr (Val)

section
variable {K : Type} [Field K] [LinearOrder K] [IsStrictOrderedRing K] {N m k : Nat}

theorem vals_mem (y : Mat K) : (vals y).mem = y.mem.map some := by
  unfold vals Mat.mem
  cases y.data <;> rfl

theorem vals_wf {y : Mat K} (w : y.Wf) : (vals y).Wf := by
  have hd := w.data_eq
  refine ⟨w.rows_nonneg, w.cols_nonneg, ?_, ?_⟩
  · unfold vals; rw [hd]; simp
  · have := w.size; rw [vals_mem, List.length_map]; exact this

theorem vals_get {y : Mat K} {Y : Matrix (Fin N) (Fin m) K} (hy : IsM y Y) (i : Fin N) (j : Fin m) :
    (vals y).get (i : Nat) (j : Nat) = .ok (some (Y i j)) := by
  have h := get_isM hy i j
  have hi := hy.inR i j
  rw [get_eq_get0 hy.wf hi] at h
  have hi' : (vals y).InR (i : Nat) (j : Nat) := hi
  rw [get_eq_get0 (vals_wf hy.wf) hi']
  unfold Mat.get0 at h ⊢
  rw [vals_mem]
  have hr : (vals y).rows = y.rows := rfl
  rw [hr]
  unfold Mx.read at h ⊢
  split_ifs at h with c
  rw [if_pos c, List.getElem?_map]
  cases hq : y.mem[((i : Nat) + y.rows * (j : Nat) : Int).toNat]? with
  | none => rw [hq] at h; simp at h
  | some v =>
    rw [hq] at h
    simp only [Option.map_some]
    simp at h
    rw [h]

/-- The column of the data. -/
def colList (Y : Matrix (Fin N) (Fin m) K) (j : Fin m) : List K := List.ofFn fun i => Y i j

theorem vals_column {y : Mat K} {Y : Matrix (Fin N) (Fin m) K} (hy : IsM y Y) (j : Fin m) :
    IsColumn (vals y) (j : Nat) ((colList Y j).map some) := by
  refine ⟨?_, fun i x hx => ?_⟩
  · unfold colList; rw [List.length_map, List.length_ofFn]; exact hy.rows.symm
  · unfold colList at hx
    rw [List.getElem?_map, List.getElem?_ofFn] at hx
    split_ifs at hx with h
    · simp only [Option.map_some, Option.some.injEq] at hx
      rw [← hx]
      exact vals_get hy ⟨i, h⟩ j
    · simp at hx

theorem sqSum_col (Y : Matrix (Fin N) (Fin m) K) (j : Fin m) :
    sqSum (colList Y j) = ∑ i, (Y i j - average Y j) ^ 2 := by
  unfold sqSum Stat.mean colList average
  rw [List.map_ofFn, List.sum_ofFn, List.sum_ofFn, List.length_ofFn]
  rfl

theorem numbers_some (l : List K) : numbers (l.map some) = l := by
  unfold numbers; rw [List.filterMap_map]; simp

/-- `R2`, up to the last line. -/
theorem r2_spec {y resid : Mat K} {Y E : Matrix (Fin N) (Fin m) K} (hy : IsM y Y) (hE : IsM resid E) (pN : 0 < N) :
    ∃ s : Val K, r2 y resid = .ok ((Ext.num (unexplained E)).div (Ext.ofVal s)).oneMinus ∧ (2 ≤ N → s = some (total Y)) ∧
      (N = 1 → 0 < m → s = none) := by
  classical
  have wv := vals_wf hy.wf
  have hr : (vals y).rows = N := hy.rows
  have hc : (vals y).cols = m := hy.cols
  have hcy : y.cols = m := hy.cols
  have wst : (⟨y.cols, 1, some (List.replicate (y.cols * 1).toNat (some 0))⟩ : Mat (Val K)).Wf := by
    refine ⟨by show 0 ≤ y.cols; omega, by show (0 : Int) ≤ 1; omega, by simp, ?_⟩
    show (y.cols * 1) ≤ ((List.replicate (y.cols * 1).toNat (some (0 : K))).length : Int)
    rw [List.length_replicate]; omega
  -- the variance of each column
  let v : Nat → Val K := fun j => if h : j < m then (if 2 ≤ N then some (sqSum (colList Y ⟨j, h⟩) / N) else none) else none
  have key : ∀ j : Fin m, (vals y).viewVariance false false ((j : Nat) : Int) = .ok (v j) := by
    intro j
    have hx := vals_column hy j
    unfold Mat.viewVariance
    by_cases h2 : 2 ≤ N
    · rw [viewVar wv (by omega) hx (by rw [hr]; exact_mod_cast h2) false false (by simp)]
      show Outcome.ok _ = _
      simp only [v, j.2, dif_pos, if_pos h2, numberStats, numbers_some, perCount, Bool.false_eq_true, if_false]
      rw [if_neg, show (colList Y j).length = N from List.length_ofFn]
      rw [show (colList Y j).length = N from List.length_ofFn]
      exact_mod_cast pN.ne'
    · have h1 : N = 1 := by omega
      obtain ⟨x, hxx⟩ : ∃ x, (colList Y j).map some = [x] := by
        rw [← List.length_eq_one_iff, List.length_map, show (colList Y j).length = N from List.length_ofFn, h1]
      have := (C65_variance_partial _ _ (colView_cells wv (by omega) hx) false).2.2.2.1 false x hxx
      rw [this]
      show Outcome.ok none = _
      simp [v, j.2, h2]
  obtain ⟨vars, e1, s1, c1⟩ := fillFrom_spec ((vals y).viewVariance false false) (upTo 0 (vals y).cols) _ wst
    (by rw [hc]; simp [upTo, Mat.length]; omega) (fun j hj => by
      rw [mem_upTo] at hj
      obtain ⟨j', rfl⟩ := Int.eq_ofNat_of_zero_le hj.1
      exact ⟨_, key ⟨j', by omega⟩⟩)
  have w1 := s1.wf wst
  have e1' : (vals y).columnsVariances ⟨y.cols, 1, some (List.replicate (y.cols * 1).toNat (some 0))⟩ false false = .ok vars := by
    unfold Mat.columnsVariances
    rw [if_neg (by show ¬ (y.cols * 1 ≠ (vals y).cols); omega)]
    exact e1
  have rd : ∀ j : Fin m, Mx.read vars.mem ((j : Nat) : Int) = .ok (v j) := by
    intro j
    have hj := j.2
    have hl : vars.length = m := by unfold Mat.length; rw [s1.rows, s1.cols]; show y.cols * 1 = _; omega
    rw [← getLin_read w1 (by omega) (by rw [hl]; omega), c1 j _ (upTo_get (by omega)), key]
  -- the sum of the variances
  have step : ∃ s : Val K, (upTo 0 (m : Int)).foldlM (fun (s : Val K) i => do
      let w ← Mx.read vars.mem i
      pure (vadd s (vmul w (vint N)))) (some 0) = .ok s ∧ (2 ≤ N → s = some (total Y)) ∧ (N = 1 → 0 < m → s = none) := by
    by_cases h2 : 2 ≤ N
    · obtain ⟨s, e, h⟩ := loop_inv (a := 0) (b := m) (by omega) (fun (s : Val K) (i : Int) => do
          let w ← Mx.read vars.mem i
          pure (vadd s (vmul w (vint N))))
        (fun t s => s = some (∑ j : Fin m, if (j : Nat) < t.toNat then ∑ i, (Y i j - average Y j) ^ 2 else 0)) (s := some 0)
        (by simp)
        (fun t h0 h1 s hs => by
          obtain ⟨t', rfl⟩ := Int.eq_ofNat_of_zero_le h0
          have ht : t' < m := by omega
          refine ⟨_, by rw [show Mx.read vars.mem ((t' : Nat) : Int) = .ok (v t') from rd ⟨t', ht⟩]; rfl, ?_⟩
          subst hs
          have hN : (N : K) ≠ 0 := by exact_mod_cast pN.ne'
          simp only [v, ht, dif_pos, if_pos h2, vmul, vint, vadd, Int.cast_natCast]
          rw [div_mul_cancel₀ _ hN, sqSum_col]
          congr 1
          rw [show ((t' : Int) + 1).toNat = t' + 1 by omega, Int.toNat_natCast]
          have : ∀ j : Fin m, (if (j : Nat) < t' + 1 then ∑ i, (Y i j - average Y j) ^ 2 else 0) =
              (if (j : Nat) < t' then ∑ i, (Y i j - average Y j) ^ 2 else 0) +
                (if j = ⟨t', ht⟩ then ∑ i, (Y i j - average Y j) ^ 2 else 0) := by
            intro j
            by_cases c1 : (j : Nat) < t'
            · rw [if_pos (by omega), if_pos c1, if_neg (by intro h; rw [h] at c1; simp at c1), add_zero]
            · by_cases c2 : j = ⟨t', ht⟩
              · rw [if_pos (by rw [c2]; simp), if_neg c1, if_pos c2, zero_add]
              · rw [if_neg (fun h => c2 (Fin.ext (by simp; omega))), if_neg c1, if_neg c2, add_zero]
          simp only [this, Finset.sum_add_distrib, Finset.sum_ite_eq', Finset.mem_univ, if_true])
      refine ⟨s, e, fun _ => ?_, fun h1 => absurd h2 (by omega)⟩
      rw [h]
      congr 1
      refine Finset.sum_congr rfl fun j _ => ?_
      rw [if_pos (by have := j.2; omega)]
    · obtain ⟨s, e, h⟩ := loop_inv (a := 0) (b := m) (by omega) (fun (s : Val K) (i : Int) => do
          let w ← Mx.read vars.mem i
          pure (vadd s (vmul w (vint N)))) (fun t s => 0 < t → s = none) (s := some 0) (fun h => by omega)
        (fun t h0 h1 s _ => by
          obtain ⟨t', rfl⟩ := Int.eq_ofNat_of_zero_le h0
          refine ⟨_, by rw [show Mx.read vars.mem ((t' : Nat) : Int) = .ok (v t') from rd ⟨t', by omega⟩]; rfl, fun _ => ?_⟩
          simp only [v, if_neg h2, dite_eq_ite, ite_self]
          cases s <;> rfl)
      exact ⟨s, e, fun h => absurd h h2, fun _ hm => h (by omega)⟩
  obtain ⟨s, e2, hs⟩ := step
  -- the squares of the residuals
  have hrl : resid.length = ((m * N : Nat) : Int) := by
    unfold Mat.length; rw [hE.rows, hE.cols]; push_cast; ring
  have rdE : ∀ t : Nat, ∀ ht : t < m * N, Mx.read resid.mem (t : Int) = .ok (E (⟨t, ht⟩ : Fin (m * N)).modNat (⟨t, ht⟩ : Fin (m * N)).divNat) := by
    intro t ht
    refine hE.read (⟨t, ht⟩ : Fin (m * N)).modNat (⟨t, ht⟩ : Fin (m * N)).divNat _ ?_
    have hd := Nat.mod_add_div t N
    simp only [Fin.coe_modNat, Fin.coe_divNat]
    exact_mod_cast hd.symm
  obtain ⟨sr, e3, h3⟩ := loop_inv (a := 0) (b := resid.length) (by omega) (fun (s : K) (i : Int) => do
      let w ← Mx.read resid.mem i
      pure (s + w * w))
    (fun t s => s = ∑ p : Fin (m * N), if (p : Nat) < t.toNat then E p.modNat p.divNat ^ 2 else 0) (s := 0) (by simp)
    (fun t h0 h1 s hs => by
      obtain ⟨t', rfl⟩ := Int.eq_ofNat_of_zero_le h0
      have ht : t' < m * N := by omega
      refine ⟨_, by rw [rdE t' ht]; rfl, ?_⟩
      subst hs
      rw [show ((t' : Int) + 1).toNat = t' + 1 by omega, Int.toNat_natCast]
      have : ∀ p : Fin (m * N), (if (p : Nat) < t' + 1 then E p.modNat p.divNat ^ 2 else 0) =
          (if (p : Nat) < t' then E p.modNat p.divNat ^ 2 else 0) + (if p = ⟨t', ht⟩ then E p.modNat p.divNat ^ 2 else 0) := by
        intro j
        by_cases c1 : (j : Nat) < t'
        · rw [if_pos (by omega), if_pos c1, if_neg (by intro h; rw [h] at c1; simp at c1), add_zero]
        · by_cases c2 : j = ⟨t', ht⟩
          · rw [if_pos (by rw [c2]; simp), if_neg c1, if_pos c2, zero_add]
          · rw [if_neg (fun h => c2 (Fin.ext (by simp; omega))), if_neg c1, if_neg c2, add_zero]
      simp only [this, Finset.sum_add_distrib, Finset.sum_ite_eq', Finset.mem_univ, if_true]
      ring)
  have h3' : sr = unexplained E := by
    rw [h3, hrl, Int.toNat_natCast]
    unfold unexplained
    rw [sum_split]
    refine Finset.sum_congr rfl fun j _ => Finset.sum_congr rfl fun i _ => ?_
    rw [if_pos (number j i).2, divNat_number, modNat_number]
  refine ⟨s, ?_, hs⟩
  unfold r2
  rw [e1', Outcome.ok_bind, hcy, hy.rows]
  rw [e2, Outcome.ok_bind, e3, Outcome.ok_bind, h3']
  rfl

theorem unexplained_nonneg (E : Matrix (Fin N) (Fin m) K) : 0 ≤ unexplained E :=
  Finset.sum_nonneg fun _ _ => Finset.sum_nonneg fun _ _ => sq_nonneg _

theorem total_nonneg (Y : Matrix (Fin N) (Fin m) K) : 0 ≤ total Y :=
  Finset.sum_nonneg fun _ _ => Finset.sum_nonneg fun _ _ => sq_nonneg _

/-- More observations than regressors: a report. -/
theorem goodness_spec (cdf : Int → Int → Ext K → K) {y resid : Mat K} {Y E : Matrix (Fin N) (Fin m) K} (hy : IsM y Y)
    (hE : IsM resid E) (pm : 0 < m) (pk : 0 < k) (hk : k < N) :
    ∃ g, goodness cdf y resid ((k : Int) * m) = .ok g ∧ GoodFit cdf Y E k g := by
  obtain ⟨s, e, hs, -⟩ := r2_spec hy hE (by omega)
  rw [hs (by omega)] at e
  have d1 : (0 : Int) < (m : Int) * (N - 1) := mul_pos (by omega) (by omega)
  have d2 : (0 : Int) < (m : Int) * (N - k) := mul_pos (by omega) (by omega)
  have hd2 : (m : Int) * N - k * m = m * (N - k) := by ring
  have c1 : (0 : K) < ((((m : Int) * (N - 1)) : Int) : K) := by exact_mod_cast d1
  have c2 : (0 : K) < ((((m : Int) * (N - k)) : Int) : K) := by exact_mod_cast d2
  have v1 : ((((m : Int) * (N - 1)) : Int) : K) = m * (N - 1) := by push_cast; ring
  have v2 : ((((m : Int) * (N - k)) : Int) : K) = m * (N - k) := by push_cast; ring
  have un := unexplained_nonneg E
  have tn := total_nonneg Y
  unfold goodness
  rw [e, Outcome.ok_bind, hy.rows, hy.cols]
  unfold fstat
  simp only [hd2]
  by_cases h0 : total Y = 0
  · by_cases hu : unexplained E = 0
    · simp only [Ext.ofVal, Ext.div, h0, hu, lt_irrefl, if_true, if_false, Ext.oneMinus, Ext.neg, Bool.false_eq_true]
      rw [if_neg (by omega)]
      exact ⟨_, rfl, ⟨rfl, rfl⟩, fun h => absurd h0 h, fun h => absurd h0 h, fun _ => ⟨rfl, rfl, fun _ => rfl, fun h => absurd hu h⟩⟩
    · have hp : 0 < unexplained E := lt_of_le_of_ne un (Ne.symm hu)
      simp only [Ext.ofVal, Ext.div, h0, hp, if_true, Ext.oneMinus, c1.not_gt, c2.not_gt, if_false, Ext.neg, Bool.false_eq_true]
      rw [if_neg (by omega)]
      exact ⟨_, rfl, ⟨rfl, rfl⟩, fun h => absurd h0 h, fun h => absurd h0 h, fun _ => ⟨rfl, rfl, fun h => absurd h hu, fun _ => rfl⟩⟩
  · have hr : ((Ext.num (unexplained E)).div (Ext.ofVal (some (total Y)))).oneMinus = .num (1 - unexplained E / total Y) := by
      simp only [Ext.ofVal, Ext.div, if_neg h0, Ext.oneMinus]
    rw [hr]
    by_cases hu : unexplained E = 0
    · simp only [hu, zero_div, sub_zero, Ext.div, Ext.oneMinus, sub_self, if_neg c1.ne', if_neg c2.ne', if_true, one_div, inv_pos, c1,
        Ext.neg, Bool.false_eq_true, if_false]
      rw [if_neg (by omega)]
      exact ⟨_, rfl, ⟨rfl, rfl⟩, fun _ h => absurd hu h, fun _ _ => ⟨rfl, rfl, rfl⟩, fun h => absurd h h0⟩
    · have hne : (1 - (1 - unexplained E / total Y)) / ((((m : Int) * (N - k)) : Int) : K) ≠ 0 := by
        rw [sub_sub_cancel]
        exact div_ne_zero (div_ne_zero hu h0) c2.ne'
      have hf : ((Ext.num (1 - unexplained E / total Y)).div (.num ((((m : Int) * (N - 1)) : Int) : K))).div
          ((Ext.num (1 - unexplained E / total Y)).oneMinus.div (.num ((((m : Int) * (N - k)) : Int) : K))) =
          .num ((1 - unexplained E / total Y) / ((m : K) * (N - 1)) / ((1 - (1 - unexplained E / total Y)) / ((m : K) * (N - k)))) := by
        simp only [Ext.div, Ext.oneMinus, if_neg c1.ne', if_neg c2.ne', if_neg hne]
        rw [v1, v2]
      rw [hf]
      by_cases hF : (1 - unexplained E / total Y) / ((m : K) * (N - 1)) / ((1 - (1 - unexplained E / total Y)) / ((m : K) * (N - k))) < 0
      · simp only [Ext.neg, decide_eq_true hF, if_true]
        exact ⟨_, rfl, ⟨rfl, rfl⟩, fun _ _ => ⟨_, _, rfl, rfl, rfl, rfl, fun h => absurd hF (not_lt.2 h), fun _ => rfl⟩,
          fun _ h => absurd h hu, fun h => absurd h h0⟩
      · simp only [Ext.neg, decide_eq_false hF, Bool.false_eq_true, if_false]
        rw [if_neg (by omega)]
        exact ⟨_, rfl, ⟨rfl, rfl⟩, fun _ _ => ⟨_, _, rfl, rfl, rfl, rfl, fun _ => rfl, fun h => absurd h hF⟩,
          fun _ h => absurd h hu, fun h => absurd h h0⟩

/-- As many observations as regressors: refused. -/
theorem goodness_throws (cdf : Int → Int → Ext K → K) {y resid : Mat K} {Y E : Matrix (Fin N) (Fin m) K} (hy : IsM y Y)
    (hE : IsM resid E) (pm : 0 < m) (pN : 0 < N) : goodness cdf y resid ((N : Int) * m) = .throws := by
  obtain ⟨s, e, hs, hs1⟩ := r2_spec hy hE pN
  have hd2 : (m : Int) * N - N * m = 0 := by ring
  have un := unexplained_nonneg E
  have tn := total_nonneg Y
  unfold goodness
  rw [e, Outcome.ok_bind, hy.rows, hy.cols]
  unfold fstat
  simp only [hd2, Int.cast_zero]
  rw [if_neg, if_pos (Or.inr le_rfl)]
  by_cases h2 : 2 ≤ N
  · have d1 : (0 : Int) < (m : Int) * (N - 1) := mul_pos (by omega) (by omega)
    have c1 : (0 : K) < ((((m : Int) * (N - 1)) : Int) : K) := by exact_mod_cast d1
    rw [hs h2]
    by_cases h0 : total Y = 0
    · by_cases hu : unexplained E = 0
      · simp [Ext.ofVal, Ext.div, h0, hu, Ext.oneMinus, Ext.neg]
      · have hp : 0 < unexplained E := lt_of_le_of_ne un (Ne.symm hu)
        simp [Ext.ofVal, Ext.div, h0, hp, Ext.oneMinus, Ext.neg, c1.not_gt, -Int.cast_mul, -Int.cast_sub]
    · have hr : ((Ext.num (unexplained E)).div (Ext.ofVal (some (total Y)))).oneMinus = .num (1 - unexplained E / total Y) := by
        simp only [Ext.ofVal, Ext.div, if_neg h0, Ext.oneMinus]
      rw [hr]
      have tp : 0 < total Y := lt_of_le_of_ne tn (Ne.symm h0)
      by_cases hu : unexplained E = 0
      · simp [hu, Ext.div, Ext.oneMinus, Ext.neg, c1.ne', -Int.cast_mul, -Int.cast_sub]
      · have hp : 0 < unexplained E := lt_of_le_of_ne un (Ne.symm hu)
        have : (0 : K) < 1 - (1 - unexplained E / total Y) := by rw [sub_sub_cancel]; positivity
        simp only [Ext.div, Ext.oneMinus, if_neg c1.ne', if_true, if_pos this, Ext.neg, lt_irrefl, decide_false]
        simp
  · have h1 : N = 1 := by omega
    rw [hs1 h1 pm]
    simp [Ext.ofVal, Ext.div, Ext.oneMinus, Ext.neg]


/-- Independent regressors: not more than observations. -/
theorem fullRank_le {X : Matrix (Fin N) (Fin k) K} (hX : FullRank X) : k ≤ N := by
  have inj : Function.Injective X.mulVecLin := by
    rw [← LinearMap.ker_eq_bot, LinearMap.ker_eq_bot']
    intro b hb
    exact hX b fun i => by have := congrFun hb i; simpa [mulVec, dotProduct] using this
  have := LinearMap.finrank_le_finrank_of_injective inj
  simpa using this

/-- If residuals are left over, there are more observations. -/
theorem fullRank_lt {X : Matrix (Fin N) (Fin k) K} (hX : FullRank X) {Y : Matrix (Fin N) (Fin m) K} (pm : 0 < m)
    (h : ∀ B : Matrix (Fin k) (Fin m) K, FullRank (left Y X B)) : k < N := by
  rcases lt_or_eq_of_le (fullRank_le hX) with hlt | heq
  · exact hlt
  · exfalso
    have inj : Function.Injective X.mulVecLin := by
      rw [← LinearMap.ker_eq_bot, LinearMap.ker_eq_bot']
      intro b hb
      exact hX b fun i => by have := congrFun hb i; simpa [mulVec, dotProduct] using this
    have sur := (LinearMap.injective_iff_surjective_of_finrank_eq_finrank (by simp [heq])).1 inj
    choose b hb using fun j => sur (fun i => Y i j)
    have := h (fun l j => b j l) (fun _ => 1) fun i => by
      refine Finset.sum_eq_zero fun j _ => ?_
      have h1 := congrFun (hb j) i
      have h2 : ∑ l, X i l * b j l = Y i j := by simpa [mulVec, dotProduct] using h1
      unfold left
      rw [h2, sub_self, zero_mul]
    exact one_ne_zero (congrFun this ⟨0, pm⟩)

end
end Su
end LDT
