import Verif.Spec.Correlation
import Verif.Model.Correlation
import Verif.Lemmas.AtA
import Verif.Lemmas.CorrNan
import Verif.Props.MatrixCov
import Verif.Props.MatrixStd
import Verif.Props.MatrixElem
/-!
# C74: covariance and correlation matrices
-/
namespace LDT
namespace Co
open Mx Stat
open Arr (Val sqrtV)

section
variable {K : Type} [Field K] [DecidableEq K]

/-! ## Without the check for NaN -/

omit [DecidableEq K] in
theorem zero_eq : (0 : Val K) = some 0 := rfl
omit [DecidableEq K] in
theorem add_some (a b : K) : (some a + some b : Val K) = some (a + b) := rfl
omit [DecidableEq K] in
theorem mul_some (a b : K) : (some a * some b : Val K) = some (a * b) := rfl
omit [DecidableEq K] in
theorem none_add (a : Val K) : (none + a : Val K) = none := by cases a <;> rfl
omit [DecidableEq K] in
theorem add_none (a : Val K) : (a + none : Val K) = none := by cases a <;> rfl
omit [DecidableEq K] in
theorem none_mul (a : Val K) : (none * a : Val K) = none := by cases a <;> rfl
omit [DecidableEq K] in
theorem mul_none (a : Val K) : (a * none : Val K) = none := by cases a <;> rfl

omit [DecidableEq K] in
theorem loopSum_some (f : Nat → Val K) (g : Nat → K) (n : Nat) (h : ∀ k, k < n → f k = some (g k)) :
    loopSum f n = some (∑ k ∈ Finset.range n, g k) := by
  induction n with
  | zero => rfl
  | succ n ih =>
    rw [loopSum, ih (fun k hk => h k (by omega)), h n (by omega), add_some, Finset.sum_range_succ]

omit [DecidableEq K] in
theorem loopSum_none (f : Nat → Val K) (n k : Nat) (hk : k < n) (h : f k = none) : loopSum f n = none := by
  induction n with
  | zero => omega
  | succ n ih =>
    rw [loopSum]
    rcases Nat.lt_succ_iff_lt_or_eq.1 hk with hk | rfl
    · rw [ih hk, none_add]
    · rw [h, add_none]

variable [CharZero K]

theorem numbers_get {xs : List (Val K)} (hx : none ∉ xs) {k : Nat} (hk : k < xs.length) :
    ∃ x, (numbers xs)[k]? = some x ∧ xs[k]? = some (some x) := by
  have e := eq_map_some hx
  have hk' : k < (numbers xs).length := by rw [numbers_length hx]; exact hk
  refine ⟨(numbers xs)[k], List.getElem?_eq_getElem hk', ?_⟩
  conv_lhs => rw [e]
  rw [List.getElem?_map, List.getElem?_eq_getElem hk']; rfl

theorem pairs_eq_zip {xs ys : List (Val K)} (hx : none ∉ xs) (hy : none ∉ ys) :
    pairs xs ys = (numbers xs).zip (numbers ys) := by
  unfold pairs
  conv_lhs => rw [eq_map_some hx, eq_map_some hy, List.zip_map, List.filterMap_map]
  rw [show (complete ∘ Prod.map some some : K × K → Option (K × K)) = some by funext p; rfl]
  simp

theorem pairs_fst {xs ys : List (Val K)} (hx : none ∉ xs) (hy : none ∉ ys) (hl : xs.length = ys.length) :
    (pairs xs ys).map Prod.fst = numbers xs ∧ (pairs xs ys).map Prod.snd = numbers ys ∧ (pairs xs ys).length = xs.length := by
  rw [pairs_eq_zip hx hy]
  have h1 := numbers_length hx
  have h2 := numbers_length hy
  refine ⟨List.map_fst_zip (by omega), List.map_snd_zip (by omega), by rw [List.length_zip]; omega⟩

/-- The sum of products of two columns of affine images. -/
theorem sum_products {xs ys : List (Val K)} (hx : none ∉ xs) (hy : none ∉ ys) (hl : xs.length = ys.length) (F G : K → K) (f g : Nat → K)
    (hf : ∀ (k : Nat) x, xs[k]? = some (some x) → f k = F x) (hg : ∀ (k : Nat) y, ys[k]? = some (some y) → g k = G y) :
    (∑ k ∈ Finset.range xs.length, f k * g k) = ((pairs xs ys).map (fun p => F p.1 * G p.2)).sum := by
  obtain ⟨-, -, h3⟩ := pairs_fst hx hy hl
  rw [← h3, Finset.sum_range, ← List.sum_ofFn]
  congr 1
  apply List.ext_getElem
  · simp
  · intro k h1 h2
    have hk : k < xs.length := by simp at h1; omega
    obtain ⟨x, e1, e2⟩ := numbers_get hx hk
    obtain ⟨y, e3, e4⟩ := numbers_get hy (show k < ys.length by omega)
    have : (pairs xs ys)[k]? = some (x, y) := by
      rw [pairs_eq_zip hx hy, List.getElem?_zip_eq_some]; exact ⟨e1, e3⟩
    rw [List.getElem?_eq_some_iff] at this
    obtain ⟨hk', e5⟩ := this
    simp only [List.getElem_ofFn, List.getElem_map, e5, hf k x e2, hg k y e4]

theorem pairs_swap (xs ys : List (Val K)) : pairs ys xs = (pairs xs ys).map Prod.swap := by
  unfold pairs
  induction xs generalizing ys with
  | nil => simp
  | cons x t ih =>
    cases ys with
    | nil => simp
    | cons y u =>
      simp only [List.zip_cons_cons, List.filterMap_cons]
      cases x <;> cases y <;> simp [complete, ih u]

theorem coSum_swap (l : List (K × K)) : coSum (l.map Prod.swap) = coSum l := by
  unfold coSum
  rw [List.map_map, List.map_map, List.map_map]
  congr 1
  apply List.map_congr_left
  intro p _
  simp only [Function.comp, Prod.fst_swap, Prod.snd_swap]
  rw [mul_comm]; rfl

theorem covOf_comm (adjust : Bool) (xs ys : List (Val K)) : covOf adjust xs ys = covOf adjust ys xs := by
  unfold covOf
  rw [pairs_swap xs ys, coSum_swap, List.length_map]
  simp only [or_comm]

/-- The product part: what the two standardized columns give. -/
theorem product_spec (c result : Mat (Val K)) (w : c.Wf) (wr : result.Wf) (h1 : result.rows = c.cols) (h2 : result.cols = c.cols)
    (pr : 0 < c.rows) (pc : 0 < c.cols) (setLower : Bool) (div : Int) :
    ∃ r r', c.dotAtA result setLower (some 1) (0 : Val K) = .ok r ∧ r.scalarIn (fun x => vdiv x (vint div)) = .ok r' ∧
      SameShape result r' ∧
      ∀ i j, result.InR i j → i ≤ j ∨ setLower = true → r'.get i j =
        .ok (vdiv ((some 1 : Val K) * loopSum (fun k => c.val k (min i j) * c.val k (max i j)) c.rows.toNat) (vint div)) := by
  obtain ⟨r, e, s, v1, v2⟩ := dotAtA0_spec c result w wr setLower (some 1) h1 h2 pr pc
  obtain ⟨r', e', s', c'⟩ := scalarIn_spec (s.wf wr) (fun x => vdiv x (vint div))
  refine ⟨r, r', e, e', s.trans s', fun i j hij hs => ?_⟩
  have hv : r.get i j = .ok (r.val i j) := get_val (s.wf wr) (s.inR.2 hij)
  rw [c' i j _ hv]
  congr 2
  by_cases hle : i ≤ j
  · rw [v1 i j hij hle, min_eq_left hle, max_eq_right hle]
  · rw [v2 i j hij (by omega), if_pos (hs.resolve_left hle), min_eq_right (by omega), max_eq_left (by omega)]

/-- C74, covariance without the check: every cell of the result is the covariance of the two columns, missing if a cell of one
of them is missing; the means are those of the columns. -/
theorem C74_covariance_full (vsqrt : Val K → Val K) (adjust setLower : Bool) (m result means vars : Mat (Val K)) (w : m.Wf)
    (wr : result.Wf) (wm : means.Wf) (h1 : result.rows = m.cols) (h2 : result.cols = m.cols) (hm : means.length = m.cols)
    (pr : 0 < m.rows) (pc : 0 < m.cols) :
    ∃ r me, pearsonFull vsqrt .covariance adjust setLower m result means vars = .ok (r, me, vars) ∧ SameShape result r ∧
      (∀ (i j : Nat) xs ys, (i : Int) < m.cols → (j : Int) < m.cols → i ≤ j ∨ setLower = true → IsColumn m i xs → IsColumn m j ys →
        r.get i j = .ok (covOf adjust xs ys)) ∧
      ∀ (j : Nat) xs, (j : Int) < m.cols → IsColumn m j xs →
        me.getLin j = .ok (if none ∈ xs then none else some (mean (numbers xs))) := by
  obtain ⟨me, em, sm, cm⟩ := (C66_columns_means m means w wm).1 hm
  have lm : me.length = m.cols := by unfold Mat.length at *; rw [sm.rows, sm.cols]; exact hm
  obtain ⟨c, ec, sc, cc⟩ := (C66_standardize vsqrt m w true).2.2.1 me (sm.wf wm) lm
  obtain ⟨r, r', e1, e2, s, v⟩ := product_spec c result (sc.wf w) wr (by rw [h1, sc.cols]) (by rw [h2, sc.cols])
    (by rw [sc.rows]; exact pr) (by rw [sc.cols]; exact pc) setLower (divisor .covariance adjust m.rows)
  have avg_eq : ∀ (j : Int) xs, IsColumn m j xs → avg xs = if none ∈ xs then none else some (mean (numbers xs)) := by
    intro j xs hx
    have : xs ≠ [] := by
      intro h; have := hx.len; rw [h] at this; simp at this; omega
    unfold avg
    simp [this]
  refine ⟨r', me, ?_, s, ?_, fun j xs hj hx => by rw [cm j xs hj hx, avg_eq j xs hx]⟩
  · unfold pearsonFull standardized
    simp only
    rw [em, Outcome.ok_bind, ec, Outcome.ok_bind]
    show (c.dotAtA result setLower (some 1) (0 : Val K) >>= _) = _
    rw [e1, Outcome.ok_bind]
    show (r.scalarIn _ >>= _) = _
    rw [e2]; rfl
  -- the cells
  have cell : ∀ (j : Nat) xs, (j : Int) < m.cols → IsColumn m j xs → ∀ (k : Nat) x, xs[k]? = some x →
      c.val k j = vsub x (if none ∈ xs then none else some (mean (numbers xs))) := by
    intro j xs hj hx k x hk
    have hg := cc k j x _ (hx.cell k x hk) (cm j xs hj hx)
    rw [avg_eq j xs hx] at hg
    have hlt : k < xs.length := by rw [List.getElem?_eq_some_iff] at hk; exact hk.1
    have := hx.len
    have hin : c.InR k j := sc.inR.2 ⟨by omega, by omega, by omega, hj⟩
    rw [get_val (sc.wf w) hin] at hg
    exact Outcome.ok.inj hg
  have upper : ∀ (i j : Nat) xs ys, (i : Int) < m.cols → (j : Int) < m.cols → IsColumn m i xs → IsColumn m j ys →
      vdiv ((some 1 : Val K) * loopSum (fun k => c.val k i * c.val k j) c.rows.toNat) (vint (divisor .covariance adjust m.rows)) =
        covOf adjust xs ys := by
    intro i j xs ys hi hj hx hy
    have lx := hx.len
    have ly := hy.len
    have hr : c.rows.toNat = xs.length := by rw [sc.rows]; omega
    unfold covOf
    by_cases hn : none ∈ xs ∨ none ∈ ys
    · rw [if_pos hn, loopSum_none _ _ 0 (by omega), mul_none]
      · rfl
      · have g1 : xs[0]? = some xs[0] := List.getElem?_eq_getElem (by omega)
        have g2 : ys[0]? = some ys[0] := List.getElem?_eq_getElem (by omega)
        have a := cell i xs hi hx 0 _ g1
        have b := cell j ys hj hy 0 _ g2
        rcases hn with hn | hn
        · rw [if_pos hn] at a
          rw [a]
          have : vsub xs[0] (none : Val K) = none := by cases xs[0] <;> rfl
          rw [this, none_mul]
        · rw [if_pos hn] at b
          rw [b]
          have : vsub ys[0] (none : Val K) = none := by cases ys[0] <;> rfl
          rw [this, mul_none]
    · rw [if_neg hn]
      rw [not_or] at hn
      obtain ⟨p1, p2, p3⟩ := pairs_fst hn.1 hn.2 (by omega)
      have val : ∀ (j : Nat) xs, (j : Int) < m.cols → IsColumn m j xs → none ∉ xs → ∃ f : Nat → K, ∀ (k : Nat) x, xs[k]? = some (some x) →
          f k = x - mean (numbers xs) ∧ c.val k j = some (f k) := by
        intro j xs hj hx hn
        refine ⟨fun k => (c.val k j).getD 0, fun k x hk => ?_⟩
        have := cell j xs hj hx k _ hk
        rw [if_neg hn] at this
        simp only [this]; exact ⟨rfl, rfl⟩
      obtain ⟨f, hf⟩ := val i xs hi hx hn.1
      obtain ⟨g, hg⟩ := val j ys hj hy hn.2
      rw [loopSum_some _ (fun k => f k * g k), hr, sum_products hn.1 hn.2 (by omega) (fun x => x - mean (numbers xs))
        (fun x => x - mean (numbers ys)) f g (fun k x hk => (hf k x hk).1) (fun k x hk => (hg k x hk).1), mul_some, one_mul]
      · rw [show (List.map (fun p : K × K => (p.1 - mean (numbers xs)) * (p.2 - mean (numbers ys))) (pairs xs ys)).sum = coSum (pairs xs ys) by
          unfold coSum; rw [p1, p2]]
        rw [← divCount_eq, p3]
        unfold divCount divisor
        rw [lx]
        cases adjust <;> simp
      · intro k hk
        obtain ⟨x, -, ex⟩ := numbers_get hn.1 (show k < xs.length by omega)
        obtain ⟨y, -, ey⟩ := numbers_get hn.2 (show k < ys.length by omega)
        rw [(hf k x ex).2, (hg k y ey).2, mul_some]
  intro i j xs ys hi hj hs hx hy
  rw [v i j ⟨by omega, by rw [h1]; exact hi, by omega, by rw [h2]; exact hj⟩ (by simpa using hs)]
  congr 1
  by_cases hle : i ≤ j
  · rw [min_eq_left (by omega), max_eq_right (by omega)]; exact upper i j xs ys hi hj hx hy
  · rw [min_eq_right (by omega), max_eq_left (by omega), upper j i ys xs hj hi hy hx]
    exact covOf_comm adjust ys xs

end

section
open Classical

/-- Mean and population variance of a column of cells. -/
noncomputable def statsOf (xs : List (Val ℝ)) : Val ℝ × Val ℝ :=
  (if none ∈ xs ∨ xs.length < 2 then none else some (sqSum (numbers xs) / xs.length),
    if none ∈ xs then none else some (mean (numbers xs)))

theorem variance_all {m : Mat (Val ℝ)} (w : m.Wf) (pr : 0 < m.rows) {j : Int} (h0 : 0 ≤ j) {xs : List (Val ℝ)} (hx : IsColumn m j xs) :
    (m.colView j).variance false false = .ok (statsOf xs) := by
  have hc := colView_cells w h0 hx
  have hl := hx.len
  obtain ⟨-, a, b, c, -⟩ := C65_variance_partial _ _ hc false
  unfold statsOf
  by_cases h2 : 2 ≤ xs.length
  · by_cases hn : none ∈ xs
    · rw [b h2 hn, if_pos (Or.inl hn), if_pos hn]
    · rw [a h2 hn, if_neg (by rintro (h | h); exact hn h; omega), if_neg hn, numbers_length hn]
      unfold perCount
      simp only [Bool.false_eq_true, if_false]
      rw [if_neg]
      have : xs.length ≠ 0 := by omega
      exact_mod_cast this
  · obtain ⟨x, rfl⟩ : ∃ x, xs = [x] := by
      apply List.length_eq_one_iff.1; omega
    rw [c false x rfl, if_pos (Or.inr (by simp))]
    cases x <;> simp [numbers, mean]

theorem sqSum_single (x : ℝ) : sqSum [x] = 0 := by simp [sqSum, mean]

theorem corOf_comm (xs ys : List (Val ℝ)) : corOf xs ys = corOf ys xs := by
  unfold corOf
  rw [pairs_swap xs ys, coSum_swap, mul_comm (Real.sqrt (sqSum (numbers ys)))]
  congr 1
  apply propext
  tauto

/-- C74, correlation without the check: every cell of the result is the coefficient of correlation of the two columns, missing if
a cell of one of them is missing or one of them is constant; means and variances (not adjusted) are those of the columns. -/
theorem C74_correlation_full (adjust setLower : Bool) (m result means vars : Mat (Val ℝ)) (w : m.Wf)
    (wr : result.Wf) (wm : means.Wf) (wv : vars.Wf) (h1 : result.rows = m.cols) (h2 : result.cols = m.cols)
    (hm : means.length = m.cols) (hv : vars.length = m.cols) (pr : 0 < m.rows) (pc : 0 < m.cols) :
    ∃ r me va, pearsonFull rsqrt .correlation adjust setLower m result means vars = .ok (r, me, va) ∧ SameShape result r ∧
      (∀ (i j : Nat) xs ys, (i : Int) < m.cols → (j : Int) < m.cols → i ≤ j ∨ setLower = true → IsColumn m i xs → IsColumn m j ys →
        r.get i j = .ok (corOf xs ys)) ∧
      ∀ (j : Nat) xs, (j : Int) < m.cols → IsColumn m j xs →
        me.getLin j = .ok (if none ∈ xs then none else some (mean (numbers xs))) ∧
        va.getLin j = .ok (if none ∈ xs ∨ xs.length < 2 then none else some (sqSum (numbers xs) / xs.length)) := by
  obtain ⟨me, va, em, sm, sv, cm⟩ := meansVariances_gen w wm wv false false statsOf
    (fun j xs h0 _ hx => variance_all w pr h0 hx) hm hv
  have lm : me.length = m.cols := by unfold Mat.length at *; rw [sm.rows, sm.cols]; exact hm
  have lv : va.length = m.cols := by unfold Mat.length at *; rw [sv.rows, sv.cols]; exact hv
  obtain ⟨c, ec, sc, cc⟩ := (C66_standardize rsqrt m w true).1 me va (sm.wf wm) (sv.wf wv) lm lv
  obtain ⟨r, r', e1, e2, s, v⟩ := product_spec c result (sc.wf w) wr (by rw [h1, sc.cols]) (by rw [h2, sc.cols])
    (by rw [sc.rows]; exact pr) (by rw [sc.cols]; exact pc) setLower (divisor .correlation adjust m.rows)
  refine ⟨r', me, va, ?_, s, ?_, fun j xs hj hx => cm j xs hj hx⟩
  · unfold pearsonFull standardized
    simp only
    rw [em, Outcome.ok_bind, ec, Outcome.ok_bind]
    show (c.dotAtA result setLower (some 1) (0 : Val ℝ) >>= _) = _
    rw [e1, Outcome.ok_bind]
    show (r.scalarIn _ >>= _) = _
    rw [e2]; rfl
  -- the cells
  have cell : ∀ (j : Nat) xs, (j : Int) < m.cols → IsColumn m j xs → ∀ (k : Nat) x, xs[k]? = some x →
      c.val k j = if none ∈ xs ∨ sqSum (numbers xs) = 0 then none
        else x.map (fun x => (x - mean (numbers xs)) / Real.sqrt (sqSum (numbers xs) / xs.length)) := by
    intro j xs hj hx k x hk
    have hg := cc k j x _ _ (hx.cell k x hk) (cm j xs hj hx).1 (cm j xs hj hx).2
    have hlt : k < xs.length := by rw [List.getElem?_eq_some_iff] at hk; exact hk.1
    have hl := hx.len
    have hin : c.InR k j := sc.inR.2 ⟨by omega, by omega, by omega, hj⟩
    rw [get_val (sc.wf w) hin] at hg
    rw [Outcome.ok.inj hg, if_pos rfl]
    have s2 : (statsOf xs).2 = if none ∈ xs then none else some (mean (numbers xs)) := rfl
    have s1 : (statsOf xs).1 = if none ∈ xs ∨ xs.length < 2 then none else some (sqSum (numbers xs) / xs.length) := rfl
    by_cases hn : none ∈ xs
    · rw [if_pos hn] at s2
      rw [if_pos (Or.inl hn)] at s1
      rw [s1, s2, if_pos (Or.inl hn), if_neg (by simp)]
      cases x <;> rfl
    · obtain ⟨a, ha⟩ : ∃ a, x = some a := by
        cases x with
        | none => exact absurd (List.mem_of_getElem? hk) hn
        | some a => exact ⟨a, rfl⟩
      subst ha
      by_cases h2 : xs.length < 2
      · have : sqSum (numbers xs) = 0 := by
          have h3 := numbers_length hn
          have h4 : (numbers xs).length = 1 := by omega
          obtain ⟨y, hy⟩ := List.length_eq_one_iff.1 h4
          rw [hy, sqSum_single]
        rw [if_neg hn] at s2
        rw [if_pos (Or.inr h2)] at s1
        rw [s1, s2, if_pos (Or.inr this), if_neg (by simp)]
        rfl
      · rw [if_neg hn] at s2
        rw [if_neg (by rintro (h | h); exact hn h; exact h2 h)] at s1
        rw [s1, s2]
        have hpos : (0 : ℝ) < xs.length := by
          have : 0 < xs.length := by omega
          exact_mod_cast this
        by_cases hz : sqSum (numbers xs) = 0
        · rw [if_pos (Or.inr hz), hz, zero_div, if_pos rfl]
        · have hp : 0 < sqSum (numbers xs) := lt_of_le_of_ne (sqSum_nonneg _) (Ne.symm hz)
          have hq := div_pos hp hpos
          have ne : ¬ (some (sqSum (numbers xs) / (xs.length : ℝ)) = some (0 : ℝ)) := fun h => hq.ne' (Option.some.inj h)
          have ok : ¬ (none ∈ xs ∨ sqSum (numbers xs) = 0) := not_or.2 ⟨hn, hz⟩
          rw [if_neg ok, if_neg ne]
          unfold rsqrt sqrtV
          rw [Option.bind_some, if_neg (not_lt.2 hq.le)]
          simp only [vsub_some, vdiv_some, (Real.sqrt_pos.2 hq).ne', if_false, Option.map_some]
  have upper : ∀ (i j : Nat) xs ys, (i : Int) < m.cols → (j : Int) < m.cols → IsColumn m i xs → IsColumn m j ys →
      vdiv ((some 1 : Val ℝ) * loopSum (fun k => c.val k i * c.val k j) c.rows.toNat) (vint (divisor .correlation adjust m.rows)) =
        corOf xs ys := by
    intro i j xs ys hi hj hx hy
    have lx := hx.len
    have ly := hy.len
    have hr : c.rows.toNat = xs.length := by rw [sc.rows]; omega
    have hd : divisor .correlation adjust m.rows = xs.length := by unfold divisor; simp [lx]
    unfold corOf
    by_cases hn : none ∈ xs ∨ none ∈ ys ∨ sqSum (numbers xs) = 0 ∨ sqSum (numbers ys) = 0
    · rw [if_pos hn, loopSum_none _ _ 0 (by omega), mul_none]
      · rfl
      · have g1 : xs[0]? = some xs[0] := List.getElem?_eq_getElem (by omega)
        have g2 : ys[0]? = some ys[0] := List.getElem?_eq_getElem (by omega)
        have a := cell i xs hi hx 0 _ g1
        have b := cell j ys hj hy 0 _ g2
        by_cases hb : none ∈ xs ∨ sqSum (numbers xs) = 0
        · rw [if_pos hb] at a
          rw [a, none_mul]
        · rw [if_pos (by tauto)] at b
          rw [b, mul_none]
    · rw [if_neg hn]
      simp only [not_or] at hn
      obtain ⟨n1, n2, n3, n4⟩ := hn
      obtain ⟨p1, p2, p3⟩ := pairs_fst n1 n2 (by omega)
      have val : ∀ (j : Nat) xs, (j : Int) < m.cols → IsColumn m j xs → none ∉ xs → sqSum (numbers xs) ≠ 0 →
          ∃ f : Nat → ℝ, ∀ (k : Nat) x, xs[k]? = some (some x) →
          f k = (x - mean (numbers xs)) / Real.sqrt (sqSum (numbers xs) / xs.length) ∧ c.val k j = some (f k) := by
        intro j xs hj hx hn hz
        refine ⟨fun k => (c.val k j).getD 0, fun k x hk => ?_⟩
        have := cell j xs hj hx k _ hk
        rw [if_neg (by tauto)] at this
        simp only [this]; exact ⟨rfl, rfl⟩
      obtain ⟨f, hf⟩ := val i xs hi hx n1 n3
      obtain ⟨g, hg⟩ := val j ys hj hy n2 n4
      rw [loopSum_some _ (fun k => f k * g k), hr, sum_products n1 n2 (by omega)
        (fun x => (x - mean (numbers xs)) / Real.sqrt (sqSum (numbers xs) / xs.length))
        (fun x => (x - mean (numbers ys)) / Real.sqrt (sqSum (numbers ys) / ys.length)) f g
        (fun k x hk => (hf k x hk).1) (fun k x hk => (hg k x hk).1), mul_some, one_mul, hd]
      · have hlen : ys.length = xs.length := by omega
        have hpos : (0 : ℝ) < xs.length := by
          have : 0 < xs.length := by omega
          exact_mod_cast this
        have q1 : 0 < sqSum (numbers xs) := lt_of_le_of_ne (sqSum_nonneg _) (Ne.symm n3)
        have q2 : 0 < sqSum (numbers ys) := lt_of_le_of_ne (sqSum_nonneg _) (Ne.symm n4)
        have hs : (List.map (fun p : ℝ × ℝ => (p.1 - mean (numbers xs)) / Real.sqrt (sqSum (numbers xs) / xs.length) *
            ((p.2 - mean (numbers ys)) / Real.sqrt (sqSum (numbers ys) / ys.length))) (pairs xs ys)).sum =
            coSum (pairs xs ys) / (Real.sqrt (sqSum (numbers xs) / xs.length) * Real.sqrt (sqSum (numbers ys) / ys.length)) := by
          unfold coSum
          rw [p1, p2]
          induction pairs xs ys with
          | nil => simp
          | cons p t ih => simp only [List.map_cons, List.sum_cons, ih]; ring
        rw [hs, hlen, Real.sqrt_div q1.le, Real.sqrt_div q2.le]
        simp only [vint, vdiv_some, Int.cast_natCast, hpos.ne', if_false, Option.some.injEq]
        have t1 := (Real.sqrt_pos.2 q1).ne'
        have t2 := (Real.sqrt_pos.2 q2).ne'
        have t3 := (Real.sqrt_pos.2 hpos).ne'
        have t4 := Real.mul_self_sqrt hpos.le
        rw [div_mul_div_comm, t4]
        field_simp
      · intro k hk
        obtain ⟨x, -, ex⟩ := numbers_get n1 (show k < xs.length by omega)
        obtain ⟨y, -, ey⟩ := numbers_get n2 (show k < ys.length by omega)
        rw [(hf k x ex).2, (hg k y ey).2, mul_some]
  intro i j xs ys hi hj hs hx hy
  rw [v i j ⟨by omega, by rw [h1]; exact hi, by omega, by rw [h2]; exact hj⟩ (by simpa using hs)]
  congr 1
  by_cases hle : i ≤ j
  · rw [min_eq_left (by omega), max_eq_right (by omega)]; exact upper i j xs ys hi hj hx hy
  · rw [min_eq_right (by omega), max_eq_left (by omega), upper j i ys xs hj hi hy hx]
    exact corOf_comm ys xs

end

/-! ## With the check for NaN -/

section
variable {K : Type} [Field K] [DecidableEq K] [CharZero K]

theorem cov_any (m : Mat (Val K)) {j1 j2 : Int} (hj1 : 0 ≤ j1 ∧ j1 < m.cols) (hj2 : 0 ≤ j2 ∧ j2 < m.cols)
    {xs ys : List (Val K)} (h1 : IsColumn m j1 xs) (h2 : IsColumn m j2 ys) (hn : 2 ≤ m.rows) (sample : Bool) :
    m.covarianceColumn j1 j2 sample true =
      .ok ⟨perCount sample (coSum (pairs xs ys)) (pairs xs ys).length, some (mean ((pairs xs ys).map Prod.fst)),
        some (mean ((pairs xs ys).map Prod.snd)), (pairs xs ys).length⟩ := by
  unfold Mat.covarianceColumn
  rw [if_neg (by omega), if_neg (by omega), if_neg (by omega), cov_eq h1 h2, Outcome.ok_bind, covFold_true]
  simp only [if_true]
  show Outcome.ok _ = _
  simp only [covState, divCount_eq]; rfl

theorem var_any (m : Mat (Val K)) {j : Int} {xs : List (Val K)} (h : IsColumn m j xs) (hn : 2 ≤ m.rows) (sample : Bool) :
    m.varianceColumn j sample true =
      .ok ⟨perCount sample (sqSum (numbers xs)) (numbers xs).length, some (mean (numbers xs)), (numbers xs).length⟩ := by
  unfold Mat.varianceColumn
  have hl := h.len
  rw [if_neg (by omega), if_neg (by omega)]
  have e := scanCells_eq m.mem (m.rows * j) (varStep true) ⟨some 0, some 0, 0⟩ xs (isColumn_read h)
  rw [hl] at e
  rw [e, Outcome.ok_bind, varFold_true]
  simp only [if_true, divCount_eq]; rfl

/-- C74, covariance with the check: a cell off the diagonal is the covariance over the rows in which both columns have a number (at
least one such row), a cell of the diagonal the variance of the numbers of the column (at least one), and the counts are the
numbers of rows used. -/
theorem C74_covariance_checked (vsqrt : Val K → Val K) (adjust setLower : Bool) (m : Mat (Val K)) (s : Res K) (w : m.Wf)
    (w0 : s.result.Wf) (r0 : s.result.rows = m.cols) (c0 : s.result.cols = m.cols) (rc : s.counts.rows = m.cols)
    (sc : (s.counts.data.length : Int) = symLength true m.cols) (h2 : 2 ≤ m.rows) :
    ∃ res, pearsonNan vsqrt .covariance adjust setLower m s = .ok res ∧ SameShape s.result res.result ∧ res.counts.rows = m.cols ∧
      (∀ (i j : Nat) xs ys, i ≠ j → (i : Int) < m.cols → (j : Int) < m.cols → IsColumn m i xs → IsColumn m j ys → pairs xs ys ≠ [] →
        (i < j ∨ setLower = true → res.result.get i j = .ok (perCount adjust (coSum (pairs xs ys)) (pairs xs ys).length)) ∧
        res.counts.get true i j = .ok (some ((pairs xs ys).length : K))) ∧
      ∀ (j : Nat) xs, (j : Int) < m.cols → IsColumn m j xs → numbers xs ≠ [] →
        res.result.get j j = .ok (perCount adjust (sqSum (numbers xs)) (numbers xs).length) ∧
        res.counts.get true j j = .ok (some ((numbers xs).length : K)) := by
  classical
  choose! col hcol using fun (j : Int) (h : 0 ≤ j ∧ j < m.cols) => exists_isColumn w h.1 h.2
  obtain ⟨res, e, I⟩ := pearsonNan_spec (sl := setLower) (dc := true)
    (W := fun i j => if i = j then perCount adjust (sqSum (numbers (col i))) (numbers (col i)).length
      else perCount adjust (coSum (pairs (col i) (col j))) (pairs (col i) (col j)).length)
    (Wc := fun i j => if i = j then some ((numbers (col i)).length : K) else some ((pairs (col i) (col j)).length : K))
    vsqrt .covariance adjust m s w w0 r0 c0 rc sc
    (by
      intro i j hi hij hj
      refine ⟨(pairs (col i) (col j)).length, ?_, ?_⟩
      · unfold pairValue
        simp only
        rw [cov_any m ⟨hi, by omega⟩ ⟨by omega, hj⟩ (hcol i ⟨hi, by omega⟩) (hcol j ⟨by omega, hj⟩) h2, if_neg (by omega)]; rfl
      · rw [if_neg (by omega)]; simp [vint])
    (by
      intro i hi hj
      right
      refine ⟨rfl, rfl, some (mean (numbers (col i))), (numbers (col i)).length, ?_, ?_⟩
      · rw [if_pos rfl]; exact var_any m (hcol i ⟨hi, hj⟩) h2 adjust
      · rw [if_pos rfl]; simp [vint])
  have wr := I.shape.wf w0
  have inR : ∀ i j : Nat, (i : Int) < m.cols → (j : Int) < m.cols → res.result.InR i j :=
    fun i j h1 h2 => I.shape.inR.2 ⟨by omega, by omega, by omega, by omega⟩
  have same : ∀ (j : Nat) xs, (j : Int) < m.cols → IsColumn m j xs → col j = xs :=
    fun j xs hj hx => isColumn_unique (hcol j ⟨by omega, hj⟩) hx
  refine ⟨res, e, I.shape, I.rows, ?_, ?_⟩
  · intro i j xs ys hij hi hj hx hy _
    rw [get_val wr (inR i j hi hj)]
    rcases lt_or_gt_of_ne hij with h | h
    · obtain ⟨d1, -, d3⟩ := I.done i j (by omega) (by omega) hj trivial
      rw [if_neg (by omega), same i xs hi hx, same j ys hj hy] at d1 d3
      exact ⟨fun _ => by rw [d1], (d3 (Or.inl (by omega))).1⟩
    · obtain ⟨-, d2, d3⟩ := I.done j i (by omega) (by omega) hi trivial
      rw [if_neg (by omega), same i xs hi hx, same j ys hj hy] at d2 d3
      rw [pairs_swap xs ys, coSum_swap, List.length_map] at d2
      rw [pairs_swap xs ys, List.length_map] at d3
      exact ⟨fun h' => by rw [d2 (h'.resolve_left (by omega))], (d3 (Or.inl (by omega))).2⟩
  · intro j xs hj hx _
    obtain ⟨d1, -, d3⟩ := I.done j j (by omega) (by omega) hj trivial
    rw [if_pos rfl, same j xs hj hx] at d1 d3
    rw [get_val wr (inR j j hj hj), d1]
    exact ⟨rfl, (d3 (Or.inr rfl)).1⟩

end

section
open Classical

theorem cor_any (m : Mat (Val ℝ)) {j1 j2 : Int} (hj1 : 0 ≤ j1 ∧ j1 < m.cols) (hj2 : 0 ≤ j2 ∧ j2 < m.cols)
    {xs ys : List (Val ℝ)} (h1 : IsColumn m j1 xs) (h2 : IsColumn m j2 ys) (hn : 2 ≤ m.rows) (sample : Bool) :
    ∃ r, m.correlationColumn rsqrt j1 j2 sample true = .ok r ∧ r.cor = pearson (pairs xs ys) ∧
      r.count = some ((pairs xs ys).length : Int) := by
  unfold Mat.correlationColumn
  rw [if_neg (by omega), if_neg (by omega), if_neg (by omega), cor_eq h1 h2, Outcome.ok_bind, corFold_true]
  exact ⟨_, rfl, corFinish_eq _, rfl⟩

theorem pearson_swap (l : List (ℝ × ℝ)) : pearson (l.map Prod.swap) = pearson l := by
  have e1 : (l.map Prod.swap).map Prod.fst = l.map Prod.snd := by rw [List.map_map]; rfl
  have e2 : (l.map Prod.swap).map Prod.snd = l.map Prod.fst := by rw [List.map_map]; rfl
  unfold pearson
  rw [e1, e2, coSum_swap, mul_comm (Real.sqrt _)]
  congr 1
  · apply propext; tauto
  · congr 1; apply propext; tauto

/-- C74, correlation with the check: a cell off the diagonal is the coefficient of correlation over the rows in which both columns
have a number (at least one such row; 1 for two constant columns), the diagonal is 1, and the counts off the diagonal are the
numbers of rows used. Missing: the diagonal of the counts, see `C74_violated_counts`. -/
theorem C74_correlation_checked_partial (adjust setLower : Bool) (m : Mat (Val ℝ)) (s : Res ℝ) (w : m.Wf)
    (w0 : s.result.Wf) (r0 : s.result.rows = m.cols) (c0 : s.result.cols = m.cols) (rc : s.counts.rows = m.cols)
    (sc : (s.counts.data.length : Int) = symLength true m.cols) (h2 : 2 ≤ m.rows) :
    ∃ res, pearsonNan rsqrt .correlation adjust setLower m s = .ok res ∧ SameShape s.result res.result ∧ res.counts.rows = m.cols ∧
      (∀ (i j : Nat) xs ys, i ≠ j → (i : Int) < m.cols → (j : Int) < m.cols → IsColumn m i xs → IsColumn m j ys → pairs xs ys ≠ [] →
        (i < j ∨ setLower = true → res.result.get i j = .ok (pearson (pairs xs ys))) ∧
        res.counts.get true i j = .ok (some ((pairs xs ys).length : ℝ))) ∧
      (∀ j : Nat, (j : Int) < m.cols → res.result.get j j = .ok (some 1)) ∧
      ∀ j : Int, res.counts.get true j j = s.counts.get true j j := by
  choose! col hcol using fun (j : Int) (h : 0 ≤ j ∧ j < m.cols) => exists_isColumn w h.1 h.2
  obtain ⟨res, e, I⟩ := pearsonNan_spec (sl := setLower) (dc := false)
    (W := fun i j => if i = j then some 1 else pearson (pairs (col i) (col j)))
    (Wc := fun i j => some ((pairs (col i) (col j)).length : ℝ))
    rsqrt .correlation adjust m s w w0 r0 c0 rc sc
    (by
      intro i j hi hij hj
      refine ⟨(pairs (col i) (col j)).length, ?_, ?_⟩
      · unfold pairValue
        simp only
        obtain ⟨r, e, e1, e2⟩ := cor_any m (j1 := i) (j2 := j) ⟨hi, by omega⟩ ⟨by omega, hj⟩ (hcol i ⟨hi, by omega⟩) (hcol j ⟨by omega, hj⟩) h2 adjust
        rw [e, Outcome.ok_bind, e1, e2, if_neg (by omega)]; rfl
      · simp [vint])
    (by
      intro i hi hj
      left
      exact ⟨rfl, rfl, if_pos rfl⟩)
  have wr := I.shape.wf w0
  have inR : ∀ i j : Nat, (i : Int) < m.cols → (j : Int) < m.cols → res.result.InR i j :=
    fun i j h1 h2 => I.shape.inR.2 ⟨by omega, by omega, by omega, by omega⟩
  have same : ∀ (j : Nat) xs, (j : Int) < m.cols → IsColumn m j xs → col j = xs :=
    fun j xs hj hx => isColumn_unique (hcol j ⟨by omega, hj⟩) hx
  refine ⟨res, e, I.shape, I.rows, ?_, ?_, fun j => I.diagonal rfl j⟩
  · intro i j xs ys hij hi hj hx hy _
    rw [get_val wr (inR i j hi hj)]
    rcases lt_or_gt_of_ne hij with h | h
    · obtain ⟨d1, -, d3⟩ := I.done i j (by omega) (by omega) hj trivial
      rw [if_neg (by omega), same i xs hi hx, same j ys hj hy] at d1
      rw [same i xs hi hx, same j ys hj hy] at d3
      exact ⟨fun _ => by rw [d1], (d3 (Or.inl (by omega))).1⟩
    · obtain ⟨-, d2, d3⟩ := I.done j i (by omega) (by omega) hi trivial
      rw [if_neg (by omega), same i xs hi hx, same j ys hj hy] at d2
      rw [same i xs hi hx, same j ys hj hy] at d3
      rw [pairs_swap xs ys, pearson_swap] at d2
      rw [pairs_swap xs ys, List.length_map] at d3
      exact ⟨fun h' => by rw [d2 (h'.resolve_left (by omega))], (d3 (Or.inl (by omega))).2⟩
  · intro j hj
    obtain ⟨d1, -, -⟩ := I.done j j (by omega) (by omega) hj trivial
    rw [if_pos rfl] at d1
    rw [get_val wr (inR j j hj hj), d1]

/-- C74, violated: the counts of a correlation on the diagonal are whatever was in the memory. -/
theorem C74_violated_counts (adjust setLower : Bool) (m : Mat (Val ℝ)) (s : Res ℝ) (w : m.Wf)
    (w0 : s.result.Wf) (r0 : s.result.rows = m.cols) (c0 : s.result.cols = m.cols) (rc : s.counts.rows = m.cols)
    (sc : (s.counts.data.length : Int) = symLength true m.cols) (h2 : 2 ≤ m.rows) :
    ∃ res, pearsonNan rsqrt .correlation adjust setLower m s = .ok res ∧
      ∀ j : Int, res.counts.get true j j = s.counts.get true j j := by
  obtain ⟨res, e, -, -, -, -, h⟩ := C74_correlation_checked_partial adjust setLower m s w w0 r0 c0 rc sc h2
  exact ⟨res, e, h⟩

/-! ## What the matrices are -/

/-- C74. A coefficient of correlation is between -1 and 1, with either routine. -/
theorem C74_bounds (l : List (ℝ × ℝ)) (c : ℝ) (h : pearson l = some c) : -1 ≤ c ∧ c ≤ 1 := by
  rw [← abs_le]
  have n1 := sqSum_nonneg (l.map Prod.fst)
  have n2 := sqSum_nonneg (l.map Prod.snd)
  unfold pearson at h
  split_ifs at h with a b
  · cases h; simp
  · cases h
    have p : 0 < Real.sqrt (sqSum (l.map Prod.fst)) * Real.sqrt (sqSum (l.map Prod.snd)) := by
      rw [not_or] at b
      exact mul_pos (Real.sqrt_pos.2 (lt_of_le_of_ne n1 (Ne.symm b.1))) (Real.sqrt_pos.2 (lt_of_le_of_ne n2 (Ne.symm b.2)))
    rw [abs_div, abs_of_pos p, div_le_one p, ← Real.sqrt_mul n1]
    exact Real.abs_le_sqrt (coSum_sq_le l)

/-- C74. On columns of numbers that are not constant the two routines agree; on the diagonal they agree too. -/
theorem C74_agree (xs ys : List (Val ℝ)) (hl : xs.length = ys.length) (hx : none ∉ xs) (hy : none ∉ ys)
    (h1 : sqSum (numbers xs) ≠ 0) (h2 : sqSum (numbers ys) ≠ 0) :
    corOf xs ys = pearson (pairs xs ys) ∧ corOf xs xs = some 1 := by
  obtain ⟨p1, p2, -⟩ := pairs_fst hx hy hl
  obtain ⟨q1, q2, -⟩ := pairs_fst hx hx rfl
  constructor
  · unfold corOf pearson
    rw [p1, p2, if_neg (by tauto), if_neg (by tauto), if_neg (by tauto)]
  · unfold corOf
    rw [if_neg (by tauto)]
    have : coSum (pairs xs xs) = sqSum (numbers xs) := by
      rw [sqSum_eq]; congr 1
      rw [pairs_eq_zip hx hx]
      generalize numbers xs = l
      induction l with
      | nil => rfl
      | cons a t ih => simp [ih]
    rw [this, Real.mul_self_sqrt (sqSum_nonneg _), div_self h1]

end
end Co
end LDT
