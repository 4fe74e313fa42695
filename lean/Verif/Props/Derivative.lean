import Verif.Lemmas.DerivativePoly
import Verif.Props.MatrixFill
import Verif.Lemmas.MatrixCols
/-!
# C98: numerical derivatives
-/
namespace LDT
namespace Dv
open Mx MvPolynomial

variable {K : Type} [Field K] [LinearOrder K] {n : Nat}

theorem filter_upper (i : Fin n) : (List.finRange n).filter (fun j => i ≤ j) = (List.finRange n).drop i := by
  conv_lhs => rw [← List.take_append_drop i (List.finRange n)]
  rw [List.filter_append]
  have h1 : ((List.finRange n).take i).filter (fun j => i ≤ j) = [] := by
    rw [List.filter_eq_nil_iff]
    intro a ha
    obtain ⟨k, hk, rfl⟩ := List.mem_iff_getElem.1 ha
    rw [List.length_take] at hk
    simp only [List.getElem_take, List.getElem_finRange, decide_eq_true_eq, not_le]
    rw [Fin.lt_def]; simp; omega
  have h2 : ((List.finRange n).drop i).filter (fun j => i ≤ j) = (List.finRange n).drop i := by
    rw [List.filter_eq_self]
    intro a ha
    obtain ⟨k, hk, rfl⟩ := List.mem_iff_getElem.1 ha
    simp only [List.getElem_drop, List.getElem_finRange, decide_eq_true_eq]
    rw [Fin.le_def]; simp
  rw [h1, h2, List.nil_append]

/-- The rows before row `i`. -/
theorem upper_before (m : Nat) (hm : m ≤ n) :
    ((((List.finRange n).take m).flatMap (fun i : Fin n => ((List.finRange n).drop i).map (fun j => (i, j)))).length : Int) =
      ∑ r ∈ Finset.range m, ((n : Int) - 0 - r) := by
  induction m with
  | zero => rfl
  | succ m ih =>
    rw [List.take_succ_eq_append_getElem (by simpa using hm), List.flatMap_append, List.length_append, Finset.sum_range_succ]
    push_cast
    rw [ih (by omega)]
    simp; omega

theorem upperPairs_get (i j : Fin n) (hij : i ≤ j) :
    (upperPairs n)[(triIndex n 0 i j).toNat]? = some (i, j) := by
  unfold upperPairs
  simp only [filter_upper]
  have hi : (i : Nat) < (List.finRange n).length := by simp
  have hs : List.finRange n = (List.finRange n).take i ++ i :: (List.finRange n).drop (i + 1) := by
    conv_lhs => rw [← List.take_append_drop i (List.finRange n), List.drop_eq_getElem_cons hi]
    simp
  have hb := upper_before (n := n) i (by omega)
  conv_lhs => rw [hs]
  rw [List.flatMap_append, List.flatMap_cons]
  have hij' : (i : Nat) ≤ j := hij
  have ht : (triIndex n 0 i j).toNat =
      (((List.finRange n).take i).flatMap (fun i : Fin n => ((List.finRange n).drop i).map (fun j => (i, j)))).length + (j - i) := by
    unfold triIndex
    rw [Int.toNat_natCast, ← hb]
    omega
  rw [ht, ← hs, List.getElem?_append_right (by omega), List.getElem?_append_left (by simp; omega)]
  simp only [Nat.add_sub_cancel_left, List.getElem?_map, List.getElem?_drop]
  rw [Nat.add_sub_cancel' hij']
  simp

theorem upperPairs_length : ((upperPairs n).length : Int) = (n : Int) * (n + 1) / 2 := by
  unfold upperPairs
  simp only [filter_upper]
  have hb := upper_before (n := n) n (le_refl _)
  rw [List.take_of_length_le (by simp)] at hb
  rw [hb]
  have := triIndex_sum n 0 n
  have e : (n : Int) * (2 * (n - 0) - n + 1) = n * (n + 1) := by ring
  rw [e] at this
  omega

/-! ## Results for any function -/

theorem checks_ok (D : Obj) {wanted : Bool} {n r c : Int} {res : Mat K} (hn : n = D.mN) (hw : wanted = true) (hc : 0 < D.count)
    (hr : r * c = res.rows * res.cols) : checks D wanted n res r c = .ok { res with rows := r, cols := c } := by
  unfold checks Mat.restructure
  rw [if_neg (by omega), if_neg (by rw [hw]; simp), if_neg (by simpa using hr), Outcome.ok_bind, if_neg (by omega), if_neg (by omega)]
  rfl

theorem first_row (o : Opts K) (D : Obj) (f : (Fin n → K) → K) (x : Fin n → K) (storage : List K) (hn : D.mN = n) (hd : D.first = true)
    (hc : 0 < D.count) : calculateFirst o D f x storage = .ok ⟨n, 1, some ((List.finRange n).map (fun i =>
      richardson o.T (cell (fun c => slope f x i (step1st o (x i) / o.T ^ c))) (D.count.toNat - 1) 0))⟩ := by
  unfold calculateFirst
  rw [checks_ok D (res := ⟨D.mN, 1, some storage⟩) hn.symm hd hc (by simp only; rw [hn]), Outcome.ok_bind]
  dsimp only
  rw [lastRow_spec _ o.T x (fun i c => slope f x i (step1st o (x i) / o.T ^ c)) (List.finRange n) (fun i => step1st o (x i))
    (fun c t => diff1_spec f x (fun i => step1st o (x i)) o.T c t) (by omega)]
  rfl

theorem column_get (g : Fin n → K) (i : Fin n) :
    (⟨n, 1, some ((List.finRange n).map g)⟩ : Mat K).get i 0 = .ok (g i) := by
  have w : (⟨n, 1, some ((List.finRange n).map g)⟩ : Mat K).Wf := by
    exact ⟨by simp, by simp, rfl, by simp [Mat.mem]⟩
  have hin : (⟨n, 1, some ((List.finRange n).map g)⟩ : Mat K).InR i 0 :=
    ⟨by omega, by simp, by omega, by simp⟩
  rw [get_eq_get0 w hin]
  unfold Mat.get0 Mat.mem
  rw [read_eq_ok]
  simp

theorem packed_fill (storage : List K) (hs : storage.length = n * n) (g : Fin n × Fin n → K) :
    ∃ res, (⟨n, n, some storage⟩ : Mat K).makeTriangular0 ⟨1, ((upperPairs n).map g).length, some ((upperPairs n).map g)⟩ 0 true true =
        .ok res ∧ res.Wf ∧ res.rows = n ∧ res.cols = n ∧
      ∀ i j : Fin n, i ≤ j → res.get i j = .ok (g (i, j)) ∧ res.get j i = .ok (g (i, j)) := by
  have w : (⟨n, n, some storage⟩ : Mat K).Wf := by
    refine ⟨by simp, by simp, rfl, ?_⟩
    simp only [Mat.mem, Option.getD_some, hs]; push_cast; exact le_refl _
  have we : (⟨1, ((upperPairs n).map g).length, some ((upperPairs n).map g)⟩ : Mat K).Wf :=
    ⟨by simp, by simp, rfl, by simp [Mat.mem]⟩
  have hl : (⟨1, ((upperPairs n).map g).length, some ((upperPairs n).map g)⟩ : Mat K).length = triCount (n : Int) true := by
    simp only [Mat.length, one_mul, List.length_map, triCount, if_true]
    exact upperPairs_length
  obtain ⟨res, e, ss, c⟩ := (C63_triangular (⟨n, n, some storage⟩ : Mat K)
    ⟨1, ((upperPairs n).map g).length, some ((upperPairs n).map g)⟩ w we 0 true true).1 rfl hl (by simp)
  have e' : (⟨n, n, some storage⟩ : Mat K).makeTriangular0 ⟨1, ((upperPairs n).map g).length, some ((upperPairs n).map g)⟩ 0 true true =
      .ok res := by
    have ev1 : (n : Int) * (n + 1) % 2 = 0 := by
      rcases Int.emod_two_eq_zero_or_one (n : Int) with h | h <;> simp [Int.mul_emod, Int.add_emod, h]
    rw [← e]
    unfold Mat.makeTriangular
    rw [if_neg (by simp), if_neg ?_, if_neg (by simp)]
    rintro ⟨-, h⟩
    apply h
    rw [hl]
    simp only [triCount, if_true]
    rw [Int.tdiv_eq_ediv_of_nonneg]
    exact Int.mul_nonneg (by omega) (by omega)
  have hin : ∀ i j : Fin n, (⟨n, n, some storage⟩ : Mat K).InR i j := fun i j => ⟨by omega, by simp, by omega, by simp⟩
  have hg : ∀ i j : Fin n, i ≤ j →
      (⟨1, ((upperPairs n).map g).length, some ((upperPairs n).map g)⟩ : Mat K).getLin (triIndex n 0 i j) = .ok (g (i, j)) := by
    intro i j hij
    have hp := upperPairs_get i j hij
    have h0 : 0 ≤ triIndex n 0 i j := triIndex_nonneg (by omega) (by have : (i : Nat) ≤ j := hij; omega) (by omega)
    have hlt : (triIndex n 0 i j).toNat < (upperPairs n).length := by
      by_contra hh
      rw [List.getElem?_eq_none (by omega)] at hp
      exact absurd hp (by simp)
    rw [getLin_read we h0 (by simp [Mat.length]; omega)]
    rw [read_eq_ok]
    exact ⟨h0, by simp [Mat.mem, hp]⟩
  refine ⟨res, e', ss.wf w, ss.rows, ss.cols, fun i j hij => ?_⟩
  have hij' : (i : Nat) ≤ j := hij
  have c1 := c i j (hin i j)
  have c2 := c j i (hin j i)
  dsimp only at c1 c2
  rw [if_pos ⟨Or.inl rfl, by simp; exact hij⟩] at c1
  simp only [if_true] at c1
  refine ⟨by rw [c1]; exact hg i j hij, ?_⟩
  by_cases hji : (j : Int) + 0 ≤ i
  · have : i = j := by apply Fin.ext; omega
    subst this
    rw [c1]; exact hg i i hij
  · rw [if_neg (by simp only [if_true]; exact fun h => hji h.2), if_pos (by simp only [if_true]; exact ⟨by decide, by omega⟩)] at c2
    simp only [if_true] at c2
    rw [c2]; exact hg i j hij

theorem second_row (o : Opts K) (D : Obj) (f : (Fin n → K) → K) (x : Fin n → K) (storage : List K) (hs : storage.length = n * n)
    (hn : D.mN = n) (hd : D.second = true) (hc : 0 < D.count) :
    ∃ res, calculateSecond o D f x storage = .ok res ∧ res.Wf ∧ res.rows = n ∧ res.cols = n ∧ ∀ i j : Fin n, i ≤ j →
      res.get i j = .ok (richardson o.T (cell (fun c => bend f x i j (step2nd o (x i) / o.T ^ c) (step2nd o (x j) / o.T ^ c)))
        (D.count.toNat - 1) 0) ∧
      res.get j i = .ok (richardson o.T (cell (fun c => bend f x i j (step2nd o (x i) / o.T ^ c) (step2nd o (x j) / o.T ^ c)))
        (D.count.toNat - 1) 0) := by
  unfold calculateSecond
  rw [checks_ok D (res := ⟨D.mN, D.mN, some storage⟩) hn.symm hd hc (by simp only; rw [hn]), Outcome.ok_bind]
  dsimp only
  rw [lastRow_spec _ o.T x (fun ij c => bend f x ij.1 ij.2 (step2nd o (x ij.1) / o.T ^ c) (step2nd o (x ij.2) / o.T ^ c)) (upperPairs n)
    (fun i => step2nd o (x i)) (fun c t => diff2_spec f x (fun i => step2nd o (x i)) o.T c t) (by omega)]
  exact packed_fill storage hs _

/-! ## The properties -/

variable [IsStrictOrderedRing K]

theorem step1st_pos (o : Opts K) (h0 : 0 < o.step0) (h1 : 0 < o.step1) (he : 0 < o.epsilon) (x : K) : 0 < step1st o x := by
  unfold step1st
  split_ifs with h
  · exact half_pos h0
  · exact mul_pos (half_pos h1) (lt_of_lt_of_le he (not_lt.1 h))

theorem step2nd_pos (o : Opts K) (h0 : 0 < o.step0) (h1 : 0 < o.step1) (x : K) : 0 < step2nd o x := by
  unfold step2nd
  split_ifs with h
  · exact mul_pos two_pos h0
  · exact mul_pos (mul_pos two_pos h1) (lt_of_lt_of_le one_pos (not_lt.1 h))

/-- The first derivative of any function is the Richardson extrapolation of the central difference quotients with steps `h`, `h / T`,
`h / T²`, ..., where `h` is half of `Step0` near zero and half of `Step1 * |x_i|` elsewhere - as long as none of the quotients is
smaller than 1e-16. If the first quotient is, the derivative is reported as zero. -/
theorem C98_first_table (o : Opts K) (second : Bool) (count : Nat) (hc : 0 < count) (f : (Fin n → K) → K) (x : Fin n → K)
    (storage : List K) :
    ∃ res, calculateFirst o (Obj.make n true second count) f x storage = .ok res ∧ res.rows = n ∧ res.cols = 1 ∧ ∀ i : Fin n, ∀ h : K,
      h = (if |x i| < o.epsilon then o.step0 / 2 else o.step1 / 2 * |x i|) →
      (Noticeable count (fun c => slope f x i (h / o.T ^ c)) →
        res.get i 0 = .ok (richardson o.T (fun c => slope f x i (h / o.T ^ c)) (count - 1) 0)) ∧
      (|slope f x i h| ≤ 1 / 10 ^ 16 → res.get i 0 = .ok 0) := by
  refine ⟨_, first_row o (Obj.make n true second count) f x storage rfl rfl (by simp only [Obj.make]; omega), rfl, rfl, fun i h hh => ?_⟩
  have e : step1st o (x i) = h := by rw [hh]; rfl
  rw [column_get]
  have ec : (Obj.make (n : Int) true second count).count.toNat = count := rfl
  rw [e, ec]
  constructor
  · intro hn
    rw [richardson_congr (b := fun c => slope f x i (h / o.T ^ c)) o.T (count - 1) 0
      (fun m _ h2 => cell_noticeable (fun c => slope f x i (h / o.T ^ c)) hn m (by omega))]
  · intro hs
    rw [show cell (fun c => slope f x i (h / o.T ^ c)) = fun _ => 0 from funext (cell_tiny _ (by simpa using hs)), richardson_zero]

/-- For a polynomial of total degree at most `count` (one more when `count` is odd) the first derivatives are exact. -/
theorem C98_first_partial (o : Opts K) (h0 : 0 < o.step0) (h1 : 0 < o.step1) (he : 0 < o.epsilon) (hT : 1 < o.T) (second : Bool)
    (count : Nat) (hc : 0 < count) (p : MvPolynomial (Fin n) K) (hd : p.totalDegree ≤ count + count % 2) (x : Fin n → K)
    (storage : List K) :
    ∃ res, calculateFirst o (Obj.make n true second count) (fun y => eval y p) x storage = .ok res ∧ ∀ i : Fin n,
      Noticeable count (fun c => slope (fun y => eval y p) x i
        ((if |x i| < o.epsilon then o.step0 / 2 else o.step1 / 2 * |x i|) / o.T ^ c)) →
      res.get i 0 = .ok (eval x (pderiv i p)) := by
  obtain ⟨res, e, -, -, h⟩ := C98_first_table o second count hc (fun y => eval y p) x storage
  refine ⟨res, e, fun i hn => ?_⟩
  rw [(h i _ rfl).1 hn]
  exact congrArg Outcome.ok (richardson_slope p x i (ne_of_gt (step1st_pos o h0 h1 he (x i))) hT hc hd)

/-- For a polynomial of degree at most two the reported first derivatives are the exact ones, except that values up to 1e-16 are
reported as zero. -/
theorem C98_first_quadratic (o : Opts K) (h0 : 0 < o.step0) (h1 : 0 < o.step1) (he : 0 < o.epsilon) (hT : 1 < o.T) (second : Bool)
    (count : Nat) (hc : 0 < count) (p : MvPolynomial (Fin n) K) (hd : p.totalDegree ≤ 2) (x : Fin n → K) (storage : List K) :
    ∃ res, calculateFirst o (Obj.make n true second count) (fun y => eval y p) x storage = .ok res ∧ ∀ i : Fin n,
      res.get i 0 = .ok (if |eval x (pderiv i p)| ≤ 1 / 10 ^ 16 then 0 else eval x (pderiv i p)) := by
  obtain ⟨res, e, -, -, h⟩ := C98_first_table o second count hc (fun y => eval y p) x storage
  have hs : ∀ (i : Fin n) (h : K), h ≠ 0 → slope (fun y => eval y p) x i h = eval x (pderiv i p) := by
    intro i h hh
    have := richardson_slope p x i hh hT (count := 1) one_pos (by omega)
    simpa [richardson] using this
  refine ⟨res, e, fun i => ?_⟩
  have hp := step1st_pos o h0 h1 he (x i)
  have hs' : ∀ c : Nat, slope (fun y => eval y p) x i (step1st o (x i) / o.T ^ c) = eval x (pderiv i p) := fun c =>
    hs i _ (div_ne_zero (ne_of_gt hp) (pow_ne_zero _ (ne_of_gt (lt_trans zero_lt_one hT))))
  split_ifs with ht
  · exact (h i _ rfl).2 (by rw [← hs i _ (ne_of_gt hp)] at ht; exact ht)
  · have hn : Noticeable count (fun c => slope (fun y => eval y p) x i (step1st o (x i) / o.T ^ c)) := by
      intro c _
      simp only
      rw [hs' c]; exact not_le.1 ht
    have := (h i _ rfl).1 hn
    rw [this]
    have hr := richardson_slope p x i (ne_of_gt hp) hT hc (by omega)
    exact congrArg Outcome.ok hr

/-- The same for second derivatives: the quotients of second order with steps `2 Step0` near zero and `2 Step1 |x_i|` elsewhere. The
reported matrix is symmetric. -/
theorem C98_second_table (o : Opts K) (first : Bool) (count : Nat) (hc : 0 < count) (f : (Fin n → K) → K) (x : Fin n → K)
    (storage : List K) (hs : storage.length = n * n) :
    ∃ res, calculateSecond o (Obj.make n first true count) f x storage = .ok res ∧ res.rows = n ∧ res.cols = n ∧
      (∀ i j : Fin n, res.get i j = res.get j i) ∧ ∀ h : Fin n → K,
      (∀ i, h i = if |x i| < 1 then 2 * o.step0 else 2 * o.step1 * |x i|) → ∀ i j : Fin n, i ≤ j →
      (Noticeable count (fun c => bend f x i j (h i / o.T ^ c) (h j / o.T ^ c)) →
        res.get i j = .ok (richardson o.T (fun c => bend f x i j (h i / o.T ^ c) (h j / o.T ^ c)) (count - 1) 0)) ∧
      (|bend f x i j (h i) (h j)| ≤ 1 / 10 ^ 16 → res.get i j = .ok 0) := by
  obtain ⟨res, e, w, r, c, hg⟩ := second_row o (Obj.make n first true count) f x storage hs rfl rfl (by simp only [Obj.make]; omega)
  refine ⟨res, e, r, c, ?_, ?_⟩
  · intro i j
    rcases le_total i j with h | h
    · rw [(hg i j h).1, (hg i j h).2]
    · rw [(hg j i h).1, (hg j i h).2]
  · intro h hh i j hij
    have e1 : ∀ i, step2nd o (x i) = h i := fun i => by rw [hh]; rfl
    have ec : (Obj.make (n : Int) first true count).count.toNat = count := rfl
    have hg := (hg i j hij).1
    rw [e1, e1, ec] at hg
    rw [hg]
    constructor
    · intro hn
      rw [richardson_congr (b := fun c => bend f x i j (h i / o.T ^ c) (h j / o.T ^ c)) o.T (count - 1) 0
        (fun m _ h2 => cell_noticeable (fun c => bend f x i j (h i / o.T ^ c) (h j / o.T ^ c)) hn m (by omega))]
    · intro hs
      rw [show cell (fun c => bend f x i j (h i / o.T ^ c) (h j / o.T ^ c)) = fun _ => 0 from
        funext (cell_tiny _ (by simpa using hs)), richardson_zero]

/-- For a polynomial of total degree at most `count + 1` (one more when `count` is odd) the second derivatives are exact. -/
theorem C98_second_partial (o : Opts K) (h0 : 0 < o.step0) (h1 : 0 < o.step1) (hT : 1 < o.T) (first : Bool) (count : Nat)
    (hc : 0 < count) (p : MvPolynomial (Fin n) K) (hd : p.totalDegree ≤ count + 1 + count % 2) (x : Fin n → K) (storage : List K)
    (hs : storage.length = n * n) :
    ∃ res, calculateSecond o (Obj.make n first true count) (fun y => eval y p) x storage = .ok res ∧ ∀ h : Fin n → K,
      (∀ i, h i = if |x i| < 1 then 2 * o.step0 else 2 * o.step1 * |x i|) → ∀ i j : Fin n, i ≤ j →
      Noticeable count (fun c => bend (fun y => eval y p) x i j (h i / o.T ^ c) (h j / o.T ^ c)) →
      res.get i j = .ok (eval x (pderiv i (pderiv j p))) ∧ res.get j i = .ok (eval x (pderiv j (pderiv i p))) := by
  obtain ⟨res, e, -, -, sym, hg⟩ := C98_second_table o first count hc (fun y => eval y p) x storage hs
  refine ⟨res, e, fun h hh i j hij hn => ?_⟩
  have hpos : ∀ i, h i ≠ 0 := fun i => by rw [hh]; exact ne_of_gt (step2nd_pos o h0 h1 (x i))
  have g1 : res.get i j = .ok (eval x (pderiv i (pderiv j p))) := by
    rw [(hg h hh i j hij).1 hn, richardson_bend p x i j (hpos i) (hpos j) (fun e => by rw [e]) hT hc hd]
  exact ⟨g1, by rw [sym j i, g1, pderiv_swap]⟩

/-- For a polynomial of degree at most three the reported second derivatives are the exact ones, except that values up to 1e-16 are
reported as zero. -/
theorem C98_second_cubic (o : Opts K) (h0 : 0 < o.step0) (h1 : 0 < o.step1) (hT : 1 < o.T) (first : Bool) (count : Nat) (hc : 0 < count)
    (p : MvPolynomial (Fin n) K) (hd : p.totalDegree ≤ 3) (x : Fin n → K) (storage : List K) (hs : storage.length = n * n) :
    ∃ res, calculateSecond o (Obj.make n first true count) (fun y => eval y p) x storage = .ok res ∧ ∀ i j : Fin n,
      res.get i j = .ok (if |eval x (pderiv i (pderiv j p))| ≤ 1 / 10 ^ 16 then 0 else eval x (pderiv i (pderiv j p))) := by
  obtain ⟨res, e, -, -, sym, hg⟩ := C98_second_table o first count hc (fun y => eval y p) x storage hs
  have hpos : ∀ i, 0 < step2nd o (x i) := fun i => step2nd_pos o h0 h1 (x i)
  have hb : ∀ (i j : Fin n) (c : Nat), bend (fun y => eval y p) x i j (step2nd o (x i) / o.T ^ c) (step2nd o (x j) / o.T ^ c) =
      eval x (pderiv i (pderiv j p)) := by
    intro i j c
    have hT0 : o.T ^ c ≠ 0 := pow_ne_zero _ (ne_of_gt (lt_trans zero_lt_one hT))
    have := richardson_bend p x i j (div_ne_zero (ne_of_gt (hpos i)) hT0) (div_ne_zero (ne_of_gt (hpos j)) hT0)
      (fun e => by rw [e]) hT (count := 1) one_pos (by omega)
    simpa [richardson] using this
  have up : ∀ i j : Fin n, i ≤ j →
      res.get i j = .ok (if |eval x (pderiv i (pderiv j p))| ≤ 1 / 10 ^ 16 then 0 else eval x (pderiv i (pderiv j p))) := by
    intro i j hij
    have hg := hg (fun i => step2nd o (x i)) (fun _ => rfl) i j hij
    split_ifs with ht
    · apply hg.2
      have := hb i j 0
      simp only [pow_zero, div_one] at this
      rw [this]; exact ht
    · have hn : Noticeable count (fun c => bend (fun y => eval y p) x i j (step2nd o (x i) / o.T ^ c) (step2nd o (x j) / o.T ^ c)) := by
        intro c _
        simp only
        rw [hb]; exact not_le.1 ht
      rw [hg.1 hn]
      exact congrArg Outcome.ok (richardson_bend p x i j (ne_of_gt (hpos i)) (ne_of_gt (hpos j)) (fun e => by rw [e]) hT hc (by omega))
  refine ⟨res, e, fun i j => ?_⟩
  rcases le_total i j with h | h
  · exact up i j h
  · rw [sym i j, up j i h, pderiv_swap]

/-- The function is only called near `x`: two functions that agree on all points whose coordinates differ from those of `x` by at most
the first step (twice the step for second derivatives) have the same results. -/
theorem C98_local (o : Opts K) (h0 : 0 < o.step0) (h1 : 0 < o.step1) (he : 0 < o.epsilon) (hT : 1 < o.T) (count : Nat) (hc : 0 < count)
    (f g : (Fin n → K) → K) (x : Fin n → K) (storage : List K) :
    ((∀ y : Fin n → K, (∀ i, |y i - x i| ≤ if |x i| < o.epsilon then o.step0 / 2 else o.step1 / 2 * |x i|) → f y = g y) →
      ∀ second, calculateFirst o (Obj.make n true second count) f x storage =
        calculateFirst o (Obj.make n true second count) g x storage) ∧
    ((∀ y : Fin n → K, (∀ i, |y i - x i| ≤ if |x i| < 1 then 4 * o.step0 else 4 * o.step1 * |x i|) → f y = g y) →
      ∀ first, calculateSecond o (Obj.make n first true count) f x storage =
        calculateSecond o (Obj.make n first true count) g x storage) := by
  have hTc : ∀ (c : Nat) (a : K), 0 < a → |a / o.T ^ c| ≤ a := by
    intro c a ha
    have h1c : 1 ≤ o.T ^ c := one_le_pow₀ (le_of_lt hT)
    rw [abs_of_pos (div_pos ha (lt_of_lt_of_le one_pos h1c))]
    exact div_le_self (le_of_lt ha) h1c
  constructor
  · intro hfg second
    rw [first_row o _ f x storage rfl rfl (by simp only [Obj.make]; omega), first_row o _ g x storage rfl rfl (by simp only [Obj.make]; omega)]
    have hs : ∀ i c, slope f x i (step1st o (x i) / o.T ^ c) = slope g x i (step1st o (x i) / o.T ^ c) := by
      intro i c
      have hn := step1st_pos o h0 h1 he
      have near : ∀ d : K, |d| ≤ step1st o (x i) → f (Function.update x i (x i + d)) = g (Function.update x i (x i + d)) := by
        intro d hd
        apply hfg
        intro k
        by_cases hk : k = i
        · subst hk
          rw [Function.update_self, add_sub_cancel_left]; exact hd
        · rw [Function.update_of_ne hk, sub_self, abs_zero]; exact le_of_lt (hn (x k))
      unfold slope
      rw [near _ (hTc c _ (hn _)), sub_eq_add_neg (x i), near (-_) (by rw [abs_neg]; exact hTc c _ (hn _))]
    simp only [hs]
  · intro hfg first
    have hn := step2nd_pos o h0 h1
    have two : ∀ i, 2 * step2nd o (x i) = if |x i| < 1 then 4 * o.step0 else 4 * o.step1 * |x i| := by
      intro i; unfold step2nd; split_ifs <;> ring
    have hb : ∀ i j c, bend f x i j (step2nd o (x i) / o.T ^ c) (step2nd o (x j) / o.T ^ c) =
        bend g x i j (step2nd o (x i) / o.T ^ c) (step2nd o (x j) / o.T ^ c) := by
      intro i j c
      have near : ∀ d : K, |d| ≤ 2 * step2nd o (x i) → f (Function.update x i (x i + d)) = g (Function.update x i (x i + d)) := by
        intro d hd
        apply hfg
        intro k
        rw [← two]
        by_cases hk : k = i
        · subst hk
          rw [Function.update_self, add_sub_cancel_left]; exact hd
        · rw [Function.update_of_ne hk, sub_self, abs_zero]; exact le_of_lt (mul_pos two_pos (hn (x k)))
      have near2 : i ≠ j → ∀ d e : K, |d| ≤ step2nd o (x i) → |e| ≤ step2nd o (x j) → f (moved x i j d e) = g (moved x i j d e) := by
        intro hij d e hd he
        apply hfg
        intro k
        rw [← two]
        unfold moved
        by_cases hk : k = j
        · subst hk
          rw [Function.update_self, add_sub_cancel_left]
          exact le_trans he (by linarith [hn (x k)])
        · rw [Function.update_of_ne hk]
          by_cases hi : k = i
          · subst hi
            rw [Function.update_self, add_sub_cancel_left]
            exact le_trans hd (by linarith [hn (x k)])
          · rw [Function.update_of_ne hi, sub_self, abs_zero]; exact le_of_lt (mul_pos two_pos (hn (x k)))
      have hx : f x = g x := hfg x (fun i => by rw [← two, sub_self, abs_zero]; exact le_of_lt (mul_pos two_pos (hn (x i))))
      unfold bend
      have hi := hTc c _ (hn (x i))
      have hj := hTc c _ (hn (x j))
      by_cases hij : i = j
      · rw [if_pos hij, if_pos hij, hx, sub_eq_add_neg (x i), near _ (by rw [abs_mul, abs_two]; linarith),
          near (-_) (by rw [abs_neg, abs_mul, abs_two]; linarith)]
      · rw [if_neg hij, if_neg hij, near2 hij _ _ hi hj, near2 hij _ (-_) hi (by rw [abs_neg]; exact hj),
          near2 hij (-_) _ (by rw [abs_neg]; exact hi) hj, near2 hij (-_) (-_) (by rw [abs_neg]; exact hi) (by rw [abs_neg]; exact hj)]
    unfold calculateSecond
    rw [lastRow_spec _ o.T x (fun ij c => bend f x ij.1 ij.2 (step2nd o (x ij.1) / o.T ^ c) (step2nd o (x ij.2) / o.T ^ c))
        (upperPairs n) (fun i => step2nd o (x i)) (fun c t => diff2_spec f x (fun i => step2nd o (x i)) o.T c t)
        (by simp only [Obj.make]; omega),
      lastRow_spec _ o.T x (fun ij c => bend g x ij.1 ij.2 (step2nd o (x ij.1) / o.T ^ c) (step2nd o (x ij.2) / o.T ^ c))
        (upperPairs n) (fun i => step2nd o (x i)) (fun c t => diff2_spec g x (fun i => step2nd o (x i)) o.T c t)
        (by simp only [Obj.make]; omega)]
    simp only [hb]

omit [IsStrictOrderedRing K] in
/-- A point with more coordinates than declared and a derivative that was not asked for are refused. -/
theorem C98_refused (o : Opts K) (N : Int) (first second : Bool) (count : Int) (f : (Fin n → K) → K) (x : Fin n → K) (storage : List K) :
    (N < n ∨ first = false → calculateFirst o (Obj.make N first second count) f x storage = .throws) ∧
    (N < n ∨ second = false → calculateSecond o (Obj.make N first second count) f x storage = .throws) := by
  constructor <;> intro h
  · unfold calculateFirst checks Obj.make
    dsimp only
    split_ifs with h1 h2 <;> first | rfl | (exfalso; rcases h with h | h <;> simp_all)
  · unfold calculateSecond checks Obj.make
    dsimp only
    split_ifs with h1 h2 <;> first | rfl | (exfalso; rcases h with h | h <;> simp_all)

omit [IsStrictOrderedRing K] in
/-- `n` is documented as the maximum dimension, and the code says "in case n is smaller", but a point with fewer coordinates is refused
as well. -/
theorem C98_smaller_violated (o : Opts K) (N : Int) (first second : Bool) (count : Int) (f : (Fin n → K) → K) (x : Fin n → K)
    (storage : List K) (h : (n : Int) < N) :
    calculateFirst o (Obj.make N first second count) f x storage = .throws ∧
    calculateSecond o (Obj.make N first second count) f x storage = .throws := by
  constructor
  · unfold calculateFirst checks Obj.make Mat.restructure
    dsimp only
    split_ifs with h1 h2 h3 <;> first | rfl | (exfalso; apply h3; simp; omega) | (exfalso; simp at h3; omega)
  · have hn : (n : Int) * n ≠ N * N := by
      have h0 : (0 : Int) ≤ n := by omega
      exact ne_of_lt (by nlinarith)
    unfold calculateSecond checks Obj.make Mat.restructure
    dsimp only
    split_ifs with h1 h2 h3 <;> first | rfl | (exfalso; exact h3 hn)

/-! ## Space -/

/-- The blocks lie one after the other, the first one beginning at `a` and the last one ending at `b`. -/
def Consecutive : Int → List (Int × Int) → Int → Prop
  | a, [], b => a = b
  | a, (q, l) :: bs, b => q = a ∧ 0 ≤ l ∧ Consecutive (a + l) bs b

theorem Consecutive.snoc {a b q l : Int} : ∀ {bs : List (Int × Int)}, Consecutive a bs b → q = b → 0 ≤ l →
    Consecutive a (bs ++ [(q, l)]) (b + l)
  | bs, h, hq, hl => by
    induction bs generalizing a with
    | nil => cases h; subst hq; exact ⟨rfl, hl, rfl⟩
    | cons c bs ih => exact ⟨h.1, h.2.1, ih h.2.2⟩

theorem levels_fold (count m : Int) (hm : 0 ≤ m) (start s : Int) (l : List Int) (hl : ∀ c ∈ l, c ≤ count) (bs : List (Int × Int))
    (hb : Consecutive start bs s) :
    Consecutive start (l.foldl (fun (s : List (Int × Int) × Int) c => (s.1 ++ [(s.2, (count - c) * m)], s.2 + (count - c) * m)) (bs, s)).1
      (l.foldl (fun s c => s + (count - c) * m) s) := by
  induction l generalizing bs s with
  | nil => exact hb
  | cons c l ih =>
    simp only [List.foldl_cons]
    exact ih _ (fun c h => hl c (List.mem_cons_of_mem _ h)) _
      (hb.snoc rfl (Int.mul_nonneg (by have := hl c (List.mem_cons_self ..); omega) hm))

theorem levelsSize_add (count m s t : Int) : levelsSize count m s + t = levelsSize count m (s + t) := by
  unfold levelsSize
  generalize upTo 1 count = l
  induction l generalizing s with
  | nil => rfl
  | cons c l ih => simp only [List.foldl_cons]; rw [ih]; congr 1; ring

theorem layout_consecutive (count n m : Int) (hn : 0 ≤ n) (hm : 0 ≤ m) (hc : 0 ≤ count) :
    Consecutive 0 (layout count n m) (levelsSize count m (3 * n + count * m)) := by
  have h := levels_fold count m hm (n + n + n + count * m) (n + n + n + count * m) (upTo 1 count)
    (fun c h => by rw [mem_upTo] at h; omega) [] rfl
  unfold layout levelsSize
  have e : 3 * n + count * m = n + n + n + count * m := by ring
  rw [e]
  exact ⟨rfl, hn, by ring, hn, by ring, hn, by ring, Int.mul_nonneg hc hm, by
    simp only [List.append_eq]; rw [show (0 : Int) + n + n + n + count * m = n + n + n + count * m by ring]; exact h⟩

/-- The work array of the documented size holds everything: the blocks of both calculations lie one after the other from its beginning
and end inside of it. -/
theorem C98_space (N count : Nat) (first second : Bool) :
    (first = true → ∃ b, Consecutive 0 (layout count N N) b ∧ b ≤ (Obj.make N first second count).work) ∧
    (second = true → ∃ b, Consecutive 0 (layout count N ((N : Int) * (N + 1) / 2)) b ∧ b ≤ (Obj.make N first second count).work) := by
  have hd : ((N : Int) * (N + 1)).tdiv 2 = (N : Int) * (N + 1) / 2 := Int.tdiv_eq_ediv_of_nonneg (Int.mul_nonneg (by omega) (by omega))
  have hnn : (0 : Int) ≤ (N : Int) * (N + 1) / 2 := Int.ediv_nonneg (Int.mul_nonneg (by omega) (by omega)) (by omega)
  constructor
  · intro h
    refine ⟨_, layout_consecutive count N N (by omega) (by omega) (by omega), ?_⟩
    simp only [Obj.make, h, if_true]
    exact le_max_left _ _
  · intro h
    refine ⟨_, layout_consecutive count N _ (by omega) hnn (by omega), ?_⟩
    simp only [Obj.make, h, if_true, hd]
    exact le_max_right _ _

/-! ## Concrete cases -/

/-- The default settings, functionx.h:47-57. -/
def usual : Opts ℚ := ⟨1 / 100000, 1 / 10000, 1 / 10000000, 2⟩

/-- Because a tiny first quotient counts as zero for good, the derivative of `10¹² x³ - 25 x` at zero is reported as 0 instead of -25
with the default settings. -/
theorem C98_exact_violated : ∃ (p : MvPolynomial (Fin 1) ℚ), p.totalDegree ≤ 3 ∧ eval (fun _ => 0) (pderiv 0 p) = -25 ∧
    ∃ res, calculateFirst usual (Obj.make (1 : Nat) true true (5 : Nat)) (fun y => eval y p) (fun _ => 0) [7] = .ok res ∧
      res.get (0 : Fin 1) 0 = .ok 0 := by
  refine ⟨C (10 ^ 12) * X 0 ^ 3 - C 25 * X 0, ?_, ?_, ?_⟩
  · refine le_trans (totalDegree_sub _ _) (max_le ?_ ?_)
    · refine le_trans (totalDegree_mul _ _) ?_
      rw [totalDegree_C, totalDegree_X_pow]
    · refine le_trans (totalDegree_mul _ _) ?_
      rw [totalDegree_C, totalDegree_X]; omega
  · simp [Derivation.leibniz, pderiv_X_self]
  · obtain ⟨res, e, -, -, h⟩ := C98_first_table usual true 5 (by omega)
      (fun y => eval y (C (10 ^ 12) * X 0 ^ 3 - C 25 * X 0 : MvPolynomial (Fin 1) ℚ)) (fun _ => 0) [7]
    refine ⟨res, e, (h 0 _ rfl).2 ?_⟩
    unfold slope usual
    norm_num

/-- `x²y + 3x` at (1, 2): gradient (7, 1). -/
example : calculateFirst usual (Obj.make 2 true true 5) (fun y => y 0 ^ 2 * y 1 + 3 * y 0) (fun i : Fin 2 => if i = 0 then 1 else 2) [0, 0] =
    .ok ⟨2, 1, some [7, 1]⟩ := by decide +kernel
/-- Its second derivatives. -/
example : calculateSecond usual (Obj.make 2 true true 5) (fun y => y 0 ^ 2 * y 1 + 3 * y 0) (fun i : Fin 2 => if i = 0 then 1 else 2)
    [9, 9, 9, 9] = .ok ⟨2, 2, some [4, 2, 2, 0]⟩ := by decide +kernel
example : (Obj.make 2 true true 5).work = 51 ∧ layout 5 2 3 = [(0, 2), (2, 2), (4, 2), (6, 15), (21, 12), (33, 9), (42, 6), (48, 3)] := by
  decide +kernel
example : Noticeable 5 (fun c => slope (fun y : Fin 1 → ℚ => y 0 ^ 6) (fun _ => 2) 0 (1 / 10000 / 2 ^ c)) := by unfold Noticeable; decide +kernel
/-- Degree six with five evaluations is exact, degree seven is not. -/
example : calculateFirst usual (Obj.make 1 true true 5) (fun y => y 0 ^ 6) (fun _ : Fin 1 => 2) [0] = .ok ⟨1, 1, some [192]⟩ := by
  decide +kernel
example : calculateFirst usual (Obj.make 1 true true 5) (fun y => y 0 ^ 7) (fun _ : Fin 1 => 2) [0] ≠ .ok ⟨1, 1, some [448]⟩ := by
  decide +kernel
example : calculateFirst usual (Obj.make 2 true true 5) (fun y => y 0 ^ 7) (fun _ : Fin 1 => 2) [0, 0] = .throws := by decide +kernel

end Dv
end LDT
