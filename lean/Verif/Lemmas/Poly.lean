import Verif.Model.Poly
import Verif.Spec.Poly
import Verif.Lemmas.Matrix
import Verif.Lemmas.DataSplit
import Mathlib.Algebra.BigOperators.Fin
import Mathlib.RingTheory.PowerSeries.Basic
namespace LDT
namespace Mx

/-- Loop rule for `for (i = a; i < b; i++)`. -/
theorem loop_inv {σ : Type} {a b : Int} (hab : a ≤ b) (f : σ → Int → Outcome σ) (P : Int → σ → Prop) {s : σ}
    (h0 : P a s) (hs : ∀ i, a ≤ i → i < b → ∀ s, P i s → ∃ s', f s i = .ok s' ∧ P (i + 1) s') :
    ∃ s', (upTo a b).foldlM f s = .ok s' ∧ P b s' := by
  obtain ⟨n, rfl⟩ : ∃ n : Nat, b = a + n := ⟨(b - a).toNat, by omega⟩
  clear hab
  induction n with
  | zero =>
    refine ⟨s, ?_, by simpa using h0⟩
    have : upTo a (a + (0 : Nat)) = [] := by simp [upTo]
    rw [this]; rfl
  | succ n ih =>
    obtain ⟨s1, e1, p1⟩ := ih (fun i h1 h2 => hs i h1 (by omega))
    obtain ⟨s2, e2, p2⟩ := hs (a + n) (by omega) (by omega) s1 p1
    refine ⟨s2, ?_, ?_⟩
    · have : upTo a (a + ((n + 1 : Nat) : Int)) = upTo a (a + n) ++ [a + (n : Int)] := by
        unfold upTo
        rw [show (a + ((n + 1 : Nat) : Int) - a).toNat = n + 1 by omega,
          show (a + (n : Int) - a).toNat = n by omega, List.range_succ, List.map_append]; rfl
      rw [this, List.foldlM_append, e1, Outcome.ok_bind, List.foldlM_cons, e2, Outcome.ok_bind]; rfl
    · have : a + ((n + 1 : Nat) : Int) = a + n + 1 := by push_cast; ring
      rw [this]; exact p2

end Mx

namespace Poly
open Mx Polynomial

variable {R : Type}

/-- Coefficient `k` of a list, zero behind its end. -/
def coef [Zero R] (l : List R) (k : Nat) : R := (l[k]?).getD 0

theorem read_coef [Zero R] {l : List R} {k : Int} (h0 : 0 ≤ k) (h1 : k < l.length) :
    Mx.read l k = .ok (coef l k.toNat) := by
  rw [read_eq_ok]; refine ⟨h0, ?_⟩
  have : k.toNat < l.length := by omega
  simp [coef, List.getElem?_eq_getElem this]

theorem coef_set [Zero R] {l : List R} {k : Int} (v : R) (h0 : 0 ≤ k) (h1 : k < l.length) (j : Nat) :
    coef (l.set k.toNat v) j = if (j : Int) = k then v else coef l j := by
  unfold coef
  split_ifs with h
  · subst h; simp at h1 ⊢; rw [List.getElem?_set_self (by omega)]; rfl
  · rw [List.getElem?_set_ne]; omega

theorem coef_take [Zero R] {l : List R} {n k : Nat} (h : k < n) : coef (l.take n) k = coef l k := by
  unfold coef; rw [List.getElem?_take_of_lt h]

theorem coef_of_ge [Zero R] {l : List R} {k : Nat} (h : l.length ≤ k) : coef l k = 0 := by
  unfold coef; rw [List.getElem?_eq_none h]; rfl

theorem toPoly_coeff [Semiring R] (l : List R) (k : Nat) : (toPoly l).coeff k = coef l k := by
  unfold toPoly
  rw [finset_sum_coeff]
  simp only [coeff_monomial]
  rw [Finset.sum_ite_eq' (Finset.range l.length) k]
  split_ifs with h
  · rfl
  · rw [coef_of_ge (by simpa using h)]

theorem toPoly_mul_coeff [Semiring R] (a b : List R) (k : Nat) :
    (toPoly a * toPoly b).coeff k
      = ∑ i ∈ Finset.range a.length, ∑ j ∈ Finset.range b.length, if i + j = k then coef a i * coef b j else 0 := by
  unfold toPoly
  rw [Finset.sum_mul_sum, finset_sum_coeff]
  refine Finset.sum_congr rfl (fun i _ => ?_)
  rw [finset_sum_coeff]
  refine Finset.sum_congr rfl (fun j _ => ?_)
  rw [monomial_mul_monomial, coeff_monomial]; rfl

theorem natDegree_toPoly_le [Semiring R] (l : List R) : (toPoly l).natDegree ≤ l.length - 1 := by
  rw [natDegree_le_iff_coeff_eq_zero]
  intro k hk
  rw [toPoly_coeff, coef_of_ge (by omega)]

/-- Coefficient `k` of a product depends only on the coefficients up to `k`. -/
theorem mul_coeff_congr [Semiring R] {A P Q : R[X]} {k : Nat} (h : ∀ j, j ≤ k → P.coeff j = Q.coeff j) :
    (A * P).coeff k = (A * Q).coeff k := by
  rw [coeff_mul, coeff_mul]
  refine Finset.sum_congr rfl (fun x hx => ?_)
  rw [h x.2 (by have := Finset.mem_antidiagonal.1 hx; omega)]

theorem mul_coeff_congr_left [Semiring R] {A P Q : R[X]} {k : Nat} (h : ∀ j, j ≤ k → P.coeff j = Q.coeff j) :
    (P * A).coeff k = (Q * A).coeff k := by
  rw [coeff_mul, coeff_mul]
  refine Finset.sum_congr rfl (fun x hx => ?_)
  rw [h x.1 (by have := Finset.mem_antidiagonal.1 hx; omega)]

/-- Filling with a value. -/
theorem fill_spec [Zero R] (s : List R) (n : Int) (v : R) (h : n ≤ s.length) :
    ∃ s', fill s n v = .ok s' ∧ s'.length = s.length ∧
      ∀ k : Nat, coef s' k = if (k : Int) < n then v else coef s k := by
  by_cases hn : 0 ≤ n
  · obtain ⟨s', e, hl, hc⟩ := loop_inv (a := 0) (b := n) hn (fun s i => write s i v)
      (fun i t => t.length = s.length ∧ ∀ k : Nat, coef t k = if (k : Int) < i then v else coef s k)
      (s := s) ⟨rfl, fun k => by rw [if_neg (by omega)]⟩
      (fun i h1 h2 t ht => ⟨t.set i.toNat v, write_ok_of v h1 (by omega), by simp [ht.1], fun k => by
        rw [coef_set v h1 (by omega), ht.2 k]
        split_ifs <;> first | rfl | omega⟩)
    exact ⟨s', e, hl, hc⟩
  · refine ⟨s, ?_, rfl, fun k => by rw [if_neg (by omega)]⟩
    have : upTo 0 n = [] := by unfold upTo; rw [show (n - 0).toNat = 0 by omega]; rfl
    unfold fill; rw [this]; rfl

/-- Copying the first cells. -/
theorem copyCells_spec [Zero R] (d s : List R) (n : Int) (hn : 0 ≤ n) (hd : n ≤ d.length) (hs : n ≤ s.length) :
    ∃ d', copyCells d s n = .ok d' ∧ d'.length = d.length ∧
      ∀ k : Nat, coef d' k = if (k : Int) < n then coef s k else coef d k := by
  obtain ⟨s', e, hl, hc⟩ := loop_inv (a := 0) (b := n) hn
      (fun d i => do let v ← Mx.read s i; write d i v)
      (fun i t => t.length = d.length ∧ ∀ k : Nat, coef t k = if (k : Int) < i then coef s k else coef d k)
      (s := d) ⟨rfl, fun k => by rw [if_neg (by omega)]⟩
      (fun i h1 h2 t ht => ⟨t.set i.toNat (coef s i.toNat), by
          rw [read_coef h1 (by omega), Outcome.ok_bind]; exact write_ok_of _ h1 (by omega),
        by simp [ht.1], fun k => by
        rw [coef_set _ h1 (by omega), ht.2 k]
        split_ifs <;> first | rfl | omega | (subst_vars; simp) ⟩)
  exact ⟨s', e, hl, hc⟩

theorem sum_range_succ_int {M : Type} [AddCommMonoid M] (f : Nat → M) (i : Int) (h : 0 ≤ i) :
    ∑ x ∈ Finset.range (i + 1).toNat, f x = (∑ x ∈ Finset.range i.toNat, f x) + f i.toNat := by
  rw [show (i + 1).toNat = i.toNat + 1 by omega, Finset.sum_range_succ]

theorem multiply_spec [Semiring R] {size maxLength : Int} {a b storage : List R}
    (h1 : mulSize (degree a) (degree b) maxLength ≤ size)
    (h2 : mulSize (degree a) (degree b) maxLength ≤ storage.length) :
    ∃ s, multiply size a b storage maxLength = .ok s ∧ s.length = storage.length ∧
      ∀ k : Nat, coef s k = if (k : Int) < mulSize (degree a) (degree b) maxLength
        then (toPoly a * toPoly b).coeff k else coef storage k := by
  simp only [multiply]
  rw [if_neg (by omega)]
  generalize mulSize (degree a) (degree b) maxLength = L at *
  obtain ⟨s0, e0, l0, c0⟩ := fill_spec storage L 0 h2
  rw [e0, Outcome.ok_bind]
  have key := loop_inv (a := 0) (b := degree a + 1) (by unfold degree; omega)
    (fun s i => (upTo 0 (degree b + 1)).foldlM (fun s j =>
        if i + j < L then do
          let old ← Mx.read s (i + j)
          let x ← Mx.read a i
          let y ← Mx.read b j
          write s (i + j) (old + x * y)
        else pure s) s)
    (fun i t => t.length = storage.length ∧ ∀ k : Nat, coef t k = if (k : Int) < L then
        ∑ x ∈ Finset.range i.toNat, ∑ y ∈ Finset.range b.length, (if x + y = k then coef a x * coef b y else 0)
        else coef storage k) (s := s0) ⟨l0, fun k => by rw [c0]; simp⟩ ?_
  · obtain ⟨s', e', l', c'⟩ := key
    refine ⟨s', e', l', fun k => ?_⟩
    rw [c', toPoly_mul_coeff, show (degree a + 1).toNat = a.length by unfold degree; omega]
  · intro i hi0 hi t ⟨lt, ct⟩
    obtain ⟨s', e', l', c'⟩ := loop_inv (a := 0) (b := degree b + 1) (by unfold degree; omega)
      (fun s j => if i + j < L then do
          let old ← Mx.read s (i + j)
          let x ← Mx.read a i
          let y ← Mx.read b j
          write s (i + j) (old + x * y)
        else pure s)
      (fun j u => u.length = storage.length ∧ ∀ k : Nat, coef u k = coef t k + if (k : Int) < L then
        ∑ y ∈ Finset.range j.toNat, (if i.toNat + y = k then coef a i.toNat * coef b y else 0) else 0)
      (s := t) ⟨lt, fun k => by simp⟩ (by
        intro j hj0 hj u ⟨lu, cu⟩
        unfold degree at hi hj
        by_cases hc : i + j < L
        · rw [if_pos hc]
          refine ⟨u.set (i + j).toNat (coef u (i + j).toNat + coef a i.toNat * coef b j.toNat), ?_, by simp [lu], ?_⟩
          · rw [read_coef (by omega) (by omega), read_coef (l := a) hi0 (by omega),
              read_coef (l := b) hj0 (by omega)]
            exact write_ok_of _ (by omega) (by omega)
          · intro k
            rw [coef_set _ (by omega) (by omega)]
            by_cases hk : (k : Int) = i + j
            · rw [if_pos hk, cu, sum_range_succ_int _ _ hj0]
              have : (i + j).toNat = k := by omega
              rw [this, if_pos (by omega), if_pos (by omega), if_pos (by omega), add_assoc]
            · rw [if_neg hk, cu, sum_range_succ_int _ _ hj0, if_neg (by omega : ¬ i.toNat + j.toNat = k), add_zero]
        · rw [if_neg hc]
          refine ⟨u, rfl, lu, fun k => ?_⟩
          rw [cu, sum_range_succ_int _ _ hj0]
          split_ifs <;> first | omega | simp)
    refine ⟨s', e', l', fun k => ?_⟩
    rw [c', ct, show (degree b + 1).toNat = b.length by unfold degree; omega, sum_range_succ_int _ _ hi0]
    split_ifs <;> simp


theorem list_eq_of_coef [Zero R] {l l' : List R} (hl : l.length = l'.length)
    (h : ∀ k, k < l.length → coef l k = coef l' k) : l = l' := by
  apply List.ext_getElem hl
  intro k h1 h2
  have := h k h1
  simpa [coef, List.getElem?_eq_getElem h1, List.getElem?_eq_getElem h2] using this

theorem getElem?_coef [Zero R] {l : List R} {k : Nat} (h : k < l.length) : l[k]? = some (coef l k) := by
  simp [coef, List.getElem?_eq_getElem h]

theorem toPoly_ext [Semiring R] {l : List R} {P : R[X]} (h : ∀ k, k < l.length → coef l k = P.coeff k)
    (hd : ∀ k, l.length ≤ k → P.coeff k = 0) : toPoly l = P := by
  ext k
  rw [toPoly_coeff]
  by_cases hk : k < l.length
  · exact h k hk
  · rw [coef_of_ge (by omega), hd k (by omega)]

theorem power_spec [Semiring R] {size wsize maxLength n : Int} {a storage work : List R}
    (ha : a ≠ []) (hn : 0 ≤ n) (hm : (a.length : Int) ≤ maxLength)
    (h1 : powSize n (degree a) maxLength ≤ size) (h2 : powWork n (degree a) maxLength ≤ wsize)
    (hs : powSize n (degree a) maxLength ≤ storage.length) (hw : powWork n (degree a) maxLength ≤ work.length) :
    ∃ s, power size wsize a n storage work maxLength = .ok s ∧ s.length = storage.length ∧
      ∀ k : Nat, coef s k = if (k : Int) < powSize n (degree a) maxLength
        then (toPoly a ^ n.toNat).coeff k else coef storage k := by
  have hpos : 1 ≤ (a.length : Int) := by
    have : a.length ≠ 0 := by simpa using ha
    omega
  have hdeg : degree a = a.length - 1 := rfl
  simp only [power]
  rw [if_neg (by omega)]
  obtain ⟨s0, e0, l0, c0⟩ := fill_spec storage _ 0 hs
  rw [e0, Outcome.ok_bind]
  by_cases hn0 : n = 0
  · rw [if_pos hn0]
    have hL : powSize n (degree a) maxLength = 1 := by
      unfold powSize; rw [hn0, zero_mul]; omega
    rw [hL] at hs c0 ⊢
    refine ⟨s0.set 0 1, write_ok_of _ (by omega) (by omega), by simp [l0], fun k => ?_⟩
    have := coef_set (l := s0) (k := 0) 1 (by omega) (by omega) k
    simp only [Int.toNat_zero] at this
    rw [this, c0, hn0, Int.toNat_zero, pow_zero, coeff_one]
    split_ifs <;> first | rfl | omega
  · rw [if_neg hn0]
    have hL : (a.length : Int) ≤ powSize n (degree a) maxLength := by
      unfold powSize
      have : 1 * degree a ≤ n * degree a := mul_le_mul_of_nonneg_right (by omega) (by omega)
      omega
    have hW : powWork n (degree a) maxLength = mulSize (degree a) (powSize n (degree a) maxLength - 1) maxLength := rfl
    have hLm : powSize n (degree a) maxLength ≤ maxLength := by unfold powSize; omega
    rw [hW] at hw
    generalize powSize n (degree a) maxLength = L at *
    have hLw : L ≤ mulSize (degree a) (L - 1) maxLength := by unfold mulSize; omega
    obtain ⟨s1, e1, l1, c1⟩ := copyCells_spec s0 a a.length (by omega) (by omega) (by omega)
    rw [e1, Outcome.ok_bind]
    obtain ⟨sw, e2, ls, lw, c2⟩ := loop_inv (a := 1) (b := n) (by omega)
      (fun (sw : List R × List R) (_ : Int) => (do
        let w ← multiply (mulSize (degree a) (L - 1) maxLength) a (sw.1.take L.toNat) sw.2 maxLength
        let s ← copyCells sw.1 w L
        pure (s, w) : Outcome (List R × List R)))
      (fun i t => t.1.length = storage.length ∧ t.2.length = work.length ∧
        ∀ k : Nat, coef t.1 k = if (k : Int) < L then (toPoly a ^ i.toNat).coeff k else coef storage k)
      (s := (s1, work)) ⟨by simp [l1, l0], rfl, fun k => by
        simp only [Int.toNat_one, pow_one, toPoly_coeff]
        rw [c1, c0]
        split_ifs with h3 h4
        · rfl
        · omega
        · rw [coef_of_ge (by omega)]
        · rfl⟩
      (by
        rintro i hi0 hi ⟨s, w⟩ ⟨ls, lw, cs⟩
        have lt : (s.take L.toNat).length = L.toNat := by rw [List.length_take]; simp at ls; omega
        have dt : degree (s.take L.toNat) = L - 1 := by unfold degree; rw [lt]; omega
        obtain ⟨w', e3, l3, c3⟩ := multiply_spec (size := mulSize (degree a) (L - 1) maxLength)
          (maxLength := maxLength) (a := a) (b := s.take L.toNat) (storage := w) (by rw [dt]) (by
            rw [dt]; simp at lw; omega)
        simp only at ls lw
        obtain ⟨s', e4, l4, c4⟩ := copyCells_spec s w' L (by omega) (by omega) (by omega)
        refine ⟨(s', w'), ?_, by simp [l4, ls], by simp [l3, lw], ?_⟩
        · simp only [e3, Outcome.ok_bind, e4]; rfl
        · intro k
          simp only
          rw [c4, c3, dt]
          by_cases hk : (k : Int) < L
          · rw [if_pos hk, if_pos hk, if_pos (by omega), show (i + 1).toNat = i.toNat + 1 by omega, pow_succ']
            apply mul_coeff_congr
            intro j hj
            rw [toPoly_coeff, coef_take (by omega), cs j, if_pos (by omega)]
          · rw [if_neg hk, if_neg hk]
            have := cs k; rw [if_neg hk] at this; exact this)
    refine ⟨sw.1, ?_, ls, c2⟩
    simp only [e2, Outcome.ok_bind]; rfl

theorem loop_ub {σ : Type} {a m b : Int} (ham : a ≤ m) (hmb : m < b) (f : σ → Int → Outcome σ) (P : Int → σ → Prop)
    {s : σ} (h0 : P a s) (hs : ∀ i, a ≤ i → i < m → ∀ s, P i s → ∃ s', f s i = .ok s' ∧ P (i + 1) s')
    (hub : ∀ s, P m s → f s m = .ub) : (upTo a b).foldlM f s = .ub := by
  obtain ⟨s1, e1, p1⟩ := loop_inv ham f P h0 hs
  have : upTo a b = upTo a m ++ m :: upTo (m + 1) b := by
    unfold upTo
    rw [show (b - a).toNat = (m - a).toNat + ((b - (m + 1)).toNat + 1) by omega, List.range_add, List.map_append,
      List.map_map, List.range_succ_eq_map]
    congr 1
    simp only [List.map_cons, List.map_map]
    congr 1
    · simp; omega
    · apply List.map_congr_left; intro x _; simp; omega
  rw [this, List.foldlM_append, e1, Outcome.ok_bind, List.foldlM_cons, hub s1 p1]; rfl

theorem copyCells_ub [Zero R] (d s : List R) (n : Int) (hd : (d.length : Int) < n) (hs : n ≤ s.length) :
    copyCells d s n = .ub := by
  unfold copyCells
  refine loop_ub (m := d.length) (by omega) hd _ (fun _ t => t.length = d.length) rfl ?_ ?_
  · intro i h1 h2 t ht
    refine ⟨t.set i.toNat (coef s i.toNat), ?_, by simp [ht]⟩
    rw [read_coef h1 (by omega), Outcome.ok_bind]; exact write_ok_of _ h1 (by omega)
  · intro t ht
    rw [read_coef (by omega) (by omega), Outcome.ok_bind]
    unfold write; rw [if_neg (by omega)]

/-- The coefficients of the inverse series. -/
def invSeq [Ring R] (a : List R) (b0 : R) : Nat → R
  | 0 => b0
  | k + 1 => ∑ j : Fin (k + 1), -(b0 * coef a (j + 1)) * invSeq a b0 (k - j)
termination_by k => k

theorem invSeq_succ [Ring R] (a : List R) (b0 : R) (k : Nat) :
    invSeq a b0 (k + 1) = ∑ j ∈ Finset.range (k + 1), -(b0 * coef a (j + 1)) * invSeq a b0 (k - j) := by
  rw [invSeq, Finset.sum_range]

theorem invert_spec [Ring R] {inv : R → Option R} {size wsize maxLength : Int} {a0 b0 : R} {rest storage : List R}
    (hinv : inv a0 = some b0) (h1 : maxLength ≤ size) (h2 : ((rest.length : Int) + 1) ≤ wsize) (hm : 1 ≤ maxLength)
    (hs : maxLength ≤ storage.length) :
    ∃ s, invert inv size wsize (a0 :: rest) storage maxLength = .ok s ∧ s.length = storage.length ∧
      ∀ k : Nat, coef s k = if (k : Int) < maxLength then invSeq (a0 :: rest) b0 k else coef storage k := by
  have hdeg : degree (a0 :: rest) = rest.length := by simp [degree]
  simp only [invert, hdeg, hinv]
  rw [if_neg (by omega), if_neg (by omega), write_ok_of _ (by omega) (by omega), Outcome.ok_bind]
  have hT : ∀ j, coef (rest.map (fun ai => -(b0 * ai))) j = -(b0 * coef (a0 :: rest) (j + 1)) := by
    intro j
    simp only [coef, List.getElem?_map, List.getElem?_cons_succ]
    cases rest[j]? <;> simp
  have hTl : (rest.map (fun ai => -(b0 * ai))).length = rest.length := by simp
  generalize rest.map (fun ai => -(b0 * ai)) = T at *
  obtain ⟨s', e', l', c'⟩ := loop_inv (a := 1) (b := maxLength) (by omega)
    (fun s k => (do
          let s ← write s k 0
          (upTo 1 ((rest.length : Int) + 1)).foldlM (fun s j =>
            if k < j then pure s
            else do
              let t ← Mx.read T (j - 1)
              let r ← Mx.read s (k - j)
              let old ← Mx.read s k
              write s k (old + t * r)) s))
    (fun i t => t.length = storage.length ∧ ∀ k : Nat, coef t k = if (k : Int) < i then
        invSeq (a0 :: rest) b0 k else coef storage k)
    (s := storage.set 0 b0) ⟨by simp, fun k => by
      have := coef_set (l := storage) (k := 0) b0 (by omega) (by omega) k
      simp only [Int.toNat_zero] at this
      rw [this]
      split_ifs with h3 h4 h4
      · have : k = 0 := by omega
        subst this; rw [invSeq]
      · omega
      · omega
      · rfl⟩
    (by
      intro k hk0 hk t ⟨lt, ct⟩
      rw [write_ok_of _ (by omega) (by omega), Outcome.ok_bind]
      obtain ⟨u, e, lu, cu⟩ := loop_inv (a := 1) (b := (rest.length : Int) + 1) (by omega)
        (fun s j =>
            if k < j then pure s
            else do
              let t ← Mx.read T (j - 1)
              let r ← Mx.read s (k - j)
              let old ← Mx.read s k
              write s k (old + t * r))
        (fun j u => u.length = storage.length ∧ ∀ i : Nat, coef u i = if (i : Int) = k then
            ∑ x ∈ Finset.range (j - 1).toNat, (if (x : Int) + 1 ≤ k then
              -(b0 * coef (a0 :: rest) (x + 1)) * invSeq (a0 :: rest) b0 (k.toNat - 1 - x) else 0)
            else coef t i)
        (s := t.set k.toNat 0) ⟨by simp [lt], fun i => by
          rw [coef_set _ (by omega) (by omega)]; simp⟩
        (by
          intro j hj0 hj u ⟨lu, cu⟩
          by_cases hc : k < j
          · rw [if_pos hc]
            refine ⟨u, rfl, lu, fun i => ?_⟩
            rw [cu, show (j + 1 - 1) = (j - 1) + 1 by omega, sum_range_succ_int _ _ (by omega), if_neg (by omega : ¬ (((j - 1).toNat : Int) + 1 ≤ k)), add_zero]
          · rw [if_neg hc, read_coef (by omega) (by omega), Outcome.ok_bind, read_coef (by omega) (by omega),
              Outcome.ok_bind, read_coef (by omega) (by omega), Outcome.ok_bind]
            refine ⟨_, write_ok_of _ (by omega) (by omega), by simp [lu], fun i => ?_⟩
            rw [coef_set _ (by omega) (by omega)]
            by_cases hi : (i : Int) = k
            · rw [if_pos hi, if_pos hi, show (j + 1 - 1) = (j - 1) + 1 by omega, sum_range_succ_int _ _ (by omega),
                cu, if_pos (by omega), if_pos (by omega), hT, cu, if_neg (by omega), ct, if_pos (by omega)]
              congr 4
              omega
            · rw [if_neg hi, if_neg hi, cu, if_neg hi])
      refine ⟨u, e, lu, fun i => ?_⟩
      rw [cu, ct]
      by_cases hi : (i : Int) = k
      · rw [if_pos hi, if_pos (by omega)]
        obtain ⟨q, rfl⟩ : ∃ q, i = q + 1 := ⟨i - 1, by omega⟩
        rw [invSeq_succ]
        have hkq : k.toNat - 1 = q := by omega
        rw [hkq, show ((rest.length : Int) + 1 - 1).toNat = rest.length by omega]
        have hA : ∀ x, x ∈ Finset.range (max (q + 1) rest.length) → x ∉ Finset.range rest.length →
            (if (x : Int) + 1 ≤ k then
              -(b0 * coef (a0 :: rest) (x + 1)) * invSeq (a0 :: rest) b0 (q - x) else 0) = 0 := by
          intro x _ hx
          rw [coef_of_ge (l := a0 :: rest) (by simp at hx ⊢; omega)]; simp
        rw [Finset.sum_subset (s₂ := Finset.range (max (q + 1) rest.length))
          (fun x hx => by simp at hx ⊢; omega) hA]
        rw [← Finset.sum_subset (s₁ := Finset.range (q + 1)) (fun x hx => by simp at hx ⊢; omega)
          (fun x _ hx => by simp at hx; rw [if_neg (by omega)])]
        refine Finset.sum_congr rfl (fun x hx => ?_)
        simp at hx
        rw [if_pos (by omega)]
      · rw [if_neg hi]
        split_ifs <;> first | rfl | omega)
  exact ⟨s', e', l', c'⟩


/-- A series whose constant coefficient is invertible times the recursively defined series is one. -/
theorem series_right_inv [Ring R] (f : Nat → R) (b0 : R) (g : Nat → R) (h0 : f 0 * b0 = 1) (hg0 : g 0 = b0)
    (hg : ∀ k, g (k + 1) = ∑ j ∈ Finset.range (k + 1), -(b0 * f (j + 1)) * g (k - j)) :
    PowerSeries.mk f * PowerSeries.mk g = 1 := by
  ext n
  rw [PowerSeries.coeff_mul, PowerSeries.coeff_one]
  simp only [PowerSeries.coeff_mk]
  rw [Finset.Nat.sum_antidiagonal_eq_sum_range_succ (fun i j => f i * g j)]
  rcases n with _ | k
  · simp [hg0, h0]
  · rw [Finset.sum_range_succ', if_neg (by omega)]
    simp only [Nat.sub_zero, Nat.add_sub_add_right]
    rw [hg, Finset.mul_sum, ← Finset.sum_add_distrib]
    apply Finset.sum_eq_zero
    intro j _
    rw [neg_mul, mul_neg, ← mul_assoc (f 0), ← mul_assoc (f 0), h0, one_mul, add_neg_cancel]

theorem series_inv_exists [Ring R] (f : Nat → R) (b0 : R) (h0 : f 0 * b0 = 1) :
    ∃ g : Nat → R, g 0 = b0 ∧ PowerSeries.mk f * PowerSeries.mk g = 1 := by
  let g : Nat → R := fun n => Nat.strongRec (motive := fun _ => R) (fun n ih =>
    match n, ih with
    | 0, _ => b0
    | k + 1, ih => ∑ j : Fin (k + 1), -(b0 * f (j + 1)) * ih (k - j) (by omega)) n
  refine ⟨g, ?_, series_right_inv f b0 g h0 ?_ ?_⟩
  · simp only [g]; rw [Nat.strongRec_eq]
  · simp only [g]; rw [Nat.strongRec_eq]
  · intro k
    simp only [g]; rw [Nat.strongRec_eq]; rw [Finset.sum_range]

/-- … and it is a two-sided inverse. -/
theorem series_inv [Ring R] (a : List R) (b0 : R) (h0 : coef a 0 * b0 = 1) (h0' : b0 * coef a 0 = 1) :
    PowerSeries.mk (coef a) * PowerSeries.mk (invSeq a b0) = 1 ∧
      PowerSeries.mk (invSeq a b0) * PowerSeries.mk (coef a) = 1 := by
  have hg0 : invSeq a b0 0 = b0 := by rw [invSeq]
  have h1 := series_right_inv (coef a) b0 (invSeq a b0) h0 hg0 (invSeq_succ a b0)
  obtain ⟨c, _, h2⟩ := series_inv_exists (invSeq a b0) (coef a 0) (by rw [hg0]; exact h0')
  refine ⟨h1, ?_⟩
  have : PowerSeries.mk c = PowerSeries.mk (coef a) := by
    calc PowerSeries.mk c = (PowerSeries.mk (coef a) * PowerSeries.mk (invSeq a b0)) * PowerSeries.mk c := by
          rw [h1, one_mul]
      _ = PowerSeries.mk (coef a) := by rw [mul_assoc, h2, mul_one]
  rw [← this]; exact h2

end Poly
end LDT
