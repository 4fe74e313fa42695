import Verif.Lemmas.Varma
import Verif.Props.Poly
import Mathlib.LinearAlgebra.Matrix.PosDef
import Mathlib.Data.Real.Basic
import Mathlib.Data.Real.Star
namespace LDT
namespace Varma
open Mx Poly Polynomial

variable {K : Type}

/-! ## C50: the MA∞ representation -/

theorem lagPoly_spec {R : Type} [Zero R] [One R] {lags : List Int} {max m start : Int} {blk : Int → Outcome R}
    (f : R → R) (hs : lags.Pairwise (· < ·)) (h1 : ∀ l ∈ lags, 1 ≤ l) (hmax : max = (lags.getLast?).getD 0)
    (b : Nat → R) (hb : ∀ c, c < lags.length → blk (start + m * c) = .ok (b c)) :
    ∃ r, lagPoly lags max m start blk f = .ok r ∧ (r.length : Int) = max + 1 ∧ r[0]? = some 1 ∧
      (∀ (c : Nat) (l : Int), lags[c]? = some l → r[l.toNat]? = some (f (b c))) ∧
      (∀ k : Int, 1 ≤ k → k ≤ max → k ∉ lags → r[k.toNat]? = some 0) := by
  have hlt : ∀ (i j : Nat) (x y : Int), lags[i]? = some x → lags[j]? = some y → i < j → x < y := by
    intro i j x y hx hy hij
    obtain ⟨hi, rfl⟩ := List.getElem?_eq_some_iff.1 hx
    obtain ⟨hj, rfl⟩ := List.getElem?_eq_some_iff.1 hy
    exact List.pairwise_iff_getElem.1 hs i j hi hj hij
  have hmem : ∀ (i : Nat) (x : Int), lags[i]? = some x → x ∈ lags := fun i x h => List.mem_of_getElem? h
  have hle : ∀ l ∈ lags, l ≤ max := by
    intro l hl
    obtain ⟨i, hi, rfl⟩ := List.getElem_of_mem hl
    have hlast : lags.getLast? = some lags[lags.length - 1] := by
      rw [List.getLast?_eq_getElem?, List.getElem?_eq_getElem (by omega)]
    rw [hmax, hlast, Option.getD_some]
    rcases Nat.lt_or_ge i (lags.length - 1) with h | h
    · exact le_of_lt (hlt i _ _ _ (List.getElem?_eq_getElem hi) (List.getElem?_eq_getElem (by omega)) h)
    · have : i = lags.length - 1 := by omega
      subst this; exact le_rfl
  have hmax0 : 0 ≤ max := by
    cases hg : lags.getLast? with
    | none => rw [hmax, hg]; rfl
    | some x => rw [hmax, hg]; have := h1 x (List.mem_of_getLast? hg); simp; omega
  unfold lagPoly
  obtain ⟨st, e, c, _, hc2, hlen, h0, hv, hz⟩ := loop_inv (a := 1) (b := max + 1) (by omega)
    (fun (st : Int × List R) k =>
      if k ∈ lags then do
        let b ← blk st.1
        pure (st.1 + m, st.2 ++ [f b])
      else pure (st.1, st.2 ++ [0]))
    (fun k st => ∃ c : Nat, st.1 = start + m * c ∧
      (∀ (i : Nat) (l : Int), lags[i]? = some l → (l < k ↔ i < c)) ∧ (st.2.length : Int) = k ∧
      st.2[0]? = some 1 ∧
      (∀ (i : Nat) (l : Int), lags[i]? = some l → l < k → st.2[l.toNat]? = some (f (b i))) ∧
      (∀ j : Int, 1 ≤ j → j < k → j ∉ lags → st.2[j.toNat]? = some 0))
    (s := (start, [1])) ⟨0, by simp, fun i l hi => by
        have := h1 l (hmem i l hi); omega, by simp, by simp, fun i l hi hl => by
        have := h1 l (hmem i l hi); omega, fun j _ _ => by omega⟩ (by
      rintro k hk0 hk ⟨pos, acc⟩ ⟨c, hpos, hcc, hlen, h0, hv, hz⟩
      simp only at hpos hlen h0 hv hz
      have hkn : k.toNat = acc.length := by omega
      have hget : ∀ (x : R) (j : Int), 0 ≤ j → j < k → (acc ++ [x])[j.toNat]? = acc[j.toNat]? := by
        intro x j _ hj; rw [List.getElem?_append_left (by omega)]
      have hget' : ∀ x : R, (acc ++ [x])[k.toNat]? = some x := by
        intro x; rw [hkn, List.getElem?_append_right le_rfl]; simp
      by_cases hkl : k ∈ lags
      · simp only [if_pos hkl]
        obtain ⟨i, hi, hik⟩ := List.getElem_of_mem hkl
        have hi? : lags[i]? = some k := by rw [List.getElem?_eq_getElem hi, hik]
        have hic : i = c := by
          have h3 : ¬ i < c := fun h => absurd ((hcc i k hi?).2 h) (lt_irrefl _)
          rcases Nat.lt_or_ge c i with h4 | h4
          · have hcl : c < lags.length := by omega
            have h5 := hlt c i _ _ (List.getElem?_eq_getElem hcl) hi? h4
            have := (hcc c _ (List.getElem?_eq_getElem hcl)).1 h5
            omega
          · omega
        subst hic
        rw [hpos, hb i hi, Outcome.ok_bind]
        refine ⟨_, rfl, i + 1, by push_cast; ring, ?_, by simp; omega, ?_, ?_, ?_⟩
        · intro j l hj
          constructor
          · intro hl
            by_contra hn
            have := hlt i j k l hi? hj (by omega)
            omega
          · intro hji
            rcases Nat.lt_or_ge j i with h | h
            · have := (hcc j l hj).2 h; omega
            · have : j = i := by omega
              subst this; rw [hi?] at hj; cases hj; omega
        · have := hget (f (b i)) 0 (by omega) (by omega)
          simp only [Int.toNat_zero] at this
          rw [this, h0]
        · intro j l hj hl
          rcases lt_or_eq_of_le (show l ≤ k by omega) with h | h
          · rw [hget _ l (by have := h1 l (hmem j l hj); omega) h]; exact hv j l hj h
          · subst h
            have : j = i := by
              rcases Nat.lt_trichotomy j i with h | h | h
              · have := hlt j i _ _ hj hi? h; omega
              · exact h
              · have := hlt i j _ _ hi? hj h; omega
            subst this; exact hget' _
        · intro j hj0 hj hjl
          rcases lt_or_eq_of_le (show j ≤ k by omega) with h | h
          · rw [hget _ j (by omega) h]; exact hz j hj0 h hjl
          · subst h; exact absurd hkl hjl
      · simp only [if_neg hkl]
        refine ⟨_, rfl, c, hpos, ?_, by simp; omega, ?_, ?_, ?_⟩
        · intro j l hj
          rw [← hcc j l hj]
          have : l ≠ k := fun h => hkl (h ▸ hmem j l hj)
          omega
        · have := hget 0 0 (by omega) (by omega)
          simp only [Int.toNat_zero] at this
          rw [this, h0]
        · intro j l hj hl
          have : l ≠ k := fun h => hkl (h ▸ hmem j l hj)
          rw [hget _ l (by have := h1 l (hmem j l hj); omega) (by omega)]; exact hv j l hj (by omega)
        · intro j hj0 hj hjl
          rcases lt_or_eq_of_le (show j ≤ k by omega) with h | h
          · rw [hget _ j (by omega) h]; exact hz j hj0 h hjl
          · subst h; exact hget' _)
  refine ⟨st.2, by rw [e]; rfl, hlen, h0, fun i l hi => hv i l hi (by have := hle l (hmem i l hi); omega),
    fun k hk0 hk hkl => hz k hk0 (by omega) hkl⟩

/-- The `m × m` block of a coefficient matrix that starts at column `i`. -/
def coefBlock [Zero K] (m : Nat) (Pi : Mat K) (i : Int) : Matrix (Fin m) (Fin m) K :=
  fun r c => Pi.val r (i + c)

theorem block_ok [Zero K] {m : Nat} {Pi : Mat K} (w : Pi.Wf) (hr : Pi.rows = m) {i : Int} (h0 : 0 ≤ i)
    (h1 : i + m ≤ Pi.cols) : block m Pi i = .ok (coefBlock m Pi i) := by
  unfold block
  rw [if_pos ⟨h0, h1, by omega, w.size⟩]; rfl

/-- The AR polynomial of a coefficient matrix with increasing lags `l₀ < l₁ < …` is
`I - Φ₀ L^{l₀} - Φ₁ L^{l₁} - …` where `Φ_c` is the `c`-th block of columns. -/
theorem C50_ar [Ring K] {z : Sizes} {m : Nat} {Pi : Mat K} (w : Pi.Wf) (hr : Pi.rows = m)
    (hs : z.arLags.Pairwise (· < ·)) (h1 : ∀ l ∈ z.arLags, 1 ≤ l) (hc : z.arLength * m ≤ Pi.cols) :
    ∃ r, arPoly z m Pi = .ok r ∧ (toPoly r).coeff 0 = 1 ∧
      (∀ (c : Nat) (l : Int), z.arLags[c]? = some l → (toPoly r).coeff l.toNat = -coefBlock m Pi (m * c)) ∧
      (∀ k : Nat, 1 ≤ k → (k : Int) ∉ z.arLags → (toPoly r).coeff k = 0) ∧ (r.length : Int) = z.arMax + 1 := by
  obtain ⟨r, e, hl, h0, hv, hz⟩ := lagPoly_spec (lags := z.arLags) (max := z.arMax) (m := m) (start := 0)
    (blk := block m Pi) (fun b => -b) hs h1 rfl (fun c => coefBlock m Pi (m * c)) (by
      intro c hcl
      rw [zero_add]
      refine block_ok w hr (by positivity) ?_
      have : ((c : Int) + 1) * m ≤ z.arLength * m := mul_le_mul_of_nonneg_right (by unfold Sizes.arLength; omega) (by omega)
      have e : ((c : Int) + 1) * m = m * c + m := by ring
      omega)
  refine ⟨r, e, ?_, ?_, ?_, hl⟩
  · rw [toPoly_coeff]; unfold coef; rw [h0]; rfl
  · intro c l hcl; rw [toPoly_coeff]; unfold coef; rw [hv c l hcl]; rfl
  · intro k hk hkl
    rw [toPoly_coeff]
    by_cases hk' : (k : Int) ≤ z.arMax
    · unfold coef; have := hz k (by omega) hk' hkl; simp at this; rw [this]; rfl
    · exact coef_of_ge (by omega)

/-- The MA polynomial is `I + Θ₀ L^{l₀} + …` with the last blocks of columns. -/
theorem C50_ma [Ring K] {z : Sizes} {m : Nat} {Pi : Mat K} (w : Pi.Wf) (hr : Pi.rows = m)
    (hs : z.maLags.Pairwise (· < ·)) (h1 : ∀ l ∈ z.maLags, 1 ≤ l) (hm : z.eqsCount = m)
    (hx : 0 ≤ z.exoCount) (hc : Pi.cols = z.numParamsEq) :
    ∃ r, maPoly z m Pi = .ok r ∧ (toPoly r).coeff 0 = 1 ∧
      (∀ (c : Nat) (l : Int), z.maLags[c]? = some l →
        (toPoly r).coeff l.toNat = coefBlock m Pi (z.maStart + m * c)) ∧
      (∀ k : Nat, 1 ≤ k → (k : Int) ∉ z.maLags → (toPoly r).coeff k = 0) ∧ (r.length : Int) = z.maMax + 1 := by
  have hst : z.numParamsEq - m * z.maLength = z.maStart := by
    unfold Sizes.numParamsEq; rw [hm]; ring
  have hst0 : 0 ≤ z.maStart := by
    unfold Sizes.maStart Sizes.arLength; rw [hm]; positivity
  obtain ⟨r, e, hl, h0, hv, hz⟩ := lagPoly_spec (lags := z.maLags) (max := z.maMax) (m := m) (start := z.maStart)
    (blk := block m Pi) (fun b => b) hs h1 rfl (fun c => coefBlock m Pi (z.maStart + m * c)) (by
      intro c hcl
      have h5 : (0 : Int) ≤ m * c := by positivity
      refine block_ok w hr (by omega) ?_
      rw [hc]; unfold Sizes.numParamsEq; rw [hm]
      have : ((c : Int) + 1) * m ≤ z.maLength * m := mul_le_mul_of_nonneg_right (by unfold Sizes.maLength; omega) (by omega)
      have e : ((c : Int) + 1) * m = m * c + m := by ring
      omega)
  refine ⟨r, by unfold maPoly; rw [hst]; exact e, ?_, ?_, ?_, hl⟩
  · rw [toPoly_coeff]; unfold coef; rw [h0]; rfl
  · intro c l hcl; rw [toPoly_coeff]; unfold coef; rw [hv c l hcl]; rfl
  · intro k hk hkl
    rw [toPoly_coeff]
    by_cases hk' : (k : Int) ≤ z.maMax
    · unfold coef; have := hz k (by omega) hk' hkl; simp at this; rw [this]; rfl
    · exact coef_of_ge (by omega)

section
variable {R : Type}

theorem copyMa_spec [Zero R] (count : Int) : ∀ (ma : List R) (i : Int) (st : List R), 0 ≤ i → i ≤ count →
    count < st.length → ∃ st' i', copyMa count ma i st = .ok (st', i') ∧ st'.length = st.length ∧ 0 ≤ i' ∧
      i' ≤ count + 1 ∧ (i' = min count (i + ma.length) ∨ ma = []  ∧ i' = i ∨ i' = i + ma.length) ∧
      ∀ k : Nat, (k : Int) < count → coef st' k = if i ≤ k ∧ (k : Int) < i + ma.length then coef ma (k - i.toNat)
        else coef st k := by
  intro ma
  induction ma with
  | nil =>
    intro i st h0 h1 h2
    refine ⟨st, i, rfl, rfl, h0, by omega, Or.inr (Or.inl ⟨rfl, rfl⟩), fun k hk => ?_⟩
    rw [if_neg]; simp
  | cons a ma ih =>
    intro i st h0 h1 h2
    unfold copyMa
    rw [write_ok_of _ h0 (by omega), Outcome.ok_bind]
    by_cases hi : i = count
    · rw [if_pos hi]
      refine ⟨_, i, rfl, by simp, h0, by omega, Or.inl (by simp; omega), fun k hk => ?_⟩
      rw [coef_set _ h0 (by omega), if_neg (by omega), if_neg (by omega)]
    · rw [if_neg hi]
      obtain ⟨st', i', e, l, a0, a1, a2, c⟩ := ih (i + 1) (st.set i.toNat a) (by omega) (by omega) (by simpa using h2)
      refine ⟨st', i', e, by simpa using l, a0, a1, ?_, fun k hk => ?_⟩
      · simp only [List.length_cons] at *
        rcases a2 with a2 | ⟨a2, a3⟩ | a2
        · left; push_cast; omega
        · right; right; subst a2; simp; omega
        · right; right; push_cast; omega
      · rw [c k hk, coef_set _ h0 (by omega)]
        simp only [List.length_cons]
        by_cases hk1 : (k : Int) = i
        · rw [if_neg (by omega), if_pos hk1, if_pos (by push_cast; omega)]
          rw [show k - i.toNat = 0 by omega]; rfl
        · rw [if_neg hk1]
          by_cases hk2 : i + 1 ≤ (k : Int) ∧ (k : Int) < i + 1 + ma.length
          · rw [if_pos hk2, if_pos (by push_cast; omega)]
            rw [show k - i.toNat = (k - (i + 1).toNat) + 1 by omega]
            simp [coef]
          · rw [if_neg hk2, if_neg (by push_cast; omega)]

/-- The MA∞ coefficients `Ψ` solve `A(L)·(1-L)^d(1-L^s)^D·Ψ(L) = M(L)` up to degree `count - 1`, whatever was in
the storage and work areas. -/
theorem C50_maInf [Ring R] {inv : R → Option R} (junk : R) {hasAr hasDiff hasMa : Bool} {ar ma : List R}
    {diff : List Int} {count : Int} {storage : List R} (hinv : inv 1 = some 1)
    (har : ar.head? = some 1) (hnoar : hasAr = false → ar = [1])
    (hma : ma.head? = some 1) (hnoma : hasMa = false → ma = [1])
    (hdiff : diff.head? = some 1) (hnodiff : hasDiff = false → diff = [1])
    (hc : 1 ≤ count) (hcm : count ≤ intMax) (hlen : (ar.length : Int) + diff.length - 1 ≤ intMax)
    (hst : count + (if hasAr = false ∧ hasDiff = false then 1 else 0) ≤ storage.length) :
    ∃ r, maInf inv junk hasAr hasDiff hasMa ar ma diff count storage = .ok r ∧ r.length = storage.length ∧
      ∀ k : Nat, (k : Int) < count →
        (toPoly ar * toPoly (diff.map (fun z : Int => (z : R))) * toPoly (r.take count.toNat)).coeff k
          = (toPoly ma).coeff k := by
  have hmapc : ∀ k, coef (diff.map (fun z : Int => (z : R))) k = ((coef diff k : Int) : R) := by
    intro k; simp only [coef, List.getElem?_map]; cases diff[k]? <;> simp
  have hone : toPoly [(1 : R)] = 1 := by
    ext k; rw [toPoly_coeff, coeff_one]; rcases k with _ | k <;> simp [coef]
  have hdone : hasDiff = false → toPoly (diff.map (fun z : Int => (z : R))) = 1 := by
    intro h; rw [hnodiff h]; simp [hone]
  have harlen : 1 ≤ ar.length := by cases ar <;> simp at har ⊢
  have hdlen : 1 ≤ diff.length := by cases diff <;> simp at hdiff ⊢
  have hmalen : 1 ≤ ma.length := by cases ma <;> simp at hma ⊢
  unfold maInf
  by_cases hcopy : hasAr = false ∧ hasDiff = false
  · have hb : (!hasDiff && !hasAr) = true := by rw [hcopy.1, hcopy.2]; rfl
    rw [if_pos hb]
    rw [if_pos hcopy] at hst
    obtain ⟨st, i, e, l, i0, i1, i2, c⟩ := copyMa_spec count ma 0 storage le_rfl (by omega) (by omega)
    rw [e]; simp only [Outcome.ok_bind]
    obtain ⟨r, er, lr, cr⟩ := loop_inv (a := i) (b := count + 1) i1 (fun st i => write st i (0 : R))
      (fun j t => t.length = storage.length ∧ ∀ k : Nat, coef t k = if i ≤ k ∧ (k : Int) < j then 0 else coef st k)
      (s := st) ⟨l, fun k => by rw [if_neg (by omega)]⟩
      (fun j h1 h2 t ht => ⟨t.set j.toNat 0, write_ok_of _ (by omega) (by omega), by simp [ht.1], fun k => by
        rw [coef_set _ (by omega) (by omega), ht.2 k]
        split_ifs <;> first | rfl | omega⟩)
    refine ⟨r, er, lr, fun k hk => ?_⟩
    rw [hnoar hcopy.1, hone, hdone hcopy.2, one_mul, one_mul, toPoly_coeff, toPoly_coeff, coef_take (by omega), cr]
    have hck := c k hk
    simp only [zero_add, Int.toNat_zero, Nat.sub_zero] at hck i2
    by_cases hkm : (k : Int) < ma.length
    · rw [if_neg (by
        rcases i2 with h | ⟨h, _⟩ | h
        · omega
        · rw [h] at hmalen; simp at hmalen
        · omega), hck, if_pos ⟨by omega, hkm⟩]
    · rw [if_pos (by
        rcases i2 with h | ⟨h, _⟩ | h
        · omega
        · rw [h] at hmalen; simp at hmalen
        · omega), coef_of_ge (by omega)]
  · have hb : ¬ ((!hasDiff && !hasAr) = true) := by
      intro h; apply hcopy; cases hasDiff <;> cases hasAr <;> simp_all
    rw [if_neg hb]
    rw [if_neg hcopy] at hst
    -- the product AR · Diff
    obtain ⟨ad, ead, tad, lad⟩ : ∃ ad : List R, arDiffPoly junk hasDiff ar diff = .ok ad ∧ toPoly ad = toPoly ar * toPoly (diff.map (fun z : Int => (z : R))) ∧
        (ad.length : Int) = ar.length + diff.length - 1 := by
      unfold arDiffPoly
      cases hd : hasDiff with
      | false =>
        refine ⟨ar, by simp, by rw [hdone hd, mul_one], ?_⟩
        rw [hnodiff hd]; simp
      | true =>
        rw [if_pos rfl]
        simp only
        have hz : mulSize (Poly.degree ar) ((diff.length : Int) - 1) intMax = ar.length + diff.length - 1 := by
          unfold mulSize Poly.degree; omega
        rw [hz]
        obtain ⟨r, e, t, l⟩ := C46_multiply_exact (size := ar.length + diff.length - 1) (maxLength := intMax)
          (a := ar) (b := diff.map (fun z : Int => (z : R)))
          (storage := List.replicate ((ar.length : Int) + diff.length - 1).toNat junk)
          (by intro h; rw [h] at harlen; simp at harlen)
          (by intro h; have := congrArg List.length h; simp at this; rw [this] at hdlen; simp at hdlen)
          (by simpa using hlen) (by simp) (by simp; omega)
        exact ⟨r, e, t, by simpa using l⟩
    rw [ead, Outcome.ok_bind]
    have had0 : coef ad 0 = 1 := by
      rw [← toPoly_coeff, tad, mul_coeff_zero, toPoly_coeff, toPoly_coeff, hmapc]
      have h1 : coef ar 0 = 1 := by unfold coef; rw [← List.head?_eq_getElem?, har]; rfl
      have h2 : coef diff 0 = 1 := by unfold coef; rw [← List.head?_eq_getElem?, hdiff]; rfl
      rw [h1, h2]; simp
    obtain ⟨a0, rest, rfl⟩ : ∃ a0 rest, ad = a0 :: rest := by
      cases ad with
      | nil => simp at lad; omega
      | cons a0 rest => exact ⟨a0, rest, rfl⟩
    have ha0 : a0 = 1 := by simpa [coef] using had0
    subst ha0
    have hws : (((1 : R) :: rest).length : Int) ≤
        (if hasDiff = true then Poly.degree ar + ((diff.length : Int) - 1) + 1 else Poly.degree ar) + 1 := by
      rw [lad]; unfold Poly.degree
      cases hd : hasDiff with
      | false => rw [hnodiff hd]; simp
      | true => simp; try omega
    simp only
    generalize (if hasDiff = true then Poly.degree ar + ((diff.length : Int) - 1) + 1 else Poly.degree ar) + 1 = ws at hws ⊢
    cases hm : hasMa with
    | false =>
      rw [if_neg (by simp)]
      obtain ⟨s, es, ls, cs⟩ := invert_spec (size := count) (wsize := ws) (storage := storage) (rest := rest)
        hinv le_rfl (by simpa using hws) hc (by omega)
      refine ⟨s, es, ls, fun k hk => ?_⟩
      obtain ⟨r, er, lr, cr⟩ := C49_invert (size := count) (wsize := ws) (storage := storage) (rest := rest)
        hinv (one_mul 1) (one_mul 1) le_rfl hws hc (by omega)
      have : r = s.take count.toNat := by
        unfold invResult at er; rw [es] at er; exact (Outcome.ok.inj er).symm
      rw [← tad, ← this, (cr k hk).1, hnoma hm, hone, coeff_one]
    | true =>
      rw [if_pos rfl]
      obtain ⟨r, er, lr, cr⟩ := C49_invert (size := count) (wsize := ws)
        (storage := List.replicate count.toNat junk) (rest := rest)
        hinv (one_mul 1) (one_mul 1) le_rfl hws hc (by simp)
      rw [er, Outcome.ok_bind]
      have hdr : Poly.degree r = count - 1 := by unfold Poly.degree; omega
      have hdm : Poly.degree ma = (ma.length : Int) - 1 := rfl
      have hms : mulSize (Poly.degree r) (Poly.degree ma) count = count := by unfold mulSize; omega
      obtain ⟨s, es, ls, cs⟩ := multiply_spec (size := mulSize (Poly.degree r) (Poly.degree ma) intMax) (maxLength := count)
        (a := r) (b := ma) (storage := storage) (by rw [hms]; unfold mulSize; omega) (by omega)
      refine ⟨s, es, ls, fun k hk => ?_⟩
      rw [hms] at cs
      rw [← tad]
      rw [mul_coeff_congr (Q := toPoly r * toPoly ma), ← mul_assoc, mul_coeff_congr_left (Q := 1), one_mul]
      · intro j hj; rw [(cr j (by omega)).1, coeff_one]
      · intro j hj; rw [toPoly_coeff, coef_take (by omega), cs, if_pos (by omega)]

theorem copyMa_full [Zero R] (count : Int) (hc : 0 ≤ count) (ma : List R) (st : List R) (hl : (st.length : Int) = count)
    (h : count < ma.length) : copyMa count ma 0 st = .ub := by
  have : ∀ (ma : List R) (i : Int) (st : List R), 0 ≤ i → i ≤ count → (st.length : Int) = count →
      count - i < ma.length → copyMa count ma i st = .ub := by
    intro ma
    induction ma with
    | nil => intro i st _ _ _ h; simp at h; omega
    | cons a ma ih =>
      intro i st h0 h1 h2 h3
      unfold copyMa
      by_cases hi : i = count
      · unfold write; rw [if_neg (by omega)]; rfl
      · rw [write_ok_of _ h0 (by omega), Outcome.ok_bind, if_neg hi]
        exact ih _ _ (by omega) (by omega) (by simpa using h2) (by simp at h3; omega)
  exact this ma 0 st le_rfl hc hl (by simpa using h)

/-- Without AR part and differencing the code writes one matrix too many: with exactly the storage announced by
`StorageSize` (`count` matrices for MA∞) the last write is outside, for every MA polynomial. -/
theorem C50_maInf_violated_overflow [Ring R] {inv : R → Option R} (junk : R) {hasMa : Bool} {ar ma : List R}
    {diff : List Int} {count : Int} {storage : List R} (hc : 1 ≤ count) (hst : (storage.length : Int) = count) :
    maInf inv junk false false hasMa ar ma diff count storage = .ub := by
  unfold maInf
  rw [if_pos (show (!false && !false) = true from rfl)]
  by_cases h : count < ma.length
  · rw [copyMa_full count (by omega) ma storage hst h]; rfl
  · have key : ∀ (ma : List R) (i : Int) (st : List R), 0 ≤ i → (st.length : Int) = count → i + ma.length ≤ count →
        ∃ st', copyMa count ma i st = .ok (st', i + ma.length) ∧ (st'.length : Int) = count := by
      intro ma
      induction ma with
      | nil => intro i st _ h2 _; exact ⟨st, by simp [copyMa], h2⟩
      | cons a ma ih =>
        intro i st h0 h2 h3
        unfold copyMa
        simp only [List.length_cons] at h3
        push_cast at h3
        rw [write_ok_of _ h0 (by omega), Outcome.ok_bind, if_neg (by omega)]
        obtain ⟨st', e, l⟩ := ih (i + 1) (st.set i.toNat a) (by omega) (by simpa using h2) (by omega)
        exact ⟨st', by rw [e]; simp; ring, l⟩
    obtain ⟨st', e, l⟩ := key ma 0 storage le_rfl hst (by omega)
    rw [e]
    simp only [Outcome.ok_bind]
    refine loop_ub (m := count) (by omega) (by omega) _ (fun _ t => (t.length : Int) = count) l ?_ ?_
    · intro i h1 h2 t ht
      exact ⟨t.set i.toNat 0, write_ok_of _ (by omega) (by omega), by simpa using ht⟩
    · intro t ht; unfold write; rw [if_neg (by omega)]

/-- ARIMA(1,1,1) with φ = 2, θ = 3 (integers for readability): 1 + (2+1+3)L + … -/
example : (maInf (fun x : Int => if x = 1 then some 1 else none) 99 true true true [1, -2] [1, 3] [1, -1] 4
    [7, 7, 7, 7] : Outcome (List Int)) = .ok [1, 6, 16, 36] := by decide +kernel
/-- MA(1) without AR: one extra cell is needed. -/
example : (maInf (fun x : Int => if x = 1 then some 1 else none) 99 false false true [1] [1, 3] [1] 2
    [7, 7, 7] : Outcome (List Int)) = .ok [1, 3, 0] := by decide +kernel

end

end Varma
end LDT
