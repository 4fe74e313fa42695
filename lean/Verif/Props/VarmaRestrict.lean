import Verif.Props.VarmaSizes
namespace LDT
namespace Varma
open Mx Poly

variable {K : Type}

/-! ## C54: restriction matrices -/

/-- How many parameters before `i` are unrestricted. -/
def freeBefore (restricted : List Int) (i : Int) : Nat :=
  ((Finset.range i.toNat).filter (fun k : Nat => (k : Int) ∉ restricted)).card

theorem freeBefore_succ (restricted : List Int) {i : Int} (h : 0 ≤ i) :
    freeBefore restricted (i + 1) = freeBefore restricted i + if i ∈ restricted then 0 else 1 := by
  unfold freeBefore
  rw [show (i + 1).toNat = i.toNat + 1 by omega, Finset.range_add_one, Finset.filter_insert, Int.toNat_of_nonneg h]
  by_cases hi : i ∈ restricted
  · simp [hi]
  · simp [hi]

theorem freeBefore_mono (restricted : List Int) {i j : Int} (h : i ≤ j) :
    freeBefore restricted i ≤ freeBefore restricted j := by
  unfold freeBefore
  exact Finset.card_le_card (Finset.filter_subset_filter _ (Finset.range_subset_range.2 (by omega)))

theorem freeBefore_total {restricted : List Int} {params : Int} (hp : 0 ≤ params) (hnd : restricted.Nodup)
    (hin : ∀ i ∈ restricted, 0 ≤ i ∧ i < params) :
    (freeBefore restricted params : Int) = params - restricted.length := by
  unfold freeBefore
  have h1 := Finset.card_filter_add_card_filter_not (s := Finset.range params.toNat)
    (fun k : Nat => (k : Int) ∈ restricted)
  have h2 : ((Finset.range params.toNat).filter (fun k : Nat => (k : Int) ∈ restricted)).card = restricted.length := by
    rw [← List.toFinset_card_of_nodup hnd]
    refine Finset.card_bij (fun k _ => (k : Int)) ?_ ?_ ?_
    · intro k hk; simp at hk ⊢; exact hk.2
    · intro a _ b _ hab; simpa using hab
    · intro b hb
      have := hin b (by simpa using hb)
      refine ⟨b.toNat, ?_, Int.toNat_of_nonneg this.1⟩
      simp only [Finset.mem_filter, Finset.mem_range, Int.toNat_of_nonneg this.1]
      exact ⟨by omega, by simpa using hb⟩
  rw [Finset.card_range] at h1
  omega

theorem fill_ub [Zero K] (s : List K) (n : Int) (v : K) (h : (s.length : Int) < n) : fill s n v = .ub := by
  unfold fill
  refine loop_ub (m := s.length) (by omega) h _ (fun _ t => t.length = s.length) rfl ?_ ?_
  · intro i h1 h2 t ht
    exact ⟨t.set i.toNat v, write_ok_of v h1 (by omega), by simp [ht]⟩
  · intro t ht; unfold write; rw [if_neg (by omega)]

theorem wf_over {st : List K} {r c : Int} (hr : 0 ≤ r) (hc : 0 ≤ c) (h : r * c ≤ st.length) :
    ({ rows := r, cols := c, data := some st } : Mat K).Wf := ⟨hr, hc, rfl, h⟩

theorem val_over [Zero K] {st : List K} {r c : Int} (hz : ∀ k : Nat, (k : Int) < r * c → coef st k = 0) {i j : Int}
    (h : ({ rows := r, cols := c, data := some st } : Mat K).InR i j) :
    ({ rows := r, cols := c, data := some st } : Mat K).val i j = 0 := by
  have := idx_bounds h.1 h.2.1 h.2.2.1 h.2.2.2
  exact hz _ (by rw [Int.toNat_of_nonneg this.1]; exact this.2)

/-- General restrictions: for distinct indexes in range, `R` maps a free parameter vector `γ` to the full parameter
vector: zero at the restricted indexes, the free parameters in order elsewhere. -/
theorem C54_general [Semiring K] {params minCount : Int} {restricted : List Int} {storage : List K}
    (hp : 0 ≤ params) (hnd : restricted.Nodup) (hin : ∀ i ∈ restricted, 0 ≤ i ∧ i < params)
    (hmin : minCount ≤ restricted.length) (hst : params * (params - restricted.length) ≤ storage.length) :
    ∃ R, restrictGeneral params minCount restricted storage = .ok R ∧ R.Wf ∧ R.rows = params ∧
      R.cols = params - restricted.length ∧
      (∀ i j, R.InR i j → R.get i j = .ok (if i ∉ restricted ∧ j = freeBefore restricted i then 1 else 0)) ∧
      (∀ (γ : Int → K) i, 0 ≤ i → i < params →
        ∑ j ∈ Finset.range R.cols.toNat, R.val i j * γ j
          = if i ∈ restricted then 0 else γ (freeBefore restricted i)) := by
  have htot := freeBefore_total hp hnd hin
  have hq : 0 ≤ params - (restricted.length : Int) := by omega
  unfold restrictGeneral
  simp only
  obtain ⟨st, e0, l0, c0⟩ := fill_spec storage (params * (params - restricted.length)) 0 hst
  rw [e0, Outcome.ok_bind, if_neg (by omega)]
  have w0 : ({ rows := params, cols := params - restricted.length, data := some st } : Mat K).Wf :=
    wf_over hp hq (by rw [l0]; exact hst)
  have v0 : ∀ i j, ({ rows := params, cols := params - restricted.length, data := some st } : Mat K).InR i j →
      ({ rows := params, cols := params - restricted.length, data := some st } : Mat K).val i j = 0 :=
    fun i j h => val_over (fun k hk => by rw [c0, if_pos hk]) h
  have r0 : ({ rows := params, cols := params - restricted.length, data := some st } : Mat K).rows = params := rfl
  have q0 : ({ rows := params, cols := params - restricted.length, data := some st } : Mat K).cols
    = params - restricted.length := rfl
  generalize ({ rows := params, cols := params - restricted.length, data := some st } : Mat K) = M0 at *
  obtain ⟨⟨R, jl⟩, e, hs, hw, hj, hv⟩ := loop_inv (a := 0) (b := params) hp
    (fun (s : Mat K × Int) i => (do
      let j := s.2 + 1
      if i ∈ restricted then pure (s.1, j - 1)
      else do
        let m ← s.1.set0 i j 1
        pure (m, j) : Outcome (Mat K × Int)))
    (fun i s => SameShape M0 s.1 ∧ s.1.Wf ∧ s.2 = (freeBefore restricted i : Int) - 1 ∧
      ∀ a b, M0.InR a b → s.1.val a b = if a < i ∧ a ∉ restricted ∧ b = freeBefore restricted a then 1 else 0)
    (s := (M0, -1)) ⟨SameShape.refl _, w0, by simp [freeBefore], fun a b h => by
      rw [if_neg (fun h' => by have := h.1; omega), v0 a b h]⟩ (by
      rintro i hi0 hi ⟨M, j⟩ ⟨hs, hw, hj, hv⟩
      simp only at hs hw hj hv ⊢
      have hf := freeBefore_succ restricted hi0
      by_cases hir : i ∈ restricted
      · rw [if_pos hir] at hf ⊢
        refine ⟨_, rfl, hs, hw, by simp only; omega, fun a b h => ?_⟩
        rw [hv a b h]
        by_cases ha : a = i
        · subst ha; simp [hir]
        · congr 1; apply propext; constructor <;> rintro ⟨h1, h2⟩ <;> exact ⟨by omega, h2⟩
      · rw [if_neg hir] at hf ⊢
        have hle := freeBefore_mono restricted (show i + 1 ≤ params by omega)
        have hin' : M0.InR i (j + 1) := ⟨hi0, by omega, by omega, by omega⟩
        obtain ⟨M', e', s', w', c'⟩ := set0_val hw (hs.inR.2 hin') (1 : K)
        refine ⟨(M', j + 1), by rw [e']; rfl, hs.trans s', w', by simp only; omega, fun a b h => ?_⟩
        simp only
        rw [c' a b (hs.inR.2 h), hv a b h]
        by_cases hab : a = i ∧ b = j + 1
        · rw [if_pos hab, if_pos]
          obtain ⟨rfl, rfl⟩ := hab
          exact ⟨by omega, hir, by omega⟩
        · rw [if_neg hab]
          by_cases ha : a = i
          · subst ha
            rw [if_neg (by omega), if_neg]
            rintro ⟨_, _, h3⟩; exact hab ⟨rfl, by omega⟩
          · congr 1; apply propext; constructor <;> rintro ⟨h1, h2⟩ <;> exact ⟨by omega, h2⟩)
  simp only at hs hw hv
  have hcols : R.cols = params - restricted.length := by rw [hs.cols, q0]
  refine ⟨R, by rw [e]; rfl, hw, by rw [hs.rows, r0], hcols, ?_, ?_⟩
  · intro i j h
    have h' := hs.inR.1 h
    rw [get_val hw h, hv i j h']
    have : i < params := by rw [← r0]; exact h'.2.1
    congr 2; apply propext; constructor
    · rintro ⟨_, h2⟩; exact h2
    · intro h2; exact ⟨this, h2⟩
  · intro γ i hi0 hi
    have hval : ∀ j ∈ Finset.range R.cols.toNat, R.val i j * γ j
        = if i ∉ restricted ∧ (j : Int) = freeBefore restricted i then γ j else 0 := by
      intro j hj
      have hj' := Finset.mem_range.1 hj
      rw [hv i j ⟨hi0, by omega, by omega, by rw [hcols] at hj'; omega⟩]
      by_cases hc : i ∉ restricted ∧ (j : Int) = freeBefore restricted i
      · rw [if_pos ⟨hi, hc⟩, if_pos hc, one_mul]
      · rw [if_neg (fun h => hc h.2), if_neg hc, zero_mul]
    rw [Finset.sum_congr rfl hval]
    by_cases hir : i ∈ restricted
    · simp [hir]
    · rw [if_neg hir]
      have hlt : freeBefore restricted i < R.cols.toNat := by
        have h1 := freeBefore_mono restricted (show i + 1 ≤ params by omega)
        have h2 := freeBefore_succ restricted hi0
        rw [if_neg hir] at h2
        omega
      rw [Finset.sum_eq_single (freeBefore restricted i)]
      · simp [hir]
      · intro b _ hb; rw [if_neg]; rintro ⟨_, h⟩; exact hb (by omega)
      · intro h; exact absurd (Finset.mem_range.2 hlt) h

/-- Fewer restrictions than announced to the constructor are refused – but only after `R` has been enlarged and
zeroed: with the announced storage that is a write outside (undefined behaviour) instead of the exception. -/
theorem C54_general_violated_overrun [Semiring K] {params minCount : Int} {restricted : List Int} {storage : List K}
    (hp : 1 ≤ params) (hmin : restricted.length < minCount)
    (hst : (storage.length : Int) = params * (params - minCount)) :
    restrictGeneral params minCount restricted storage = .ub := by
  unfold restrictGeneral
  simp only
  rw [fill_ub]
  · rfl
  · rw [hst]; apply Int.mul_lt_mul_of_pos_left <;> omega

/-- With storage for the enlarged `R`, fewer restrictions than announced are refused by the exception, and enough of
them are not. -/
theorem C54_general_count [Semiring K] {params minCount : Int} {restricted : List Int} {storage : List K}
    (hp : 0 ≤ params) (hnd : restricted.Nodup) (hin : ∀ i ∈ restricted, 0 ≤ i ∧ i < params)
    (hst : params * (params - restricted.length) ≤ storage.length) :
    restrictGeneral params minCount restricted storage = .throws ↔ restricted.length < minCount := by
  constructor
  · intro h
    by_contra hc
    obtain ⟨R, e, _⟩ := C54_general hp hnd hin (minCount := minCount) (by omega) hst
    rw [e] at h; cases h
  · intro h
    unfold restrictGeneral
    obtain ⟨st, e0, l0, c0⟩ := fill_spec storage (params * (params - restricted.length)) 0 hst
    simp only
    rw [e0, Outcome.ok_bind, if_pos (by omega)]

example : restrictGeneral 3 2 [1] (List.replicate 6 (9 : Int)) = .throws := by decide +kernel

/-- Repeated indexes make `R` too narrow: its storage is overrun. -/
theorem C54_general_violated_duplicates :
    restrictGeneral 3 2 [0, 0] [(9 : Int), 9, 9] = .ub := by decide +kernel

theorem sq_step {g S k a b k' a' b' : Int} (hg : 0 < g) (ha : 0 ≤ a ∧ a < g) (hb : 0 ≤ b ∧ b < g)
    (ha' : 0 ≤ a' ∧ a' < g) (hb' : 0 ≤ b' ∧ b' < g)
    (h : S + k * (g * g) + a + g * b = S + k' * (g * g) + a' + g * b') : k = k' ∧ a = a' ∧ b = b' := by
  have h1 : a + g * (b + g * k) = a' + g * (b' + g * k') := by nlinarith
  obtain ⟨e1, e2⟩ := idx_inj ha.1 ha.2 ha'.1 ha'.2 h1
  obtain ⟨e3, e4⟩ := idx_inj hb.1 hb.2 hb'.1 hb'.2 e2
  exact ⟨e4, e1, e3⟩

open Classical in
/-- Loop of the final-MA restriction. -/
theorem finalLoop_spec [Semiring K] {g S L q : Int} (hg : 0 < g) (hS : 0 ≤ S) (hq : q = S + L) :
    ∀ (n : Nat) (fuel : Nat) (k : Int) (M0 M : Mat K), 0 ≤ k → k + n = L → 1 ≤ n → n ≤ fuel →
      M0.rows = S + L * (g * g) → M0.cols = q → SameShape M0 M → M.Wf →
      (∀ i j, M0.InR i j → M.val i j = if (i < S ∧ j = i) ∨
        (∃ k' a, 0 ≤ k' ∧ k' < k ∧ 0 ≤ a ∧ a < g ∧ i = S + k' * (g * g) + a + g * a ∧ j = S + k') then 1 else 0) →
      ∃ R, finalLoop g q fuel (S + k * (g * g)) (S + k) M = .ok R ∧ SameShape M0 R ∧ R.Wf ∧
        (∀ i j, M0.InR i j → R.val i j = if (i < S ∧ j = i) ∨
          (∃ k' a, 0 ≤ k' ∧ k' < L ∧ 0 ≤ a ∧ a < g ∧ i = S + k' * (g * g) + a + g * a ∧ j = S + k') then 1 else 0) := by
  intro n
  induction n with
  | zero => intro fuel k M0 M _ _ h; omega
  | succ n ih =>
    intro fuel k M0 M hk hkn _ hfuel hr hc hs hw hv
    obtain ⟨fuel, rfl⟩ : ∃ f, fuel = f + 1 := ⟨fuel - 1, by omega⟩
    unfold finalLoop
    push_cast at hkn
    have hgg : 0 < g * g := mul_pos hg hg
    have hkk : k * (g * g) + g * g ≤ L * (g * g) := by
      have : (k + 1) * (g * g) ≤ L * (g * g) := mul_le_mul_of_nonneg_right (by omega) hgg.le
      nlinarith
    have hk0 : 0 ≤ k * (g * g) := mul_nonneg hk hgg.le
    have hdiag : ∀ a, 0 ≤ a → a < g → 0 ≤ a + g * a ∧ a + g * a < g * g := fun a h1 h2 => idx_bounds h1 h2 h1 h2
    obtain ⟨M', e', s', w', v'⟩ := loop_inv (a := 0) (b := g) hg.le
      (fun m j => m.set0 (S + k * (g * g) + j * (g + 1)) (S + k) (1 : K))
      (fun x m => SameShape M0 m ∧ m.Wf ∧ ∀ i j, M0.InR i j → m.val i j =
        if (∃ a, 0 ≤ a ∧ a < x ∧ i = S + k * (g * g) + a + g * a ∧ j = S + k) then 1 else M.val i j)
      (s := M) ⟨hs, hw, fun i j h => by rw [if_neg]; rintro ⟨a, h1, h2, _⟩; omega⟩ (by
        intro x hx0 hx m ⟨sm, wm, vm⟩
        have hd := hdiag x hx0 hx
        have e : x * (g + 1) = x + g * x := by ring
        have hin : M0.InR (S + k * (g * g) + x * (g + 1)) (S + k) := by
          refine ⟨by omega, by omega, by omega, by omega⟩
        obtain ⟨m', e', s', w', c'⟩ := set0_val wm (sm.inR.2 hin) (1 : K)
        refine ⟨m', e', sm.trans s', w', fun i j h => ?_⟩
        rw [c' i j (sm.inR.2 h), vm i j h]
        by_cases h1 : i = S + k * (g * g) + x * (g + 1) ∧ j = S + k
        · rw [if_pos h1, if_pos]; exact ⟨x, hx0, by omega, by rw [h1.1]; ring, h1.2⟩
        · rw [if_neg h1]
          congr 1; apply propext; constructor
          · rintro ⟨a, p1, p2, p3⟩; exact ⟨a, p1, by omega, p3⟩
          · rintro ⟨a, p1, p2, p3, p4⟩
            refine ⟨a, p1, ?_, p3, p4⟩
            by_contra hcon
            have : a = x := by omega
            subst this; exact h1 ⟨by rw [p3]; ring, p4⟩)
    rw [e', Outcome.ok_bind]
    have hv' : ∀ i j, M0.InR i j → M'.val i j = if (i < S ∧ j = i) ∨
        (∃ k' a, 0 ≤ k' ∧ k' < k + 1 ∧ 0 ≤ a ∧ a < g ∧ i = S + k' * (g * g) + a + g * a ∧ j = S + k')
        then 1 else 0 := by
      intro i j h
      rw [v' i j h]
      by_cases h1 : ∃ a, 0 ≤ a ∧ a < g ∧ i = S + k * (g * g) + a + g * a ∧ j = S + k
      · rw [if_pos h1, if_pos]
        obtain ⟨a, p1, p2, p3, p4⟩ := h1
        exact Or.inr ⟨k, a, hk, by omega, p1, p2, p3, p4⟩
      · rw [if_neg h1, hv i j h]
        congr 1; apply propext; apply or_congr Iff.rfl
        constructor
        · rintro ⟨k', a, p1, p2, p3⟩; exact ⟨k', a, p1, by omega, p3⟩
        · rintro ⟨k', a, p1, p2, p3, p4, p5, p6⟩
          refine ⟨k', a, p1, ?_, p3, p4, p5, p6⟩
          by_contra hcon
          have : k' = k := by omega
          subst this; exact h1 ⟨a, p3, p4, p5, p6⟩
    by_cases hlast : S + k + 1 = q
    · rw [if_pos hlast]
      have : L = k + 1 := by omega
      subst this
      exact ⟨M', rfl, s', w', hv'⟩
    · rw [if_neg hlast]
      have := ih fuel (k + 1) M0 M' (by omega) (by omega) (by omega) (by omega) hr hc s' w' hv'
      rw [show S + (k + 1) * (g * g) = S + k * (g * g) + g * g by ring,
        show S + (k + 1) = S + k + 1 by ring] at this
      exact this

/-- Final-MA restriction (two or more equations, an MA part): the AR and exogenous parameters are free, and each
MA matrix is one free number times the identity: row `S + k g² + a + g b` of `R` (the parameter at position `(a, b)`
of MA matrix `k`, `S` parameters before) is zero unless `a = b`, and then picks free parameter `S + k`. -/
theorem C54_final [Semiring K] {z : Sizes} {storage : List K} (hg : 2 ≤ z.eqsCount) (hx : 0 ≤ z.exoCount)
    (hma : 1 ≤ z.maLength)
    (hst : z.numParams * (z.maStart * z.eqsCount + z.maLength) ≤ storage.length) :
    ∃ R, restrictFinal z storage = .ok R ∧ R.Wf ∧ R.rows = z.numParams ∧
      R.cols = z.maStart * z.eqsCount + z.maLength ∧
      (∀ i j, R.InR i j → i < z.maStart * z.eqsCount → R.get i j = .ok (if j = i then 1 else 0)) ∧
      (∀ k a b j, 0 ≤ k → k < z.maLength → 0 ≤ a → a < z.eqsCount → 0 ≤ b → b < z.eqsCount → 0 ≤ j → j < R.cols →
        R.get (z.maStart * z.eqsCount + k * (z.eqsCount * z.eqsCount) + a + z.eqsCount * b) j
          = .ok (if a = b ∧ j = z.maStart * z.eqsCount + k then 1 else 0)) := by
  have hS : 0 ≤ z.maStart * z.eqsCount := by
    unfold Sizes.maStart Sizes.arLength
    have : 0 ≤ (z.arLags.length : Int) * z.eqsCount := mul_nonneg (by omega) (by omega)
    exact mul_nonneg (by omega) (by omega)
  have hq : z.eqsCount * z.numParamsEq - z.maLength * (z.eqsCount * z.eqsCount - 1)
      = z.maStart * z.eqsCount + z.maLength := by
    unfold Sizes.numParamsEq; ring
  have hnp : z.numParams = z.maStart * z.eqsCount + z.maLength * (z.eqsCount * z.eqsCount) := by
    unfold Sizes.numParams Sizes.numParamsEq; ring
  have hgg : 0 < z.eqsCount * z.eqsCount := mul_pos (by omega) (by omega)
  have hL : z.maLength ≤ z.maLength * (z.eqsCount * z.eqsCount) := by
    have : z.maLength * 1 ≤ z.maLength * (z.eqsCount * z.eqsCount) :=
      mul_le_mul_of_nonneg_left (by omega) (by omega)
    omega
  classical
  unfold restrictFinal
  simp only
  rw [hq]
  generalize hSS : z.maStart * z.eqsCount = S at *
  generalize z.maLength = L at *
  generalize z.eqsCount = g at *
  generalize z.numParams = N at *
  obtain ⟨st, e0, l0, c0⟩ := fill_spec storage (N * (S + L)) 0 hst
  rw [e0, Outcome.ok_bind]
  have w0 : ({ rows := N, cols := S + L, data := some st } : Mat K).Wf :=
    wf_over (by omega) (by omega) (by rw [l0]; exact hst)
  have v0 : ∀ i j, ({ rows := N, cols := S + L, data := some st } : Mat K).InR i j →
      ({ rows := N, cols := S + L, data := some st } : Mat K).val i j = 0 :=
    fun i j h => val_over (fun k hk => by rw [c0, if_pos hk]) h
  have r0 : ({ rows := N, cols := S + L, data := some st } : Mat K).rows = N := rfl
  have q0 : ({ rows := N, cols := S + L, data := some st } : Mat K).cols = S + L := rfl
  generalize ({ rows := N, cols := S + L, data := some st } : Mat K) = M0 at *
  obtain ⟨M1, e1, s1, w1, v1⟩ := loop_inv (a := 0) (b := S) hS (fun m i => m.set0 i i (1 : K))
    (fun x m => SameShape M0 m ∧ m.Wf ∧ ∀ i j, M0.InR i j → m.val i j = if i < x ∧ j = i then 1 else 0)
    (s := M0) ⟨SameShape.refl _, w0, fun i j h => by rw [if_neg (fun h' => by have := h.1; omega), v0 i j h]⟩ (by
      intro x hx0 hx m ⟨sm, wm, vm⟩
      have hin : M0.InR x x := ⟨hx0, by omega, hx0, by omega⟩
      obtain ⟨m', e', s', w', c'⟩ := set0_val wm (sm.inR.2 hin) (1 : K)
      refine ⟨m', e', sm.trans s', w', fun i j h => ?_⟩
      rw [c' i j (sm.inR.2 h), vm i j h]
      split_ifs <;> first | rfl | omega)
  rw [e1, Outcome.ok_bind, show max 0 S = S by omega]
  obtain ⟨R, e2, s2, w2, v2⟩ := finalLoop_spec (K := K) (g := g) (S := S) (L := L) (q := S + L) (by omega) hS rfl
    L.toNat ((S + L).toNat + 1) 0 M0 M1 le_rfl (by omega) (by omega) (by omega) (by omega) (by omega) s1 w1 (by
      intro i j h
      rw [v1 i j h]; congr 1; apply propext
      constructor
      · intro h1; exact Or.inl h1
      · rintro (h1 | ⟨k', a, p1, p2, _⟩)
        · exact h1
        · omega)
  rw [zero_mul, add_zero] at e2
  refine ⟨R, e2, w2, by rw [s2.rows, r0], by rw [s2.cols, q0], ?_, ?_⟩
  · intro i j h hi
    rw [get_val w2 h, v2 i j (s2.inR.1 h)]
    congr 2; apply propext; constructor
    · rintro (h1 | ⟨k', a, p1, p2, p3, p4, p5, _⟩)
      · exact h1.2
      · have h1 : 0 ≤ k' * (g * g) := mul_nonneg p1 hgg.le
        have h2 : 0 ≤ g * a := mul_nonneg (by omega) p3
        omega
    · intro h1; exact Or.inl ⟨hi, h1⟩
  · intro k a b j hk0 hk ha0 ha hb0 hb hj0 hj
    have hbnd := idx_bounds ha0 ha hb0 hb
    have hk1 : 0 ≤ k * (g * g) := mul_nonneg hk0 hgg.le
    have hk2 : (k + 1) * (g * g) ≤ L * (g * g) := mul_le_mul_of_nonneg_right (by omega) hgg.le
    have hk3 : (k + 1) * (g * g) = k * (g * g) + g * g := by ring
    have hin : M0.InR (S + k * (g * g) + a + g * b) j := ⟨by omega, by omega, hj0, by rw [s2.cols] at hj; exact hj⟩
    rw [get_val w2 (s2.inR.2 hin), v2 _ j hin]
    congr 2; apply propext; constructor
    · rintro (h1 | ⟨k', a', p1, p2, p3, p4, p5, p6⟩)
      · omega
      · obtain ⟨rfl, rfl, h3⟩ := sq_step (by omega) ⟨ha0, ha⟩ ⟨hb0, hb⟩ ⟨p3, p4⟩ ⟨p3, p4⟩ p5
        exact ⟨h3.symm, p6⟩
    · rintro ⟨rfl, h2⟩
      exact Or.inr ⟨k, a, hk0, hk, ha0, ha, rfl, h2⟩

example : (do let r ← restrictGeneral 4 2 [1, 3] (List.replicate 8 (9 : Int)); pure r.mem)
    = .ok [1, 0, 0, 0, 0, 0, 1, 0] := by decide +kernel
/-- Two equations, one MA lag, no AR: the MA matrix is `θ·I`. -/
example : (do
    let r ← restrictFinal { obsCount := 9, eqsCount := 2, exoCount := 0, arLags := [], maLags := [1], diffPoly := [1] }
      [(9 : Int), 9, 9, 9]
    pure r.mem) = .ok [1, 0, 0, 1] := by decide +kernel

end Varma
end LDT
