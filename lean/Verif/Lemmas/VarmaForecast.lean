import Verif.Model.VarmaForecast
import Verif.Lemmas.Varma
namespace LDT
namespace Mx
open Poly
variable {K : Type}

theorem setSub0_val [Zero K] {this source : Mat K} (wt : this.Wf) (ws : source.Wf) {rs cs srs scs rc cc : Int}
    (h1 : 0 ≤ rs) (h2 : 0 ≤ cs) (h3 : 0 ≤ srs) (h4 : 0 ≤ scs) (h5 : 0 ≤ rc) (h6 : 0 ≤ cc)
    (f1 : rs + rc ≤ this.rows) (f2 : cs + cc ≤ this.cols) (f3 : srs + rc ≤ source.rows)
    (f4 : scs + cc ≤ source.cols) :
    ∃ res, this.setSub0 rs cs source srs scs rc cc = .ok res ∧ SameShape this res ∧ res.Wf ∧
      ∀ i j, this.InR i j → res.val i j = if rs ≤ i ∧ i < rs + rc ∧ cs ≤ j ∧ j < cs + cc then
        source.val (srs + (i - rs)) (scs + (j - cs)) else this.val i j := by
  have hR : rs + ((upTo srs (srs + rc)).length : Int) ≤ this.rows := by rw [length_upTo]; omega
  have hC : cs + ((upTo scs (scs + cc)).length : Int) ≤ this.cols := by rw [length_upTo]; omega
  obtain ⟨res, e, b⟩ := copyFold_spec source.get0 this wt rs _ cs _ h1 h2 hR hC
    (fun r hr c hc => get0_ok ws (by
      have := mem_upTo.1 hr; have := mem_upTo.1 hc
      refine ⟨?_, ?_, ?_, ?_⟩ <;> omega))
  have w' := b.shape.wf wt
  refine ⟨res, by rw [setSub0_eq, e], b.shape, w', fun i j hin => ?_⟩
  split_ifs with h
  · have hb := b.block (i - rs).toNat (j - cs).toNat (srs + (i - rs)) (scs + (j - cs))
      (by rw [getElem?_upTo, if_pos (by omega)]; congr 1; omega)
      (by rw [getElem?_upTo, if_pos (by omega)]; congr 1; omega)
    rw [show rs + (((i - rs).toNat : Nat) : Int) = i by omega, show cs + (((j - cs).toNat : Nat) : Int) = j by omega,
      get0_val w' (b.shape.inR.2 hin), get0_val ws ⟨by omega, by omega, by omega, by omega⟩] at hb
    exact Outcome.ok.inj hb
  · have ho := b.other i j hin (by rw [length_upTo, length_upTo]; omega)
    rw [get0_val w' (b.shape.inR.2 hin), get0_val wt hin] at ho
    exact Outcome.ok.inj ho

theorem setSubT0_val [Zero K] {this source : Mat K} (wt : this.Wf) (ws : source.Wf) {rs cs srs scs rc cc : Int}
    (h1 : 0 ≤ rs) (h2 : 0 ≤ cs) (h3 : 0 ≤ srs) (h4 : 0 ≤ scs) (h5 : 0 ≤ rc) (h6 : 0 ≤ cc)
    (f1 : rs + rc ≤ this.rows) (f2 : cs + cc ≤ this.cols) (f3 : scs + rc ≤ source.cols)
    (f4 : srs + cc ≤ source.rows) :
    ∃ res, this.setSubT0 rs cs source srs scs rc cc = .ok res ∧ SameShape this res ∧ res.Wf ∧
      ∀ i j, this.InR i j → res.val i j = if rs ≤ i ∧ i < rs + rc ∧ cs ≤ j ∧ j < cs + cc then
        source.val (srs + (j - cs)) (scs + (i - rs)) else this.val i j := by
  have hR : rs + ((upTo scs (scs + rc)).length : Int) ≤ this.rows := by rw [length_upTo]; omega
  have hC : cs + ((upTo srs (srs + cc)).length : Int) ≤ this.cols := by rw [length_upTo]; omega
  obtain ⟨res, e, b⟩ := copyFold_spec (fun r c => source.get0 c r) this wt rs _ cs _ h1 h2 hR hC
    (fun r hr c hc => get0_ok ws (by
      have := mem_upTo.1 hr; have := mem_upTo.1 hc
      refine ⟨?_, ?_, ?_, ?_⟩ <;> omega))
  have w' := b.shape.wf wt
  refine ⟨res, by rw [setSubT0_eq, e], b.shape, w', fun i j hin => ?_⟩
  split_ifs with h
  · have hb := b.block (i - rs).toNat (j - cs).toNat (scs + (i - rs)) (srs + (j - cs))
      (by rw [getElem?_upTo, if_pos (by omega)]; congr 1; omega)
      (by rw [getElem?_upTo, if_pos (by omega)]; congr 1; omega)
    rw [show rs + (((i - rs).toNat : Nat) : Int) = i by omega, show cs + (((j - cs).toNat : Nat) : Int) = j by omega,
      get0_val w' (b.shape.inR.2 hin), get0_val ws ⟨by omega, by omega, by omega, by omega⟩] at hb
    exact Outcome.ok.inj hb
  · have ho := b.other i j hin (by rw [length_upTo, length_upTo]; omega)
    rw [get0_val w' (b.shape.inR.2 hin), get0_val wt hin] at ho
    exact Outcome.ok.inj ho

end Mx

namespace Varma
open Mx Poly
variable {K : Type}

theorem dotVec_spec [Ring K] {A : Mat K} (w : A.Wf) {x : Int → Outcome K} {xv : Int → K} {k r : Int} (hk : 0 ≤ k)
    (hr0 : 0 ≤ r) (hr : r < A.rows) (hkA : k ≤ A.cols) (hx : ∀ c, 0 ≤ c → c < k → x c = .ok (xv c)) :
    dotVec A x k r = .ok (∑ c ∈ Finset.range k.toNat, A.val r c * xv c) := by
  unfold dotVec
  obtain ⟨s, e, hs⟩ := loop_inv (a := 0) (b := k) hk
    (fun s c => do
      let a ← A.get0 r c
      let b ← x c
      pure (s + a * b))
    (fun c s => s = ∑ c ∈ Finset.range c.toNat, A.val r c * xv c) (s := (0 : K)) (by simp) (by
      intro c h0 h1 s hs
      rw [get0_val w ⟨hr0, hr, h0, by omega⟩, Outcome.ok_bind, hx c h0 h1, Outcome.ok_bind]
      refine ⟨_, rfl, ?_⟩
      rw [sum_range_succ_int _ _ h0, hs, Int.toNat_of_nonneg h0])
  rw [e, hs]

/-- A band of `g` rows or columns. -/
theorem band_lt {g c n r : Int} (hg : 0 ≤ g) (hc : c + 1 ≤ n) (hr : r < g) (hr0 : 0 ≤ r) (hc0 : 0 ≤ c) :
    c * g + r < n * g ∧ 0 ≤ c * g := by
  have h1 : (c + 1) * g ≤ n * g := mul_le_mul_of_nonneg_right hc hg
  have h2 : 0 ≤ c * g := mul_nonneg hc0 hg
  rw [add_mul, one_mul] at h1
  omega

theorem lagColumns_spec [Zero K] {z : Sizes} {T : Int} {dataD : Mat K} (wd : dataD.Wf) (hg : 0 ≤ z.eqsCount)
    (hgd : z.eqsCount ≤ dataD.rows) (hT : 0 ≤ T) (ls : List Int) :
    ∀ (row : Int) (X : Mat K), X.Wf → 0 ≤ row → row + ls.length * z.eqsCount ≤ X.cols → T ≤ X.rows →
    (∀ l ∈ ls, 0 ≤ z.arMax - l ∧ z.arMax - l + T ≤ dataD.cols) →
    ∃ X', lagColumns z T dataD ls row X = .ok X' ∧ SameShape X X' ∧ X'.Wf ∧
      (∀ (c : Nat) l t r, ls[c]? = some l → 0 ≤ t → t < T → 0 ≤ r → r < z.eqsCount →
        X'.val t (row + c * z.eqsCount + r) = dataD.val r (t + (z.arMax - l))) ∧
      (∀ t j, X.InR t j → (j < row ∨ row + ls.length * z.eqsCount ≤ j ∨ T ≤ t) → X'.val t j = X.val t j) := by
  induction ls with
  | nil =>
    intro row X w _ _ _ _
    exact ⟨X, rfl, SameShape.refl X, w, fun c l t r h => by simp at h, fun t j _ _ => rfl⟩
  | cons l ls ih =>
    intro row X w hrow hcols hTX hl
    have hl0 := hl l (by simp)
    have hlen : ((l :: ls).length : Int) * z.eqsCount = ls.length * z.eqsCount + z.eqsCount := by
      push_cast [List.length_cons]; ring
    have hnn : 0 ≤ (ls.length : Int) * z.eqsCount := mul_nonneg (by omega) hg
    obtain ⟨X1, e1, s1, w1, c1⟩ := setSubT0_val w wd (rs := 0) (cs := row) (srs := 0) (scs := z.arMax - l) (rc := T)
      (cc := z.eqsCount) le_rfl hrow le_rfl hl0.1 hT hg (by omega) (by omega) hl0.2 (by omega)
    obtain ⟨X2, e2, s2, w2, c2, c2'⟩ := ih (row + z.eqsCount) X1 w1 (by omega) (by rw [s1.cols]; omega)
      (by rw [s1.rows]; omega) (fun l' h' => hl l' (by simp [h']))
    refine ⟨X2, by unfold lagColumns; rw [e1, Outcome.ok_bind, e2], s1.trans s2, w2, ?_, ?_⟩
    · intro c l' t r hc ht0 ht hr0 hr
      cases c with
      | zero =>
        simp only [List.getElem?_cons_zero, Option.some.injEq] at hc
        subst hc
        have hin : X.InR t (row + r) := ⟨ht0, by omega, by omega, by omega⟩
        rw [show row + ((0 : Nat) : Int) * z.eqsCount + r = row + r by simp, c2' t _ (s1.inR.2 hin) (by omega),
          c1 t _ hin, if_pos (by omega)]
        congr 1 <;> ring
      | succ c =>
        rw [List.getElem?_cons_succ] at hc
        have := c2 c l' t r hc ht0 ht hr0 hr
        rw [← this]; congr 1; push_cast; ring
    · intro t j hin h
      rw [c2' t j (s1.inR.2 hin) (by omega), c1 t j hin, if_neg (by omega)]

theorem updateX_spec [Zero K] {resid : Mat K} (wr : resid.Wf) {g i n : Int} (hg : 0 ≤ g) (hgr : g ≤ resid.rows)
    (hi0 : 0 ≤ i) (hi : i < resid.cols) (ls : List Int) :
    ∀ (row : Int) (X : Mat K), X.Wf → 0 ≤ row → row + ls.length * g ≤ X.cols → n ≤ X.rows →
    ls.Pairwise (· ≤ ·) → (∀ l ∈ ls, 0 ≤ l) →
    ∃ X', updateX resid g i n ls row X = .ok X' ∧ SameShape X X' ∧ X'.Wf ∧
      (∀ (c : Nat) l t r, ls[c]? = some l → 0 ≤ t → t < n → 0 ≤ r → r < g →
        X'.val t (row + c * g + r) = if t = i + l then resid.val r i else X.val t (row + c * g + r)) ∧
      (∀ t j, X.InR t j → (j < row ∨ row + ls.length * g ≤ j) → X'.val t j = X.val t j) := by
  induction ls with
  | nil =>
    intro row X w _ _ _ _ _
    exact ⟨X, rfl, SameShape.refl X, w, fun c l t r h => by simp at h, fun t j _ _ => rfl⟩
  | cons l ls ih =>
    intro row X w hrow hcols hnX hsort hl
    have hl0 := hl l (by simp)
    have hlen : ((l :: ls).length : Int) * g = ls.length * g + g := by
      push_cast [List.length_cons]; ring
    have hnn : 0 ≤ (ls.length : Int) * g := mul_nonneg (by omega) hg
    unfold updateX
    by_cases hb : i + l ≥ n
    · rw [if_pos hb]
      refine ⟨X, rfl, SameShape.refl X, w, fun c l' t r hc ht0 ht hr0 hr => ?_, fun t j _ _ => rfl⟩
      have hle : l ≤ l' := by
        cases c with
        | zero => simp only [List.getElem?_cons_zero, Option.some.injEq] at hc; omega
        | succ c => exact (List.pairwise_cons.1 hsort).1 l' (mem_of_some (by simpa using hc))
      rw [if_neg (by omega)]
    rw [if_neg hb]
    obtain ⟨X1, e1, s1, w1, c1⟩ := setSubT0_val w wr (rs := i + l) (cs := row) (srs := 0) (scs := i) (rc := 1)
      (cc := g) (by omega) hrow le_rfl hi0 (by omega) hg (by omega) (by omega) (by omega) (by omega)
    obtain ⟨X2, e2, s2, w2, c2, c2'⟩ := ih (row + g) X1 w1 (by omega) (by rw [s1.cols]; omega)
      (by rw [s1.rows]; omega) (List.pairwise_cons.1 hsort).2 (fun l' h' => hl l' (by simp [h']))
    refine ⟨X2, by rw [e1, Outcome.ok_bind, e2], s1.trans s2, w2, ?_, ?_⟩
    · intro c l' t r hc ht0 ht hr0 hr
      cases c with
      | zero =>
        simp only [List.getElem?_cons_zero, Option.some.injEq] at hc
        subst hc
        have hin : X.InR t (row + r) := ⟨ht0, by omega, by omega, by omega⟩
        rw [show row + ((0 : Nat) : Int) * g + r = row + r by simp, c2' t _ (s1.inR.2 hin) (by omega),
          c1 t _ hin]
        by_cases h : t = i + l
        · rw [if_pos (by omega), if_pos h]
          congr 1 <;> omega
        · rw [if_neg (by omega), if_neg h]
      | succ c =>
        rw [List.getElem?_cons_succ] at hc
        have hcl := lt_length_of_some hc
        have hbd := band_lt (n := ls.length) hg (by omega : (c : Int) + 1 ≤ ls.length) hr hr0 (by omega)
        have := c2 c l' t r hc ht0 ht hr0 hr
        rw [show row + ((c + 1 : Nat) : Int) * g + r = row + g + c * g + r by push_cast; ring, this,
          c1 t _ ⟨ht0, by omega, by omega, by omega⟩]
        split_ifs <;> first | rfl | omega
    · intro t j hin h
      rw [c2' t j (s1.inR.2 hin) (by omega), c1 t j hin, if_neg (by omega)]

theorem xtAr_spec [Zero K] {forecast : Mat K} (wf : forecast.Wf) {g fRow : Int} (hg : 0 ≤ g)
    (hgf : g ≤ forecast.rows) (ls : List Int) :
    ∀ (sR : Int) (xt : Mat K), xt.Wf → 0 ≤ sR → sR + ls.length * g ≤ xt.rows → xt.cols = 1 →
    (∀ l ∈ ls, 0 ≤ fRow - l ∧ fRow - l < forecast.cols) →
    ∃ xt', xtAr forecast g fRow ls sR xt = .ok xt' ∧ SameShape xt xt' ∧ xt'.Wf ∧
      (∀ (c : Nat) l r, ls[c]? = some l → 0 ≤ r → r < g → xt'.val (sR + c * g + r) 0 = forecast.val r (fRow - l)) ∧
      (∀ i, 0 ≤ i → i < xt.rows → (i < sR ∨ sR + ls.length * g ≤ i) → xt'.val i 0 = xt.val i 0) := by
  induction ls with
  | nil =>
    intro sR xt w _ _ _ _
    exact ⟨xt, rfl, SameShape.refl xt, w, fun c l r h => by simp at h, fun i _ _ _ => rfl⟩
  | cons l ls ih =>
    intro sR xt w hrow hrows hcol hl
    have hl0 := hl l (by simp)
    have hlen : ((l :: ls).length : Int) * g = ls.length * g + g := by
      push_cast [List.length_cons]; ring
    have hnn : 0 ≤ (ls.length : Int) * g := mul_nonneg (by omega) hg
    obtain ⟨x1, e1, s1, w1, c1⟩ := setSub0_val w wf (rs := sR) (cs := 0) (srs := 0) (scs := fRow - l) (rc := g)
      (cc := 1) hrow le_rfl le_rfl hl0.1 hg (by omega) (by omega) (by omega) (by omega) (by omega)
    obtain ⟨x2, e2, s2, w2, c2, c2'⟩ := ih (sR + g) x1 w1 (by omega) (by rw [s1.rows]; omega)
      (by rw [s1.cols]; omega) (fun l' h' => hl l' (by simp [h']))
    refine ⟨x2, by unfold xtAr; rw [e1, Outcome.ok_bind, e2], s1.trans s2, w2, ?_, ?_⟩
    · intro c l' r hc hr0 hr
      cases c with
      | zero =>
        simp only [List.getElem?_cons_zero, Option.some.injEq] at hc
        subst hc
        rw [show sR + ((0 : Nat) : Int) * g + r = sR + r by simp, c2' _ (by omega) (by rw [s1.rows]; omega)
          (by omega), c1 _ _ ⟨by omega, by omega, le_rfl, by omega⟩, if_pos (by omega)]
        congr 1 <;> ring
      | succ c =>
        rw [List.getElem?_cons_succ] at hc
        have := c2 c l' r hc hr0 hr
        rw [← this]; congr 1; push_cast; ring
    · intro i h0 hi h
      rw [c2' i h0 (by rw [s1.rows]; exact hi) (by omega), c1 i 0 ⟨h0, hi, le_rfl, by omega⟩, if_neg (by omega)]

theorem xtMa_spec [Zero K] {resid : Mat K} (wf : resid.Wf) {g residInd fRow : Int} (hg : 0 ≤ g)
    (hgf : g ≤ resid.rows) (ls : List Int) :
    ∀ (sR : Int) (xt : Mat K), xt.Wf → 0 ≤ sR → sR + ls.length * g ≤ xt.rows → xt.cols = 1 →
    (∀ l ∈ ls, 0 ≤ residInd + fRow - l) →
    ∃ xt', xtMa resid g residInd fRow ls sR xt = .ok xt' ∧ SameShape xt xt' ∧ xt'.Wf ∧
      (∀ (c : Nat) l r, ls[c]? = some l → 0 ≤ r → r < g → xt'.val (sR + c * g + r) 0 =
        if residInd + fRow - l < resid.cols then resid.val r (residInd + fRow - l) else xt.val (sR + c * g + r) 0) ∧
      (∀ i, 0 ≤ i → i < xt.rows → (i < sR ∨ sR + ls.length * g ≤ i) → xt'.val i 0 = xt.val i 0) := by
  induction ls with
  | nil =>
    intro sR xt w _ _ _ _
    exact ⟨xt, rfl, SameShape.refl xt, w, fun c l r h => by simp at h, fun i _ _ _ => rfl⟩
  | cons l ls ih =>
    intro sR xt w hrow hrows hcol hl
    have hl0 := hl l (by simp)
    have hlen : ((l :: ls).length : Int) * g = ls.length * g + g := by
      push_cast [List.length_cons]; ring
    have hnn : 0 ≤ (ls.length : Int) * g := mul_nonneg (by omega) hg
    unfold xtMa
    by_cases hb : residInd + fRow - l < resid.cols
    · obtain ⟨x1, e1, s1, w1, c1⟩ := setSub0_val w wf (rs := sR) (cs := 0) (srs := 0) (scs := residInd + fRow - l)
        (rc := g) (cc := 1) hrow le_rfl le_rfl hl0 hg (by omega) (by omega) (by omega) (by omega) (by omega)
      obtain ⟨x2, e2, s2, w2, c2, c2'⟩ := ih (sR + g) x1 w1 (by omega) (by rw [s1.rows]; omega)
        (by rw [s1.cols]; omega) (fun l' h' => hl l' (by simp [h']))
      refine ⟨x2, by rw [if_pos hb, e1, Outcome.ok_bind, e2], s1.trans s2, w2, ?_, ?_⟩
      · intro c l' r hc hr0 hr
        cases c with
        | zero =>
          simp only [List.getElem?_cons_zero, Option.some.injEq] at hc
          subst hc
          rw [show sR + ((0 : Nat) : Int) * g + r = sR + r by simp, c2' _ (by omega) (by rw [s1.rows]; omega)
            (by omega), c1 _ _ ⟨by omega, by omega, le_rfl, by omega⟩, if_pos (by omega), if_pos hb]
          congr 1 <;> ring
        | succ c =>
          rw [List.getElem?_cons_succ] at hc
          have hcl := lt_length_of_some hc
          have hbd := band_lt (n := ls.length) hg (by omega : (c : Int) + 1 ≤ ls.length) hr hr0 (by omega)
          have := c2 c l' r hc hr0 hr
          rw [show sR + ((c + 1 : Nat) : Int) * g + r = sR + g + c * g + r by push_cast; ring, this,
            c1 _ _ ⟨by omega, by omega, le_rfl, by omega⟩, if_neg (by omega : ¬ (sR ≤ _ ∧ _ ∧ _ ∧ _))]
      · intro i h0 hi h
        rw [c2' i h0 (by rw [s1.rows]; exact hi) (by omega), c1 i 0 ⟨h0, hi, le_rfl, by omega⟩, if_neg (by omega)]
    · obtain ⟨x2, e2, s2, w2, c2, c2'⟩ := ih (sR + g) xt w (by omega) (by omega) hcol (fun l' h' => hl l' (by simp [h']))
      refine ⟨x2, by rw [if_neg hb, e2], s2, w2, ?_, ?_⟩
      · intro c l' r hc hr0 hr
        cases c with
        | zero =>
          simp only [List.getElem?_cons_zero, Option.some.injEq] at hc
          subst hc
          rw [show sR + ((0 : Nat) : Int) * g + r = sR + r by simp, c2' _ (by omega) (by omega) (by omega), if_neg hb]
        | succ c =>
          rw [List.getElem?_cons_succ] at hc
          have := c2 c l' r hc hr0 hr
          rw [show sR + ((c + 1 : Nat) : Int) * g + r = sR + g + c * g + r by push_cast; ring, this]
      · intro i h0 hi h
        rw [c2' i h0 hi (by omega)]

/-- A sum over `a * g` consecutive numbers, in groups of `g`. -/
theorem sum_bands {M : Type} [AddCommMonoid M] (f : Nat → M) (a g : Nat) :
    ∑ c ∈ Finset.range (a * g), f c = ∑ c ∈ Finset.range a, ∑ r ∈ Finset.range g, f (c * g + r) := by
  induction a with
  | zero => simp
  | succ a ih => rw [Nat.add_mul, one_mul, Finset.sum_range_add, ih, Finset.sum_range_succ]

end Varma
end LDT
