import Verif.Lemmas.PcaOptions
/-!
# C131: replacing regressors by principal components
-/
namespace LDT
namespace Pc
open Mx Sd
open Arr (Val)
open Co (part)

variable {r c k n f s : ℕ}

theorem cutoffLoop_spec (rate : ℝ) : ∀ (l : List ℝ) (z : Int) (cum : ℝ), ∃ t : ℕ, cutoffLoop rate (l.map some) z (some cum) = z + t ∧ t ≤ l.length ∧
    (∀ m, 1 ≤ m → m ≤ t → cum + (l.take m).sum ≤ rate) ∧ (t < l.length → rate < cum + (l.take (t + 1)).sum) := by
  intro l
  induction l with
  | nil => intro z cum; exact ⟨0, by simp [cutoffLoop], le_rfl, by intro m h1 h2; omega, by simp⟩
  | cons x t ih =>
    intro z cum
    have hadd : (vadd (some cum) (some x) : Val ℝ) = some (cum + x) := rfl
    rw [List.map_cons, cutoffLoop, hadd]
    by_cases hx : rate < cum + x
    · refine ⟨0, ?_, Nat.zero_le _, by intro m h1 h2; omega, fun _ => by simpa using hx⟩
      rw [if_pos (by unfold above; simpa using hx)]; simp
    · obtain ⟨u, e, h1, h2, h3⟩ := ih (z + 1) (cum + x)
      refine ⟨u + 1, ?_, by simpa using h1, ?_, ?_⟩
      · rw [if_neg (by unfold above; simpa using hx), e]; push_cast; ring
      · intro m hm1 hm2
        obtain ⟨q, rfl⟩ : ∃ q, m = q + 1 := ⟨m - 1, by omega⟩
        rw [List.take_succ_cons, List.sum_cons, ← add_assoc]
        by_cases hq : q = 0
        · subst hq; simpa using not_lt.1 hx
        · exact h2 q (by omega) (by omega)
      · intro hlt
        rw [List.take_succ_cons, List.sum_cons, ← add_assoc]
        exact h3 (by simpa using hlt)

/-- The number of components that is needed: refused unless `0 < rate < 1`; otherwise the smallest number of components whose shares
together exceed the rate, and the number of components plus one if there is none. -/
theorem C131_cutoff (w : List ℝ) (rate : ℝ) :
    (cutoffColumn (w.map some) rate = .throws ↔ ¬ (0 < rate ∧ rate < 1)) ∧
    (0 < rate → rate < 1 → ∃ t : ℕ, cutoffColumn (w.map some) rate = .ok t ∧ 1 ≤ t ∧ t ≤ w.length + 1 ∧
      (∀ m < t, (w.take m).sum ≤ rate) ∧ (t ≤ w.length → rate < (w.take t).sum)) := by
  have hpos : 0 < rate → rate < 1 → ∃ t : ℕ, cutoffColumn (w.map some) rate = .ok t ∧ 1 ≤ t ∧ t ≤ w.length + 1 ∧
      (∀ m < t, (w.take m).sum ≤ rate) ∧ (t ≤ w.length → rate < (w.take t).sum) := by
    intro h0 h1
    obtain ⟨t, e, a, b, d⟩ := cutoffLoop_spec rate w 1 0
    refine ⟨t + 1, ?_, by omega, by omega, ?_, ?_⟩
    · unfold cutoffColumn
      rw [if_neg (by rintro (h | h) <;> linarith), e]
      congr 1; push_cast; ring
    · intro m hm
      by_cases hm0 : m = 0
      · subst hm0; simpa using h0.le
      · have := b m (by omega) (by omega)
        rwa [zero_add] at this
    · intro ht
      have := d (by omega)
      rwa [zero_add] at this
  refine ⟨⟨fun h hc => ?_, fun h => ?_⟩, hpos⟩
  · obtain ⟨t, e, -⟩ := hpos hc.1 hc.2
    rw [h] at e; cases e
  · unfold cutoffColumn
    rw [if_pos]
    by_contra hn
    push Not at hn
    exact h hn

/-- With the shares of an analysis of a table that is not all 0, there are enough components: at most `min r k` are taken. -/
theorem C131_enough (h2 : 2 ≤ r) {X : Fin r → Fin k → ℝ} {doPCs : Bool} {D : Fin k → Fin k → ℝ} {sd : Fin (min r k) → ℝ} {res : PcaRes}
    (h : Analysis X doPCs D sd res) (hX : ∃ i j, X i j ≠ 0) (rate : ℝ) (h0 : 0 < rate) (h1 : rate < 1) :
    ∃ t : ℕ, cutoffColumn res.ratios rate = .ok t ∧ 1 ≤ t ∧ t ≤ min r k := by
  obtain ⟨w, e, -, -, hs⟩ := (C130_shares h2 h).1 hX
  have e' : res.ratios = (List.ofFn w).map some := by rw [e, List.map_ofFn]; rfl
  obtain ⟨t, et, a, b, d, -⟩ := (C131_cutoff (List.ofFn w) rate).2 h0 h1
  rw [List.length_ofFn] at b
  refine ⟨t, by rw [e']; exact et, a, ?_⟩
  by_contra hn
  have := d (min r k) (by omega)
  rw [List.take_of_length_le (by rw [List.length_ofFn]), List.sum_ofFn, hs] at this
  linarith

/-- Which options are accepted: disabled ones, and enabled ones that do not ignore a negative number of columns and either ask for a positive
number of components, or have a rate from 0 to 1 (exclusive) and a limit different from 0, or have no rate. -/
theorem C131_check (o : Options) :
    (o.check = .ok () ∨ o.check = .throws) ∧
    (o.check = .ok () ↔ (o.exact = 0 ∧ o.rate = 0) ∨
      (0 ≤ o.ignoreFirst ∧ (0 < o.exact ∨ o.rate = 0 ∨ (0 < o.rate ∧ o.rate < 1 ∧ o.countMax ≠ 0)))) := by
  have en : o.enabled = false ↔ (o.exact = 0 ∧ o.rate = 0) := by
    unfold Options.enabled
    rw [decide_eq_false_iff_not]
    push Not
    rfl
  unfold Options.check
  by_cases h1 : o.enabled = false
  · rw [if_pos h1]
    exact ⟨Or.inl rfl, ⟨fun _ => Or.inl (en.1 h1), fun _ => rfl⟩⟩
  rw [if_neg h1]
  have hne := (not_congr en).1 h1
  by_cases h2 : o.ignoreFirst < 0
  · rw [if_pos h2]
    refine ⟨Or.inr rfl, ⟨fun h => (by cases h), ?_⟩⟩
    rintro (h | h)
    · exact (hne h).elim
    · omega
  rw [if_neg h2]
  by_cases h3 : o.exact > 0
  · rw [if_pos h3]
    exact ⟨Or.inl rfl, ⟨fun _ => Or.inr ⟨by omega, Or.inl h3⟩, fun _ => rfl⟩⟩
  rw [if_neg h3]
  by_cases h4 : o.rate = 0
  · rw [if_neg (not_not.2 h4)]
    exact ⟨Or.inl rfl, ⟨fun _ => Or.inr ⟨by omega, Or.inr (Or.inl h4)⟩, fun _ => rfl⟩⟩
  rw [if_pos h4]
  by_cases h5 : o.rate ≤ 0 ∨ 1 ≤ o.rate
  · rw [if_pos h5]
    refine ⟨Or.inr rfl, ⟨fun h => (by cases h), ?_⟩⟩
    rintro (h | ⟨-, h | h | h⟩)
    · exact (hne h).elim
    · exact (h3 h).elim
    · exact (h4 h).elim
    · rcases h5 with h5 | h5 <;> linarith [h.1, h.2.1]
  rw [if_neg h5]
  push Not at h5
  by_cases h6 : o.countMax = 0
  · rw [if_pos h6]
    refine ⟨Or.inr rfl, ⟨fun h => (by cases h), ?_⟩⟩
    rintro (h | ⟨-, h | h | h⟩)
    · exact (hne h).elim
    · exact (h3 h).elim
    · exact (h4 h).elim
    · exact (h.2.2 h6).elim
  · rw [if_neg h6]
    exact ⟨Or.inl rfl, ⟨fun _ => Or.inr ⟨by omega, Or.inr (Or.inr ⟨h5.1, h5.2, h6⟩)⟩, fun _ => rfl⟩⟩

/-- How many components: the given number if there is one, otherwise the number for the rate, but not more than the limit. -/
theorem C131_count (o : Options) (ratios : List (Val ℝ)) :
    (o.exact ≠ 0 → o.finalCount ratios = .ok o.exact) ∧
    (o.exact = 0 → ∀ t, cutoffColumn ratios o.rate = .ok t → o.finalCount ratios = .ok (min t o.countMax)) ∧
    (o.exact = 0 → cutoffColumn ratios o.rate = .throws → o.finalCount ratios = .throws) := by
  unfold Options.finalCount
  refine ⟨fun h => if_pos h, fun h t e => ?_, fun h e => ?_⟩
  · rw [if_neg (not_not.2 h), e]; rfl
  · rw [if_neg (not_not.2 h), e]; rfl

theorem Given.tail {xf : Option (Mat (Val ℝ))} {N : Fin f → Fin (s + c) → ℝ} (h : Given xf N) :
    Given (xf.map (fun f => tailView f (s : Int))) (fun i (j : Fin c) => N i (Fin.natAdd s j)) := by
  rcases h with ⟨e, h⟩ | ⟨B, e, h⟩
  · exact Or.inl ⟨by rw [e]; rfl, h⟩
  · exact Or.inr ⟨_, by rw [e]; rfl, tailView_holds h⟩

/-- The forecast rows afterwards. -/
def ReplacedOpt (s n : ℕ) (N : Fin f → Fin (s + c) → ℝ) (P : Fin f → Fin k → ℝ) (xf : Option (Mat (Val ℝ))) : Prop :=
  0 < f → ∃ B, xf = some B ∧ Replaced s n N P B

/-- `CalculateForModel`: the first `s` columns stay, the others are analysed. If one of them is found to be constant, an exception;
otherwise - `n` being the number of components according to the options - the other columns are replaced by the first `n` components, in
the data and in the rows to be forecast. -/
theorem C131_model (L : Lapack) (hL : L.Correct) {R C F : ℕ} {remove center scale : Bool} {o : Pca}
    (ho : Pca.make (R : Int) (C : Int) (F : Int) true remove center scale = .ok o) (p : Options) (hp : p.ignoreFirst = s)
    (h2 : 2 ≤ r) (hc : 0 < c) (hrR : r ≤ R) (hcC : c ≤ C) (hfF : f ≤ F) {A : Mat (Val ℝ)} {M : Fin r → Fin (s + c) → ℝ} (hA : Holds A M)
    {T : Fin r → Fin c → ℝ} (hT : T = fun i j => M i (Fin.natAdd s j)) (hok : Scalable remove scale T)
    {xf : Option (Mat (Val ℝ))} {N : Fin f → Fin (s + c) → ℝ} (hB : Given xf N)
    (hk : 0 < width remove scale T) (work storage : List ℝ) (hst : (storage.length : Int) = o.storageSize)
    (hwk : (work.length : Int) = o.workSize) :
    ((L.gesvd r (width remove scale T) (analysed remove center scale T T)).1 ≠ 0 → p.calculateForModel L o A work storage xf = .throws) ∧
    ((scale = true ∧ remove = true ∧ ∃ j, colVar true T j = 0) → p.calculateForModel L o A work storage xf = .throws) ∧
    ((L.gesvd r (width remove scale T) (analysed remove center scale T T)).1 = 0 → (scale = true → ∀ j, colVar true T j ≠ 0) →
      ∃ D sd res, Analysis (analysed remove center scale T T) true D sd res ∧
        (∀ n : ℕ, p.finalCount res.ratios = .ok n → n ≤ c →
          ∃ d xf', p.calculateForModel L o A work storage xf = .ok (res, d, xf') ∧ Replaced s n M (scores (analysed remove center scale T T) D) d ∧
            ReplacedOpt s n N (scores (analysed remove center scale T (fun i j => N i (Fin.natAdd s j))) D) xf') ∧
        (p.finalCount res.ratios = .throws → p.calculateForModel L o A work storage xf = .throws) ∧
        (∀ n : ℕ, p.finalCount res.ratios = .ok n → c < n → A.mem.length = r * (s + c) → p.calculateForModel L o A work storage xf = .ub) ∧
        (∀ m : ℕ, 0 < m → p.finalCount res.ratios = .ok (-(m : Int)) → f = 0 → xf = none →
          ∃ d, p.calculateForModel L o A work storage xf = .ok (res, d, none) ∧ d.cols = (s : Int) - m)) := by
  subst hT
  have hTl := tailView_holds hA
  have hG := hB.tail
  have hcalc := C130_calculate L hL ho h2 hc hrR hcC hfF hTl hok hG hk work storage hst hwk
  have hstart : p.calculateForModel L o A work storage xf = (do
      let r ← o.calculate L (tailView A (s : Int)) work storage (xf.map (fun f => tailView f (s : Int)))
      if r.removed ≠ [] then .throws
      else do
        let count ← p.finalCount r.ratios
        let d ← replaceTail A (s : Int) count r.pcs
        let f ← replaceForecast xf (s : Int) count r.forecasts
        pure (r, d, f)) := by
    unfold Options.calculateForModel
    have hcol := hB.cols
    rw [hA.cols, hp, if_neg (by rw [hcol]; simp), if_neg (by push_cast; omega), if_neg (by omega)]
  refine ⟨fun hi => ?_, fun hz => ?_, fun hi hnz => ?_⟩
  · rw [hstart, hcalc.1 hi]; rfl
  · obtain ⟨h1, h3, j, hj⟩ := hz
    by_cases hi : (L.gesvd r (width remove scale fun i j => M i (Fin.natAdd s j)) (analysed remove center scale (fun i j => M i (Fin.natAdd s j)) fun i j => M i (Fin.natAdd s j))).1 = 0
    · obtain ⟨D, sd, res, e, -, -, -, hrm⟩ := hcalc.2 hi
      have : res.removed ≠ [] := by
        intro h
        have := (hrm ((j : ℕ) : Int)).2 ⟨⟨h1, h3⟩, j, rfl, hj⟩
        rw [h] at this; cases this
      rw [hstart, e, Outcome.ok_bind, if_pos this]
    · rw [hstart, hcalc.1 hi]; rfl
  · obtain ⟨D, sd, res, e, an, fo, -, hrm⟩ := hcalc.2 hi
    have hnil : res.removed = [] := by
      rw [List.eq_nil_iff_forall_not_mem]
      intro t ht
      obtain ⟨⟨a, -⟩, j, -, hj⟩ := (hrm t).1 ht
      exact hnz a j hj
    have hw : width remove scale (fun i j => M i (Fin.natAdd s j)) = c := by
      unfold width keptColumns
      rw [List.filter_eq_self.2, List.length_finRange]
      intro j _
      simp only [decide_eq_true_eq]
      intro hh
      exact hnz (by cases scale <;> simp_all) j
    have hpc := an.pcs
    rw [if_pos rfl] at hpc
    obtain ⟨P, eP, tP⟩ := hpc
    rw [e, Outcome.ok_bind, if_neg (not_not.2 hnil)] at hstart
    refine ⟨D, sd, res, an, fun n hn hnc => ?_, fun ht => ?_, fun n hn hnc hm => ?_, fun m hm hn hf hx => ?_⟩
    · obtain ⟨d, ed, rd⟩ := replaceTail_ok hA tP (by rw [hw]; exact hnc) hnc
      have hfor : ∃ xf', replaceForecast xf (s : Int) (n : Int) res.forecasts = .ok xf' ∧
          ReplacedOpt s n N (scores (analysed remove center scale (fun i j => M i (Fin.natAdd s j)) (fun i j => N i (Fin.natAdd s j))) D) xf' := by
        rcases hB with ⟨ex, hf⟩ | ⟨B, ex, hB⟩
        · rw [ex]
          exact ⟨none, rfl, fun h => by omega⟩
        · rw [ex]
          unfold replaceForecast
          dsimp only
          unfold Forecasted at fo
          by_cases hf : 0 < f
          · rw [if_pos hf] at fo
            obtain ⟨g, eg, tg⟩ := fo
            obtain ⟨d', ed', rd'⟩ := replaceTail_ok hB tg (by rw [hw]; exact hnc) hnc
            rw [eg, ed']
            exact ⟨some d', rfl, fun _ => ⟨d', rfl, rd'⟩⟩
          · rw [if_neg hf] at fo
            rw [fo]
            exact ⟨_, rfl, fun h => (hf h).elim⟩
      obtain ⟨xf', ex', rx'⟩ := hfor
      refine ⟨d, xf', ?_, rd, rx'⟩
      rw [hstart, hn, Outcome.ok_bind, eP, ed, Outcome.ok_bind, ex']; rfl
    · rw [hstart, ht]; rfl
    · rw [hstart, hn, Outcome.ok_bind, eP, replaceTail_ub hA hm tP.rows tP.wf.alloc (by omega) hnc]; rfl
    · subst hf
      have hcopy : ∀ d : Mat (Val ℝ), (⟨P.rows, -(m : Int), P.data.map (fun l => l.map some)⟩ : Mat (Val ℝ)).copyTo00 d = .ok d := by
        intro d
        unfold Mat.copyTo00
        have : upTo 0 (⟨P.rows, -(m : Int), P.data.map (fun l => l.map some)⟩ : Mat (Val ℝ)).length = [] := by
          unfold upTo
          have : ((⟨P.rows, -(m : Int), P.data.map (fun l => l.map some)⟩ : Mat (Val ℝ)).length - 0).toNat = 0 := by
            show (P.rows * -(m : Int) - 0).toNat = 0
            rw [tP.rows]
            have : (r : Int) * -(m : Int) ≤ 0 := by
              rw [mul_neg, neg_nonpos]; positivity
            omega
          rw [this]; rfl
        rw [this]; rfl
      refine ⟨⟨A.rows, -(m : Int) + s, some (A.mem.take ((s : Int) * A.rows).toNat ++ (tailView A (s : Int)).mem)⟩, ?_,
        by show -(m : Int) + s = _; ring⟩
      · rw [hstart, hn, Outcome.ok_bind, eP]
        unfold replaceTail
        dsimp only
        rw [hcopy, Outcome.ok_bind, hx]
        rfl

/-- "Accepted options replace columns by as many components as there are": a number of components larger than the number of columns is
accepted, and the components are written behind the end of the data. -/
theorem C131_exact_violated (L : Lapack) (hL : L.Correct) {R C : ℕ} {remove center scale : Bool} {o : Pca}
    (ho : Pca.make (R : Int) (C : Int) 0 true remove center scale = .ok o) (h2 : 2 ≤ r) (hc : 0 < c) (hrR : r ≤ R) (hcC : c ≤ C)
    {A : Mat (Val ℝ)} {M : Fin r → Fin (s + c) → ℝ} (hA : Holds A M) (hm : A.mem.length = r * (s + c))
    {T : Fin r → Fin c → ℝ} (hT : T = fun i j => M i (Fin.natAdd s j)) (hv : ∀ j, colVar true T j ≠ 0)
    (hi : (L.gesvd r (width remove scale T) (analysed remove center scale T T)).1 = 0)
    (work storage : List ℝ) (hst : (storage.length : Int) = o.storageSize) (hwk : (work.length : Int) = o.workSize) :
    ∃ p : Options, p.ignoreFirst = s ∧ p.check = .ok () ∧ p.calculateForModel L o A work storage none = .ub := by
  have hw : 0 < width remove scale T := by
    unfold width keptColumns
    rw [List.filter_eq_self.2 (by intro j _; simp only [decide_eq_true_eq]; intro _; exact hv j), List.length_finRange]
    exact hc
  let p : Options := { ignoreFirst := s, exact := (c + 1 : ℕ) }
  obtain ⟨D, sd, res, an, -, -, hub, -⟩ := (C131_model L hL (F := 0) (f := 0) (N := fun i => i.elim0) ho p rfl h2 hc hrR hcC le_rfl hA hT
    (fun _ => Or.inr hv) (Or.inl ⟨rfl, rfl⟩) hw work storage hst hwk).2.2 hi (fun _ => hv)
  refine ⟨p, rfl, ?_, hub (c + 1) ?_ (by omega) hm⟩
  · exact (C131_check p).2.2 (Or.inr ⟨by show (0 : Int) ≤ s; omega, Or.inl (by show (0 : Int) < ((c + 1 : ℕ) : Int); omega)⟩)
  · exact (C131_count p res.ratios).1 (by show ((c + 1 : ℕ) : Int) ≠ 0; omega)

theorem cutoff_none (rate : ℝ) : ∀ (n : ℕ) (z : Int) (cum : Val ℝ), cutoffLoop rate (List.replicate n none) z cum = z + n := by
  intro n
  induction n with
  | zero => intro z cum; simp [cutoffLoop]
  | succ m ih =>
    intro z cum
    have : (vadd cum none : Val ℝ) = none := by cases cum <;> rfl
    rw [List.replicate_succ, cutoffLoop, this]
    unfold above
    simp only [Bool.false_eq_true, if_false]
    rw [ih]; push_cast; ring

/-- "With a rate there are enough components": false for constant columns that are not scaled: the shares are NaN, one component more than
there are columns is taken, and written behind the end of the data. -/
theorem C131_constant_violated (L : Lapack) (hL : L.Correct) {R C : ℕ} {remove : Bool} {o : Pca}
    (ho : Pca.make (R : Int) (C : Int) 0 true remove true false = .ok o) (h2 : 2 ≤ r) (hc : 0 < c) (hcr : c ≤ r) (hrR : r ≤ R) (hcC : c ≤ C)
    {A : Mat (Val ℝ)} {M : Fin r → Fin (s + c) → ℝ} (hA : Holds A M) (hm : A.mem.length = r * (s + c))
    {T : Fin r → Fin c → ℝ} (hT : T = fun i j => M i (Fin.natAdd s j)) (hconst : ∀ i i' j, T i j = T i' j)
    (hi : (L.gesvd r (width remove false T) (analysed remove true false T T)).1 = 0)
    (p : Options) (hp : p.ignoreFirst = s) (he : p.exact = 0) (h0 : 0 < p.rate) (h1 : p.rate < 1) (hmax : (c : Int) < p.countMax)
    (work storage : List ℝ) (hst : (storage.length : Int) = o.storageSize) (hwk : (work.length : Int) = o.workSize) :
    p.check = .ok () ∧ p.calculateForModel L o A work storage none = .ub := by
  have hw : width remove false T = c := width_all remove T
  obtain ⟨D, sd, res, an, -, -, hub, -⟩ := (C131_model L hL (F := 0) (f := 0) (N := fun i => i.elim0) ho p hp h2 hc hrR hcC le_rfl hA hT
    (fun h => by cases h) (Or.inl ⟨rfl, rfl⟩) (by rw [hw]; exact hc) work storage hst hwk).2.2 hi (fun h => by cases h)
  refine ⟨(C131_check p).2.2 (Or.inr ⟨by omega, Or.inr (Or.inr ⟨h0, h1, by omega⟩)⟩), hub (c + 1) ?_ (by omega) hm⟩
  have hz : ∀ i j, analysed remove true false T T i j = 0 := by
    intro i j
    unfold analysed
    dsimp only
    generalize (keptColumns (false && remove) (colVar true T))[(j : ℕ)]'j.2 = b
    have : colMean T b = T i b := by
      unfold colMean
      rw [Finset.sum_congr rfl (fun i' _ => hconst i' i b), Finset.sum_const, Finset.card_univ, Fintype.card_fin, nsmul_eq_mul,
        mul_div_cancel_left₀ _ (by have : (2 : ℝ) ≤ r := by exact_mod_cast h2
                                   linarith)]
    rw [if_pos rfl, this, sub_self, zero_div]
  have hr := (C130_shares h2 an).2 hz
  have hmn : min r (width remove false T) = c := by rw [hw]; omega
  have hcut : cutoffColumn res.ratios p.rate = .ok ((c + 1 : ℕ) : Int) := by
    unfold cutoffColumn
    rw [if_neg (by rintro (h | h) <;> linarith), hr, hmn, cutoff_none]
    congr 1; push_cast; ring
  rw [(C131_count p res.ratios).2.1 he _ hcut]
  congr 1
  push_cast; omega

/-- "The columns that are to be ignored stay": a negative number of components is accepted, and removes them. -/
theorem C131_negative_violated (L : Lapack) (hL : L.Correct) {R C : ℕ} {remove center scale : Bool} {o : Pca}
    (ho : Pca.make (R : Int) (C : Int) 0 true remove center scale = .ok o) (h2 : 2 ≤ r) (hc : 0 < c) (hrR : r ≤ R) (hcC : c ≤ C)
    {A : Mat (Val ℝ)} {M : Fin r → Fin (s + c) → ℝ} (hA : Holds A M)
    {T : Fin r → Fin c → ℝ} (hT : T = fun i j => M i (Fin.natAdd s j)) (hv : ∀ j, colVar true T j ≠ 0)
    (hi : (L.gesvd r (width remove scale T) (analysed remove center scale T T)).1 = 0)
    (work storage : List ℝ) (hst : (storage.length : Int) = o.storageSize) (hwk : (work.length : Int) = o.workSize) :
    ∃ (p : Options) (res : PcaRes) (d : Mat (Val ℝ)), p.ignoreFirst = s ∧ p.check = .ok () ∧
      p.calculateForModel L o A work storage none = .ok (res, d, none) ∧ d.cols < s := by
  have hw : 0 < width remove scale T := by
    unfold width keptColumns
    rw [List.filter_eq_self.2 (by intro j _; simp only [decide_eq_true_eq]; intro _; exact hv j), List.length_finRange]
    exact hc
  let p : Options := { ignoreFirst := s, exact := -1 }
  obtain ⟨D, sd, res, an, -, -, -, hneg⟩ := (C131_model L hL (F := 0) (f := 0) (N := fun i => i.elim0) ho p rfl h2 hc hrR hcC le_rfl hA hT
    (fun _ => Or.inr hv) (Or.inl ⟨rfl, rfl⟩) hw work storage hst hwk).2.2 hi (fun _ => hv)
  obtain ⟨d, e, hd⟩ := hneg 1 (by norm_num) ((C131_count p res.ratios).1 (by show (-1 : Int) ≠ 0; norm_num)) rfl rfl
  refine ⟨p, res, d, rfl, ?_, e, by rw [hd]; push_cast; omega⟩
  exact (C131_check p).2.2 (Or.inr ⟨by show (0 : Int) ≤ s; omega, Or.inr (Or.inl rfl)⟩)

/-- The hypotheses are met: an intercept and a column with the numbers 0 and 2; the rate 0.9 takes one component. -/
example : ∃ (o : Pca) (A : Mat (Val ℝ)) (M : Fin 2 → Fin (1 + 1) → ℝ) (p : Options) (work storage : List ℝ) (res : PcaRes) (d : Mat (Val ℝ))
    (P : Fin 2 → Fin 1 → ℝ), Pca.make 2 1 0 true false true false = .ok o ∧ Holds A M ∧ p.check = .ok () ∧
    p.calculateForModel someLapack o A work storage none = .ok (res, d, none) ∧ d.cols = 2 ∧ d.get 0 0 = .ok (some 1) ∧
    d.get 1 1 = .ok (some (P 1 0)) := by
  set M : Fin 2 → Fin (1 + 1) → ℝ := fun i j => if j = 0 then 1 else if i = 0 then 0 else 2 with hM
  set T : Fin 2 → Fin 1 → ℝ := fun i j => M i (Fin.natAdd 1 j) with hT
  have hT0 : ∀ j, T 0 j = 0 ∧ T 1 j = 2 := by
    intro j
    have : Fin.natAdd 1 j ≠ 0 := by
      intro h
      have := congrArg Fin.val h
      simp at this
    simp [hT, hM, this]
  have hmean : ∀ j, colMean T j = 1 := by intro j; unfold colMean; rw [Fin.sum_univ_two, (hT0 j).1, (hT0 j).2]; norm_num
  have hA : Holds ⟨2, 2, some [some 1, some 1, some 0, some 2]⟩ M := by
    refine ⟨wf_mk 2 2 _ rfl, rfl, rfl, fun i j => ?_⟩
    fin_cases i <;> fin_cases j <;> rfl
  obtain ⟨o, eo, ho⟩ := make_ok 2 1 0 (by norm_num) (by norm_num) true false true false
  have hS := ho.storage
  have hW := ho.work
  norm_num at hS hW
  have hw : width false false T = 1 := width_all false T
  have hX : ∀ j, analysed false true false T T 0 j = -1 ∧ analysed false true false T T 1 j = 1 := by
    intro j
    unfold analysed
    dsimp only
    rw [if_pos rfl, hmean, (hT0 _).1, (hT0 _).2]
    norm_num
  have hi : (someLapack.gesvd 2 (width false false T) (analysed false true false T T)).1 = 0 :=
    someLapack_info _ ⟨(fun _ => Real.sqrt 2, fun _ _ => 1), svd_pair _ _ hw (by rw [hw]; rfl) _ hX⟩
  let p : Options := { ignoreFirst := (1 : ℕ), exact := 0, rate := 9 / 10 }
  obtain ⟨D, sd, res, an, hrun, -⟩ := (C131_model someLapack someLapack_correct (F := 0) (f := 0) (N := fun i => i.elim0) eo p rfl le_rfl
    (by norm_num) le_rfl le_rfl le_rfl hA rfl (fun h => by cases h) (Or.inl ⟨rfl, rfl⟩) (by rw [hw]; norm_num)
    (List.replicate o.workSize.toNat 0) (List.replicate o.storageSize.toNat 0)
    (by rw [List.length_replicate, hS]; norm_num) (by rw [List.length_replicate, hW]; norm_num)).2.2 hi (fun h => by cases h)
  obtain ⟨t, et, t1, t2⟩ := C131_enough le_rfl an ⟨1, ⟨0, by rw [hw]; norm_num⟩, by rw [(hX _).2]; norm_num⟩ (9 / 10) (by norm_num) (by norm_num)
  have ht : t = 1 := by rw [hw] at t2; omega
  subst ht
  obtain ⟨d, xf', e, rd, -⟩ := hrun 1 ((C131_count p res.ratios).2.1 rfl _ et) le_rfl
  have hxf : xf' = none := by
    unfold Options.calculateForModel at e
    rw [if_neg (by simp), if_neg (by show ¬ ((1 : Int) ≥ 2); norm_num), if_neg (by show ¬ ((1 : Int) < 0); norm_num)] at e
    obtain ⟨a, -, e⟩ := bind_inv e
    by_cases hr : a.removed ≠ []
    · rw [if_pos hr] at e; cases e
    rw [if_neg hr] at e
    obtain ⟨b, -, e⟩ := bind_inv e
    obtain ⟨b', -, e⟩ := bind_inv e
    have := Outcome.ok.inj e
    exact (congrArg (fun z => z.2.2) this).symm
  subst hxf
  refine ⟨o, _, M, p, _, _, res, d, fun i _ => scores (analysed false true false T T) D i ⟨0, by rw [hw]; norm_num⟩, eo, hA, ?_, e, rd.cols, ?_, ?_⟩
  · exact (C131_check p).2.2 (Or.inr ⟨by show (0 : Int) ≤ 1; norm_num, Or.inr (Or.inr ⟨by norm_num [p], by norm_num [p], by norm_num [p]⟩)⟩)
  · exact rd.kept 0 0 (by norm_num)
  · exact rd.replaced 1 ⟨0, by rw [hw]; norm_num⟩ (by norm_num)

end Pc
end LDT
