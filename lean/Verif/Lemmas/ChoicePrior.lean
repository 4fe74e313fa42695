import Verif.Lemmas.ChoiceEstimate
import Verif.Lemmas.DistQuantile
import Verif.Props.Ols
/-! # Starting values for models of discrete choice -/
namespace LDT
namespace Dc
open Op Di
open Ls (FullRank)

theorem dense_isM (n k : ℕ) (f : ℕ → ℕ → ℝ) : Ls.IsM (dense n k f) (fun i j => f i j : Matrix (Fin n) (Fin k) ℝ) := by
  refine ⟨⟨⟨by simp [dense], by simp [dense], rfl, ?_⟩, rfl, rfl⟩, fun i j => ?_⟩
  · simp [dense, Mx.Mat.mem]
  · have hi := i.2; have hj := j.2
    have hlt : (i : ℕ) + n * j < n * k := by
      calc (i : ℕ) + n * j < n + n * j := by omega
        _ = n * (j + 1) := by ring
        _ ≤ n * k := Nat.mul_le_mul_left _ (by omega)
    unfold Mx.Mat.val dense
    simp only [Mx.Mat.mem, Option.getD_some]
    have e : ((i : ℕ) + (n : ℤ) * (j : ℕ) : ℤ).toNat = (i : ℕ) + n * j := by
      rw [show ((i : ℕ) + (n : ℤ) * (j : ℕ) : ℤ) = (((i : ℕ) + n * j : ℕ) : ℤ) by push_cast; ring, Int.toNat_natCast]
    rw [e, List.getElem?_ofFn, dif_pos hlt, Option.getD_some]
    congr 1
    · rw [Nat.add_mul_mod_self_left, Nat.mod_eq_of_lt hi]
    · rw [Nat.add_mul_div_left _ _ (by omega), Nat.div_eq_of_lt hi, Nat.zero_add]

theorem sum_ext {k : ℕ} (x : ℕ → ℝ) (b : ℕ → ℝ) : ∑ l : Fin k, x l * b l = ∑ l ∈ Finset.range k, x l * b l := (Finset.sum_range fun l => x l * b l).symm

/-- Least squares on rows multiplied by the roots of the weights. -/
theorem fitOls_spec {n k0 k : ℕ} {y : ℕ → ℝ} {x : ℕ → ℕ → ℝ} {v s : ℕ → ℝ} (hv : ∀ i < n, 0 ≤ v i) (hs : ∀ i < n, s i ^ 2 = v i)
    (pk : 0 < k0) (hkn : k0 ≤ n) (hk : k0 ≤ k) :
    (Independent n k0 v x → ∃ b, fitOls n k0 k (fun i => y i * s i) (fun i j => x i j * s i) = .ok b ∧ WeightedBest n k0 v y x b) ∧
    (¬ Independent n k0 v x → fitOls n k0 k (fun i => y i * s i) (fun i j => x i j * s i) = .throws) := by
  set Y : Matrix (Fin n) (Fin 1) ℝ := fun i _ => y i * s i with hY
  set X : Matrix (Fin n) (Fin k0) ℝ := fun i j => x i j * s i with hXdef
  have hy := dense_isM n 1 fun i _ => y i * s i
  have hx := dense_isM n k0 fun i j => x i j * s i
  have h1 : (k0 : Int) * 1 + (if false || false then (n : Int) * 1 else 0) + (if false then (1 : Int) * 1 else 0) ≤ (List.replicate k (0 : ℝ)).length := by
    simp; exact hk
  have h2 : 2 * (k0 : Int) * k0 + (k0 : Int) * n ≤ (List.replicate (2 * k0 * k0 + k0 * n) (0 : ℝ)).length := by
    simp
  have hs0 : ∀ i < n, (0 < v i ↔ s i ≠ 0) := fun i hi => by
    rw [← hs i hi]
    constructor
    · intro h e; rw [e] at h; simp at h
    · intro h; positivity
  have row : ∀ (b : ℕ → ℝ) (i : Fin n), ∑ l : Fin k0, X i l * b l = index k0 x b i * s i := fun b i => by
    unfold index
    rw [Finset.sum_mul, Finset.sum_range]
    refine Finset.sum_congr rfl fun l _ => ?_
    show x i l * s i * b l = _
    ring
  have rank : FullRank X ↔ Independent n k0 v x := by
    constructor
    · intro h b hb l hl
      have := h (fun l => b l) (fun i => by
        rw [row b i]
        by_cases hz : s i = 0
        · rw [hz, mul_zero]
        · rw [hb i i.2 ((hs0 i i.2).2 hz), zero_mul])
      exact congrFun this ⟨l, hl⟩
    · intro h b hb
      have hb' : ∀ i : Fin n, ∑ l : Fin k0, X i l * ext b l = 0 := fun i => by
        rw [← hb i]; exact Finset.sum_congr rfl fun l _ => by rw [ext_lt]
      funext l
      rw [← ext_lt b l]
      refine h (ext b) (fun i hi hp => ?_) l l.2
      have := hb' ⟨i, hi⟩
      rw [row] at this
      exact (mul_eq_zero.1 this).resolve_right ((hs0 i hi).1 hp)
  have sq : ∀ b : ℕ → ℝ, Ls.squares (Ls.misfit X (fun i => Y i 0) fun l => b l) = ∑ i ∈ Finset.range n, v i * (y i - index k0 x b i) ^ 2 := fun b => by
    unfold Ls.squares Ls.misfit
    rw [Finset.sum_range]
    refine Finset.sum_congr rfl fun i _ => ?_
    rw [row b i, ← hs i i.2]
    show (y i * s i - _) ^ 2 = _
    ring
  refine ⟨fun hI => ?_, fun hI => ?_⟩
  · obtain ⟨fit, B, e, ib, hB⟩ := Ls.C84_estimate hy hx (by norm_num) pk hkn (List.replicate k 0) (List.replicate (2 * k0 * k0 + k0 * n) 0) false false
      h1 h2 (rank.2 hI)
    refine ⟨fun j => fit.beta.val j 0, ?_, fun b' => ?_⟩
    · unfold fitOls
      rw [show ((1 : ℕ) : ℤ) = 1 from rfl] at e
      show (_ >>= _) = _
      rw [e]; rfl
    · have eb : (fun l : Fin k0 => B l 0) = fun l : Fin k0 => fit.beta.val (l : ℕ) 0 := funext fun l => (ib.val l 0).symm
      obtain ⟨q1, q2⟩ := hB 0 fun l => b' l
      rw [eb] at q1 q2
      have s1 := sq fun j => fit.beta.val j 0
      have s2 := sq b'
      change Ls.squares (Ls.misfit X (fun i => Y i 0) _) ≤ Ls.squares (Ls.misfit X (fun i => Y i 0) _) at q1
      rw [s1, s2] at q1
      refine ⟨q1, fun hle l hl => ?_⟩
      have := q2 (by
        change Ls.squares (Ls.misfit X (fun i => Y i 0) _) ≤ Ls.squares (Ls.misfit X (fun i => Y i 0) _)
        rw [s1, s2]; exact hle)
      exact congrFun this ⟨l, hl⟩
  · have e := Ls.C84_singular hy hx (by norm_num) pk hkn (List.replicate k 0) (List.replicate (2 * k0 * k0 + k0 * n) 0) false false
      h1 h2 (fun h => hI (rank.1 h))
    unfold fitOls
    rw [show ((1 : ℕ) : ℤ) = 1 from rfl] at e
    show (_ >>= _) = _
    rw [e]; rfl

theorem fitOls_few {n k0 k : ℕ} (y : ℕ → ℝ) (x : ℕ → ℕ → ℝ) (h : n < k0) : fitOls n k0 k y x = .throws := by
  unfold fitOls
  have := Ls.C84_refused (dense n 1 fun i _ => y i) (dense n k0 x) n 1 k0 (List.replicate k 0) (List.replicate (2 * k0 * k0 + k0 * n) 0) false false
    (Or.inr (by simp [dense]; exact h))
  show (_ >>= _) = _
  rw [this]; rfl

theorem firstOls_eq (D : Data) (k : ℕ) : ∃ s : ℕ → ℝ, ((∀ i < D.n, 0 ≤ D.wt i) → ∀ i < D.n, s i ^ 2 = D.wt i) ∧
    firstOls D k = fitOls D.n D.k0 k (fun i => D.y i * s i) (fun i j => D.x i j * s i) := by
  unfold firstOls
  cases hw : D.w with
  | none =>
    refine ⟨fun _ => 1, fun _ i _ => ?_, ?_⟩
    · unfold Data.wt; rw [hw]; norm_num
    · simp
  | some w =>
    refine ⟨fun i => Real.sqrt (w i), fun h i hi => ?_, rfl⟩
    have := h i hi
    unfold Data.wt at this ⊢
    rw [hw] at this ⊢
    exact Real.sq_sqrt this

/-! ## Cutoffs from shares -/

theorem cdf_quantile {S : Fns} (hS : S.Good) (law : Law) {p : ℝ} (h0 : 0 < p) (h1 : p < 1) : law.cdf (quantileOf S law p) = p := by
  cases law
  · show logistic (Real.log (p / (1 - p))) = p
    unfold logistic
    have h2 : 0 < 1 - p := by linarith
    rw [Real.exp_log (by positivity)]
    field_simp; ring
  · show gaussian (0 + 1 * Real.sqrt 2 * S.erfInv (2 * p - 1)) = p
    rw [← normalCdf_eq hS]
    unfold normalCdf
    have : Real.sqrt 2 ≠ 0 := by positivity
    rw [show (0 - (0 + 1 * Real.sqrt 2 * S.erfInv (2 * p - 1))) / (1 * Real.sqrt 2) = -S.erfInv (2 * p - 1) by field_simp; ring]
    exact erfInv_neg hS h0 h1

/-- The share of the choices up to `m`. -/
noncomputable def share (counts : ℕ → ℝ) (W : ℝ) (m : ℕ) : ℝ := ∑ i ∈ Finset.range (m + 1), counts i / W

theorem muLoop_spec (S : Fns) (law : Law) (counts : ℕ → ℝ) (W : ℝ) (m : ℕ) :
    (muLoop S law counts W m).1 = ∑ i ∈ Finset.range m, counts i / W ∧
      ∀ j < m, (muLoop S law counts W m).2 j = quantileOf S law (share counts W j) := by
  induction m with
  | zero => exact ⟨by simp [muLoop], fun j hj => by omega⟩
  | succ m ih =>
    have e : (muLoop S law counts W m).1 + counts m / W = share counts W m := by rw [ih.1, share, Finset.sum_range_succ]
    refine ⟨?_, fun j hj => ?_⟩
    · rw [muLoop]; exact e
    · rw [muLoop]
      show setAt _ m (quantileOf S law ((muLoop S law counts W m).1 + counts m / W)) j = _
      rw [e]
      unfold setAt
      split_ifs with h
      · rw [h]
      · exact ih.2 j (by omega)

theorem sumWeights_eq (D : Data) : sumWeights D = ∑ i ∈ Finset.range D.n, D.wt i := by
  unfold sumWeights
  cases hw : D.w with
  | none =>
    rw [Finset.sum_congr rfl (g := fun _ => (1 : ℝ)) (fun i _ => by unfold Data.wt; rw [hw])]
    simp
  | some w =>
    show (List.range D.n).foldl (fun a i => a + w i) 0 = _
    rw [foldl_sum, zero_add]
    exact Finset.sum_congr rfl fun i _ => by unfold Data.wt; rw [hw]

theorem totals {D : Data} {J : ℕ} (hc : ∀ i < D.n, D.cat i ≤ J) : ∑ j ∈ Finset.range (J + 1), total D.n D.wt D.cat j = ∑ i ∈ Finset.range D.n, D.wt i := by
  unfold total
  exact Finset.sum_fiberwise_of_maps_to (fun i hi => Finset.mem_range.2 (by have := hc i (Finset.mem_range.1 hi); omega)) _

section
variable {counts : ℕ → ℝ} {W : ℝ} {J : ℕ} (hpos : ∀ j ≤ J, 0 < counts j) (hW : W = ∑ j ∈ Finset.range (J + 1), counts j)
include hpos hW

theorem W_pos : 0 < W := by
  rw [hW]; exact Finset.sum_pos (fun j hj => hpos j (by have := Finset.mem_range.1 hj; omega)) ⟨0, by simp⟩

theorem share_bounds {m : ℕ} (h : m < J) : 0 < share counts W m ∧ share counts W m < 1 := by
  have hw := W_pos hpos hW
  unfold share
  rw [← Finset.sum_div]
  refine ⟨div_pos (Finset.sum_pos (fun j hj => hpos j (by have := Finset.mem_range.1 hj; omega)) ⟨0, by simp⟩) hw, ?_⟩
  rw [div_lt_one hw, hW]
  exact Finset.sum_lt_sum_of_subset (i := J) (Finset.range_mono (by omega)) (by simp) (by simp; omega) (hpos J (le_refl J))
    fun j hj _ => (hpos j (by have := Finset.mem_range.1 hj; omega)).le

theorem share_lt {a b : ℕ} (h : a < b) (hb : b < J) : share counts W a < share counts W b := by
  have hw := W_pos hpos hW
  unfold share
  exact Finset.sum_lt_sum_of_subset (i := b) (Finset.range_mono (by omega)) (by simp) (by simp; omega) (div_pos (hpos b (by omega)) hw)
    fun j hj _ => (div_pos (hpos j (by have := Finset.mem_range.1 hj; omega)) hw).le

theorem quantile_lt {S : Fns} (hS : S.Good) (law : Law) {a b : ℕ} (h : a < b) (hb : b < J) :
    quantileOf S law (share counts W a) < quantileOf S law (share counts W b) := by
  obtain ⟨a0, a1⟩ := share_bounds hpos hW (m := a) (by omega)
  obtain ⟨b0, b1⟩ := share_bounds hpos hW hb
  rw [← law.link.strictMono.lt_iff_lt, cdf_quantile hS law a0 a1, cdf_quantile hS law b0 b1]
  exact share_lt hpos hW h hb

/-- The model whose cutoffs are differences of quantiles of the shares, and whose first coefficient is minus the first quantile. -/
theorem start_facts {S : Fns} (hS : S.Good) (law : Law) {k0 : ℕ} {β : ℕ → ℝ} (hJ : 1 ≤ J)
    (hcut : ∀ j < J, cut k0 β j = quantileOf S law (share counts W j) - quantileOf S law (share counts W 0)) :
    Increasing J k0 β ∧ (β 0 = -quantileOf S law (share counts W 0) → ∀ j ≤ J, chance law.cdf J k0 β (β 0) j = counts j / W) := by
  have hw := W_pos hpos hW
  refine ⟨fun j hj => ?_, fun h0 j hj => ?_⟩
  · rw [hcut j (by omega), hcut (j + 1) hj]
    linarith [quantile_lt hpos hW hS law (Nat.lt_succ_self j) hj]
  · have G : ∀ m < J, law.cdf (cut k0 β m - β 0) = share counts W m := fun m hm => by
      rw [hcut m hm, h0, show ∀ a b : ℝ, a - b - -b = a by intros; ring]
      obtain ⟨a, b⟩ := share_bounds hpos hW hm
      exact cdf_quantile hS law a b
    unfold chance
    have split : ∀ m, share counts W (m + 1) = share counts W m + counts (m + 1) / W := fun m => by
      unfold share; rw [Finset.sum_range_succ _ (m + 1)]
    by_cases h1 : j = J
    · rw [if_pos h1, if_neg (by omega), G (j - 1) (by omega)]
      have full : share counts W J = 1 := by
        unfold share; rw [← Finset.sum_div, ← hW, div_self hw.ne']
      have := split (j - 1)
      rw [show j - 1 + 1 = j by omega, h1, full] at this
      rw [h1]; linarith
    · rw [if_neg h1, G j (by omega)]
      by_cases hj0 : j = 0
      · rw [if_pos hj0, hj0]; unfold share; simp
      · rw [if_neg hj0, G (j - 1) (by omega)]
        have := split (j - 1)
        rw [show j - 1 + 1 = j by omega] at this
        linarith
end

end Dc
end LDT
