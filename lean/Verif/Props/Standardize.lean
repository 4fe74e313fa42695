import Verif.Lemmas.Standardize
import Mathlib.Algebra.BigOperators.Field
/-!
# C129: standardizing the columns of a table
-/
namespace LDT
namespace Sd
open Mx Stat
open Arr (Val sqrtV)
open Co (part)

variable {r c : ℕ}

/-- The constructor refuses an empty table and nothing else; what it reserves. -/
theorem C129_sizes (rows cols : Int) (remove center scale : Bool) :
    (Std.make rows cols remove center scale = .throws ↔ (rows ≤ 0 ∨ cols ≤ 0)) ∧
    (0 < rows → 0 < cols → ∃ s, Std.make rows cols remove center scale = .ok s ∧ s.center = center ∧ s.scale = scale ∧
      s.removeZeroVar = (remove && scale) ∧ s.sample = true ∧ s.checkNan = false ∧
      s.storageSize = cols * (rows + (if center then 1 else 0) + (if scale then 1 else 0))) := by
  unfold Std.make
  refine ⟨⟨fun h => ?_, fun h => if_pos (by omega)⟩, fun h1 h2 => ?_⟩
  · by_contra hn
    rw [if_neg (by omega)] at h; cases h
  · rw [if_neg (by omega)]
    refine ⟨_, rfl, rfl, rfl, ?_, rfl, rfl, ?_⟩
    · cases scale <;> cases remove <;> rfl
    · cases center <;> cases scale <;> simp <;> ring

theorem bind_inv {α β : Type} {x : Outcome α} {f : α → Outcome β} {b : β} (h : (x >>= f) = .ok b) :
    ∃ a, x = .ok a ∧ f a = .ok b := by
  cases x with
  | ok a => exact ⟨a, rfl, h⟩
  | throws => cases h
  | ub => cases h
  | diverges => cases h

theorem read_lt {α : Type} {l : List α} {k : Int} {v : α} (h : Mx.read l k = .ok v) : k < l.length := by
  unfold Mx.read at h
  by_cases h0 : 0 ≤ k
  · rw [if_pos h0] at h
    by_contra hn
    rw [List.getElem?_eq_none (by omega)] at h; cases h
  · rw [if_neg h0] at h; cases h

theorem getLin_range {α : Type} {m : Mat α} {k : Int} {v : α} (h : m.getLin k = .ok v) : 0 ≤ k ∧ k < m.length := by
  unfold Mat.getLin at h
  split_ifs at h with h1 h2
  omega

/-- `RemoveColumnsIn` gives a well formed matrix. -/
theorem removed_wf {α : Type} {m res : Mat α} (w : m.Wf) {cols kept : List Int} (he : m.removeColumnsIn cols = .ok res)
    (hr : res.rows = m.rows) (hc : res.cols = kept.length)
    (hg : ∀ (i : Int) (b : Nat) (c : Int), 0 ≤ i → i < m.rows → kept[b]? = some c → res.get i b = m.get i c)
    (hin : ∀ j ∈ kept, 0 ≤ j ∧ j < m.cols) : res.Wf := by
  have h0 := w.rows_nonneg
  refine ⟨by rw [hr]; exact h0, by rw [hc]; omega, ?_, ?_⟩
  · unfold Mat.removeColumnsIn at he
    by_cases hn : cols = []
    · rw [if_pos hn] at he; cases he; exact w.alloc
    · rw [if_neg hn] at he
      obtain ⟨p, -, e2⟩ := bind_inv he
      have e3 := Outcome.ok.inj e2
      rw [← e3]
      simp [w.alloc]
  · rw [hr, hc]
    by_cases hz : m.rows = 0
    · rw [hz, zero_mul]; omega
    by_cases hk : kept.length = 0
    · rw [hk]; simp
    have hb : kept[kept.length - 1]? = some kept[kept.length - 1] := List.getElem?_eq_getElem (by omega)
    have hin' := hin kept[kept.length - 1] (List.getElem_mem _)
    have e := hg (m.rows - 1) (kept.length - 1) _ (by omega) (by omega) hb
    have hR : m.InR (m.rows - 1) kept[kept.length - 1] := ⟨by omega, by omega, hin'.1, hin'.2⟩
    obtain ⟨v, hv⟩ := get0_ok w hR
    rw [get_eq_get0 w hR, hv] at e
    have h1 := (get_inv e).2
    have h2 := read_lt h1
    rw [hr] at h2
    have h3 : ((kept.length - 1 : ℕ) : Int) = (kept.length : Int) - 1 := by omega
    rw [h3] at h2
    have h4 : m.rows - 1 + m.rows * ((kept.length : Int) - 1) = m.rows * kept.length - 1 := by ring
    rw [h4] at h2
    omega

open Classical in
theorem kept_map (remove : Bool) (v : Fin c → ℝ) (ix : List Int)
    (hix : ∀ k, k ∈ ix ↔ remove = true ∧ ∃ j : Fin c, k = ((j : ℕ) : Int) ∧ v j = 0) :
    (upTo 0 (c : Int)).filter (fun j => decide (j ∉ ix)) = (keptColumns remove v).map (fun j : Fin c => ((j : ℕ) : Int)) := by
  have h : upTo 0 (c : Int) = (List.finRange c).map (fun j : Fin c => ((j : ℕ) : Int)) := by
    unfold upTo
    rw [show ((c : Int) - 0).toNat = c by omega, ← List.map_coe_finRange_eq_range, List.map_map]
    refine List.map_congr_left fun j _ => ?_
    simp
  rw [h, List.filter_map]
  unfold keptColumns
  congr 1
  refine List.filter_congr fun j _ => ?_
  simp only [Function.comp_apply, decide_eq_decide, hix]
  constructor
  · intro hn hr hv; exact hn ⟨hr, j, rfl, hv⟩
  · rintro hn ⟨hr, j', hj, hv⟩
    have : j' = j := Fin.ext (by exact_mod_cast hj.symm)
    subst this; exact hn hr hv

open Classical in
/-- The removal of the columns without variance. -/
theorem drop0_ok {s : Std} {om ov : Option (Fin c → ℝ)} {M : Fin r → Fin c → ℝ} {t : StdStep ℝ}
    (hb : Branched s om ov M t) :
    ∃ res, drop0 s t = .ok res ∧ res.means = t.means ∧ res.vars = t.vars ∧ res.result.Wf ∧ res.result.rows = r ∧
      res.result.cols = (keptColumns (s.scale && s.removeZeroVar) (spread s.sample ov M)).length ∧
      (∀ (i : Fin r) (b : ℕ) (j : Fin c), (keptColumns (s.scale && s.removeZeroVar) (spread s.sample ov M))[b]? = some j →
        res.result.get (i : ℕ) b = .ok (standardValue s.scale (shift s.center om M j) (spread s.sample ov M j) (M i j))) ∧
      res.removed.Pairwise (· < ·) ∧
      ∀ k, k ∈ res.removed ↔ (s.scale && s.removeZeroVar) = true ∧ ∃ j : Fin c, k = ((j : ℕ) : Int) ∧ spread s.sample ov M j = 0 := by
  by_cases hf : (s.scale && s.removeZeroVar) = true
  · have hsc : s.scale = true := by rw [Bool.and_eq_true] at hf; exact hf.1
    have hu := hb.use
    rw [if_pos hsc] at hu
    rcases holdsOpt_cases hu with ⟨-, h⟩ | ⟨v, w, hv1, hv2, hv⟩
    · cases h
    cases hv2
    obtain ⟨found, e1, hp, hm⟩ := C64_indices v hv.wf (some 0) []
    rw [List.nil_append] at e1
    have hm' : ∀ k, k ∈ found ↔ (s.scale && s.removeZeroVar) = true ∧ ∃ j : Fin c, k = ((j : ℕ) : Int) ∧ spread s.sample ov M j = 0 := by
      intro k
      rw [hm]
      constructor
      · intro hk
        refine ⟨hf, ?_⟩
        have hin := getLin_range hk
        rw [hv.len] at hin
        obtain ⟨n, rfl⟩ := Int.eq_ofNat_of_zero_le hin.1
        refine ⟨⟨n, by omega⟩, rfl, ?_⟩
        have := hv.cell ⟨n, by omega⟩
        rw [show (((⟨n, by omega⟩ : Fin c) : ℕ) : Int) = (n : Int) from rfl, hk] at this
        exact (Option.some.inj (Outcome.ok.inj this)).symm
      · rintro ⟨-, j, rfl, hj⟩
        rw [hv.cell j, hj]
    obtain ⟨res, e2, er, ec, eg⟩ := C43_remove_columns t.result hb.cells.wf found _ rfl
    have hk := kept_map (c := c) (s.scale && s.removeZeroVar) (spread s.sample ov M) found hm'
    have hcc := hb.cells.cols
    rw [hcc, hk] at ec eg
    refine ⟨⟨res, t.means, t.vars, found⟩, ?_, rfl, rfl, ?_, by rw [← hb.cells.rows]; exact er, by rw [ec, List.length_map], ?_, hp, hm'⟩
    · unfold drop0
      rw [hv1]; dsimp only
      rw [if_pos hf, e1, Outcome.ok_bind, e2]; rfl
    · refine removed_wf hb.cells.wf e2 er ec eg ?_
      intro j hj
      rw [List.mem_map] at hj
      obtain ⟨j', -, rfl⟩ := hj
      rw [hcc]
      exact ⟨by omega, by have := j'.2; omega⟩
    · intro i b j hj
      rw [eg (i : ℕ) b ((j : ℕ) : Int) (by omega) (by rw [hb.cells.rows]; have := i.2; omega) (by rw [List.getElem?_map, hj]; rfl)]
      exact hb.cells.cell i j
  · have hk : keptColumns (s.scale && s.removeZeroVar) (spread s.sample ov M) = List.finRange c := by
      unfold keptColumns
      rw [List.filter_eq_self]
      intro j _
      simp [hf]
    rw [hk]
    refine ⟨⟨t.result, t.means, t.vars, []⟩, ?_, rfl, rfl, hb.cells.wf, hb.cells.rows, by rw [hb.cells.cols, List.length_finRange], ?_,
      List.Pairwise.nil, fun k => ⟨fun h => (by cases h), fun h => (hf h.1).elim⟩⟩
    · unfold drop0
      cases t.useVar with
      | none => rfl
      | some v => dsimp only; rw [if_neg hf]; rfl
    · intro i b j hj
      have : (j : ℕ) = b := by
        rw [List.getElem?_eq_some_iff] at hj
        obtain ⟨hlt, e⟩ := hj
        rw [← e, List.getElem_finRange]; rfl
      rw [← this]
      exact hb.cells.cell i j

/-- What `Calculate` reports: the standardized cells of the kept columns, the means and variances it had to compute, and the indexes of
the removed columns. -/
structure Reports (s : Std) (om ov : Option (Fin c → ℝ)) (M : Fin r → Fin c → ℝ) (res : StdRes ℝ) : Prop where
  wf : res.result.Wf
  rows : res.result.rows = r
  cols : res.result.cols = (keptColumns (s.scale && s.removeZeroVar) (spread s.sample ov M)).length
  cell : ∀ (i : Fin r) (b : ℕ) (j : Fin c), (keptColumns (s.scale && s.removeZeroVar) (spread s.sample ov M))[b]? = some j →
    res.result.get (i : ℕ) b = .ok (standardValue s.scale (shift s.center om M j) (spread s.sample ov M j) (M i j))
  means : HoldsOpt res.means (if s.center = true ∧ om.isNone then some (colMean M) else none)
  vars : HoldsOpt res.vars (if s.scale = true ∧ ov.isNone then some (colVar s.sample M) else none)
  removedSorted : res.removed.Pairwise (· < ·)
  removed : ∀ k, k ∈ res.removed ↔ (s.scale && s.removeZeroVar) = true ∧ ∃ j : Fin c, k = ((j : ℕ) : Int) ∧ spread s.sample ov M j = 0

/-- The cells that `Calculate` needs for an `r x c` table. -/
def need (s : Std) (r c : ℕ) : Int := (r : Int) * c + (if s.center then (c : Int) else 0) + (if s.scale then (c : Int) else 0)

open Classical in
/-- `Calculate` of a table of numbers with at least two rows (one row will do if all means and variances that are needed are given), in an
array of the announced size, with any choice of given means and given variances. -/
theorem C129_calculate (s : Std) (hn : s.checkNan = false) (hr : 0 < r) (hc : 0 < c) (A : Mat (Val ℝ)) (M : Fin r → Fin c → ℝ)
    (h : Holds A M) (storage : List (Val ℝ)) (hst : (storage.length : Int) = s.storageSize) (hfit : need s r c ≤ s.storageSize)
    (aom aov : Option (Mat (Val ℝ))) (om ov : Option (Fin c → ℝ)) (hm : HoldsOpt aom om) (hv : HoldsOpt aov ov)
    (h2 : 2 ≤ r ∨ ((s.center = true → om.isSome) ∧ (s.scale = true → ov.isSome))) :
    ∃ res, s.calculate rsqrt A storage aom aov = .ok res ∧ Reports s om ov M res := by
  have hlen : (r : Int) * c + (if s.center then (c : Int) else 0) + (if s.scale then (c : Int) else 0) ≤ storage.length := by
    rw [hst]; exact hfit
  have hcast : ((r * c : ℕ) : Int) = (r : Int) * c := by push_cast; rfl
  have hlen' : r * c + (if s.center then c else 0) + (if s.scale then c else 0) ≤ storage.length := by
    rw [← hcast] at hlen
    split_ifs at hlen ⊢ <;> omega
  obtain ⟨t0, et0, -⟩ : ∃ t0, Std.make A.rows A.cols s.removeZeroVar s.center s.scale = .ok t0 ∧ t0.storageSize = need s r c := by
    unfold Std.make
    rw [h.rows, h.cols, if_neg (by omega)]
    exact ⟨_, rfl, rfl⟩
  have wst : (⟨A.rows, A.cols, some (part storage 0 (A.rows * A.cols))⟩ : Mat (Val ℝ)).Wf := by
    refine ⟨h.wf.rows_nonneg, h.wf.cols_nonneg, rfl, ?_⟩
    show A.rows * A.cols ≤ ((part storage 0 (A.rows * A.cols)).length : Int)
    rw [h.rows, h.cols, ← hcast]
    unfold part
    rw [List.length_take, List.length_drop]
    omega
  obtain ⟨R, eR, sR, gR⟩ := copyTo00_spec A _ h.wf wst rfl rfl
  have hR : Holds R M := ⟨sR.wf wst, by rw [sR.rows]; exact h.rows, by rw [sR.cols]; exact h.cols,
    fun i j => by rw [gR _ _ (h.inR i j)]; exact h.cell i j⟩
  obtain ⟨t, et, hb⟩ := branch_ok s hn hR storage (r * c) hlen' hm hv h2
  obtain ⟨res, er, e1, e2, w, e3, e4, e5, e6, e7⟩ := drop0_ok hb
  refine ⟨res, ?_, w, e3, e4, e5, by rw [e1]; exact hb.means, by rw [e2]; exact hb.vars, e6, e7⟩
  unfold Std.calculate
  have et1 : t0.storageSize = need s r c := by
    unfold Std.make at et0
    rw [h.rows, h.cols, if_neg (by omega)] at et0
    rw [← Outcome.ok.inj et0]; rfl
  rw [et0, Outcome.ok_bind, if_neg (by rw [et1]; omega), eR, Outcome.ok_bind, h.rows, h.cols, ← hcast, et, Outcome.ok_bind]
  exact er

/-- A table larger than the object was made for, or empty, is refused. -/
theorem C129_refused (s : Std) (A : Mat (Val ℝ)) (storage : List (Val ℝ)) (aom aov : Option (Mat (Val ℝ))) (R C : ℕ)
    (hr : A.rows = R) (hcl : A.cols = C) (h : R = 0 ∨ C = 0 ∨ s.storageSize < need s R C) :
    open Classical in s.calculate rsqrt A storage aom aov = .throws := by
  unfold Std.calculate Std.make
  rw [hr, hcl]
  by_cases h0 : R = 0 ∨ C = 0
  · rw [if_pos (by omega)]; rfl
  · rw [if_neg (by omega), Outcome.ok_bind, if_pos]
    have : s.storageSize < need s R C := by omega
    exact this

/-- Centred and scaled by its own means and variances, every kept column has mean 0 and variance 1 and no NaN; the removed columns are
exactly the constant ones. -/
theorem C129_moments (s : Std) (hc : s.center = true) (hs : s.scale = true) (hr : s.removeZeroVar = true) (h2 : 2 ≤ r)
    (M : Fin r → Fin c → ℝ) (res : StdRes ℝ) (h : Reports s none none M res) :
    (∃ Z : Fin r → Fin res.result.cols.toNat → ℝ, Holds res.result Z ∧ ∀ b, colMean Z b = 0 ∧ colVar s.sample Z b = 1) ∧
    ∀ j : Fin c, ((j : ℕ) : Int) ∈ res.removed ↔ ∀ i i', M i j = M i' j := by
  have hd := divisor_pos h2 s.sample
  have hr0 : (0 : ℝ) < r := by have : (2 : ℝ) ≤ r := by exact_mod_cast h2
                               linarith
  have hkeep : ∀ j, j ∈ keptColumns true (colVar s.sample M) ↔ 0 < colVar s.sample M j := by
    intro j
    unfold keptColumns
    rw [List.mem_filter]
    simp only [List.mem_finRange, true_and, decide_eq_true_eq, forall_true_left]
    exact ⟨fun h => lt_of_le_of_ne (colVar_nonneg h2 _ _ _) (Ne.symm h), fun h => h.ne'⟩
  have hsp : spread s.sample none M = colVar s.sample M := rfl
  constructor
  · have hcols := h.cols
    rw [hs, hr, hsp] at hcols
    change res.result.cols = ((keptColumns true (colVar s.sample M)).length : Int) at hcols
    have hl : res.result.cols.toNat = (keptColumns true (colVar s.sample M)).length := by omega
    set K := keptColumns true (colVar s.sample M) with hK
    refine ⟨fun i b => (M i (K[(b : ℕ)]'(by rw [← hl]; exact b.2)) - colMean M (K[(b : ℕ)]'(by rw [← hl]; exact b.2))) /
      Real.sqrt (colVar s.sample M (K[(b : ℕ)]'(by rw [← hl]; exact b.2))), ⟨h.wf, h.rows, by rw [hl]; exact hcols, fun i b => ?_⟩, fun b => ?_⟩
    · have hb : (b : ℕ) < K.length := by rw [← hl]; exact b.2
      have hcell := h.cell i b (K[(b : ℕ)]'hb) (by
        rw [hs, hr, hsp]; exact List.getElem?_eq_getElem hb)
      rw [hcell, hs, hc, hsp]
      unfold standardValue shift
      rw [if_pos rfl, if_pos rfl, if_pos ((hkeep _).1 (List.getElem_mem hb))]
      rfl
    · have hb : (b : ℕ) < K.length := by rw [← hl]; exact b.2
      generalize hj : K[(b : ℕ)]'hb = j
      have hv : 0 < colVar s.sample M j := (hkeep j).1 (by rw [← hj]; exact List.getElem_mem hb)
      have hq := Real.sqrt_pos.2 hv
      have hmean : colMean (fun i (b : Fin res.result.cols.toNat) => (M i (K[(b : ℕ)]'(by rw [← hl]; exact b.2)) -
          colMean M (K[(b : ℕ)]'(by rw [← hl]; exact b.2))) / Real.sqrt (colVar s.sample M (K[(b : ℕ)]'(by rw [← hl]; exact b.2)))) b = 0 := by
        unfold colMean
        simp only [hj]
        rw [← Finset.sum_div, Finset.sum_sub_distrib, Finset.sum_const, Finset.card_univ, Fintype.card_fin, nsmul_eq_mul]
        rw [mul_div_cancel₀ _ hr0.ne', sub_self, zero_div, zero_div]
      refine ⟨hmean, ?_⟩
      rw [colVar, hmean]
      simp only [hj, sub_zero, div_pow, Real.sq_sqrt hv.le]
      rw [← Finset.sum_div]
      have e : (∑ i, (M i j - colMean M j) ^ 2) = colVar s.sample M j * (if s.sample = true then (r : ℝ) - 1 else r) := by
        unfold colVar; rw [div_mul_cancel₀ _ hd.ne']
      rw [e]
      rw [mul_div_cancel_left₀ _ hv.ne', div_self hd.ne']
  · intro j
    rw [h.removed, hs, hr, hsp]
    have hz : colVar s.sample M j = 0 ↔ ∀ i i', M i j = M i' j := by
      unfold colVar
      rw [div_eq_zero_iff, or_iff_left hd.ne', Finset.sum_eq_zero_iff_of_nonneg (fun _ _ => sq_nonneg _)]
      constructor
      · intro hz i i'
        have a := pow_eq_zero_iff (two_ne_zero) |>.1 (hz i (Finset.mem_univ _))
        have b := pow_eq_zero_iff (two_ne_zero) |>.1 (hz i' (Finset.mem_univ _))
        linarith
      · intro hz i _
        have : colMean M j = M i j := by
          unfold colMean
          rw [Finset.sum_congr rfl (fun i' _ => hz i' i), Finset.sum_const, Finset.card_univ, Fintype.card_fin, nsmul_eq_mul,
            mul_div_cancel_left₀ _ hr0.ne']
        rw [this, sub_self]; norm_num
    rw [← hz]
    constructor
    · rintro ⟨-, j', hj, hv⟩
      have : j = j' := Fin.ext (by exact_mod_cast hj)
      rw [this]; exact hv
    · intro hv; exact ⟨rfl, j, rfl, hv⟩

/-- A second table standardized with the means and variances reported for the first one keeps the same columns and gets the same affine
map: a row that occurs in both tables is the same in both results. -/
theorem C129_same_map {r' : ℕ} (s s' : Std) (hc : s'.center = s.center) (hs : s'.scale = s.scale) (hr : s'.removeZeroVar = s.removeZeroVar)
    (M : Fin r → Fin c → ℝ) (M' : Fin r' → Fin c → ℝ) (res res' : StdRes ℝ) (h : Reports s none none M res)
    (h' : Reports s' (if s.center then some (colMean M) else none) (if s.scale then some (colVar s.sample M) else none) M' res') :
    res'.result.cols = res.result.cols ∧ res'.removed = res.removed ∧
    ∀ (i : Fin r) (i' : Fin r') (b : ℕ), (b : Int) < res.result.cols → M i = M' i' →
      res'.result.get (i' : ℕ) b = res.result.get (i : ℕ) b := by
  have hsp : s.scale = true → spread s'.sample (if s.scale then some (colVar s.sample M) else none) M' = spread s.sample none M := by
    intro h; rw [if_pos h]; rfl
  have hsh : ∀ j, shift s'.center (if s.center then some (colMean M) else none) M' j = shift s.center none M j := by
    intro j; unfold shift; rw [hc]
    by_cases hcc : s.center = true
    · rw [if_pos hcc, if_pos hcc, if_pos hcc]; rfl
    · rw [if_neg hcc, if_neg hcc]
  have hkeep : keptColumns (s'.scale && s'.removeZeroVar) (spread s'.sample (if s.scale then some (colVar s.sample M) else none) M') =
      keptColumns (s.scale && s.removeZeroVar) (spread s.sample none M) := by
    rw [hs, hr]
    by_cases hsc : s.scale = true
    · rw [hsp hsc]
    · have : s.scale = false := by simpa using hsc
      unfold keptColumns
      refine List.filter_congr fun j _ => ?_
      simp [this]
  refine ⟨by rw [h.cols, h'.cols, hkeep], ?_, ?_⟩
  · have hmem : ∀ k, k ∈ res'.removed ↔ k ∈ res.removed := by
      intro k
      rw [h.removed, h'.removed, hs, hr]
      by_cases hsc : s.scale = true
      · rw [hsp hsc]
      · have : s.scale = false := by simpa using hsc
        simp [this]
    have n1 : res'.removed.Nodup := h'.removedSorted.imp (fun h => h.ne)
    have n2 : res.removed.Nodup := h.removedSorted.imp (fun h => h.ne)
    exact List.Perm.eq_of_pairwise (le := fun a b => a < b) (fun a b _ _ hab hba => absurd hab (not_lt.2 hba.le)) h'.removedSorted
      h.removedSorted ((List.perm_ext_iff_of_nodup n1 n2).2 hmem)
  · intro i i' b hb hM
    rw [h.cols] at hb
    have hb' : b < (keptColumns (s.scale && s.removeZeroVar) (spread s.sample none M)).length := by exact_mod_cast hb
    obtain ⟨j, hj⟩ : ∃ j, (keptColumns (s.scale && s.removeZeroVar) (spread s.sample none M))[b]? = some j :=
      ⟨_, List.getElem?_eq_getElem hb'⟩
    rw [h.cell i b _ hj, h'.cell i' b _ (by rw [hkeep]; exact hj), hs, hsh, hM]
    by_cases hsc : s.scale = true
    · rw [hsp hsc]
    · have : s.scale = false := by simpa using hsc
      rw [this]; rfl

open Classical in
/-- "The standardized data of a table of numbers are numbers": false for a table with one row - with scaling the variance, and so every
cell, is NaN, and the column is not removed (the variance is not 0). -/
theorem C129_one_row_violated (center : Bool) (x : ℝ) :
    ∃ (s : Std) (res : StdRes ℝ), Std.make 1 1 true center true = .ok s ∧ Holds ⟨1, 1, some [some x]⟩ (fun (_ _ : Fin 1) => x) ∧
      s.calculate rsqrt ⟨1, 1, some [some x]⟩ [none, none, none] none none = .ok res ∧ res.result.get 0 0 = .ok none ∧ res.removed = [] := by
  have hh : Holds ⟨1, 1, some [some x]⟩ (fun (_ _ : Fin 1) => x) :=
    ⟨wf_mk 1 1 _ rfl, rfl, rfl, fun i j => by fin_cases i; fin_cases j; rfl⟩
  cases center
  · refine ⟨_, ⟨⟨1, 1, some [none]⟩, none, some ⟨1, 1, some [none]⟩, []⟩, rfl, hh, ?_, rfl, rfl⟩
    · simp [Std.calculate, Std.make, Mat.copyTo00, Mat.length, upTo, branch, onlyScale, Mat.columnsVariances, slot, Mat.viewVariance,
        Mat.variance, Mat.colView, fillFrom, countFrom, Mat.columnsStandard, Mat.mapColumn, scaleCell, drop0, Mat.indicesOf, isValue,
        Mat.removeColumnsIn, Mx.read, write, Mat.mem, part, List.foldlM, vdiv, rsqrt, Outcome.ok_bind]
  · refine ⟨_, ⟨⟨1, 1, some [none]⟩, some ⟨1, 1, some [some x]⟩, some ⟨1, 1, some [none]⟩, []⟩, rfl, hh, ?_, rfl, rfl⟩
    · simp [Std.calculate, Std.make, Mat.copyTo00, Mat.length, upTo, branch, both, Mat.columnsMeansVariances, slot, Mat.viewVariance,
        Mat.variance, Mat.colView, fillFrom, countFrom, Mat.columnsStandard, Mat.mapColumn, scaleCell, drop0, Mat.indicesOf, isValue,
        Mat.removeColumnsIn, Mx.read, write, Mat.mem, part, List.foldlM, vdiv, rsqrt, Outcome.ok_bind]

/-- The hypotheses are met: a table with a constant column; that column is removed and the other one becomes -1/√2, 1/√2. -/
example : ∃ (s : Std) (A : Mat (Val ℝ)) (M : Fin 2 → Fin 2 → ℝ) (res : StdRes ℝ), Std.make 2 2 true true true = .ok s ∧ Holds A M ∧
    (open Classical in s.calculate rsqrt A (List.replicate 8 none) none none = .ok res) ∧ Reports s none none M res ∧
    ((1 : Int) ∈ res.removed) ∧ (0 : Int) ∉ res.removed := by
  set M : Fin 2 → Fin 2 → ℝ := fun i j => if j = 0 then (if i = 0 then 0 else 2) else 5 with hM
  have hh : Holds ⟨2, 2, some [some 0, some 2, some 5, some 5]⟩ M := by
    refine ⟨wf_mk 2 2 _ rfl, rfl, rfl, fun i j => ?_⟩
    fin_cases i <;> fin_cases j <;> rfl
  obtain ⟨s, es, h1, h2, h3, h4, h5, h6⟩ := (C129_sizes 2 2 true true true).2 (by norm_num) (by norm_num)
  obtain ⟨res, e, rep⟩ := C129_calculate s h5 (by norm_num) (by norm_num) _ M hh (List.replicate 8 none)
    (by rw [h6]; rfl) (by rw [h6]; unfold need; rw [h1, h2]; norm_num) none none none none trivial trivial (Or.inl (le_refl 2))
  have hm := (C129_moments s h1 h2 (by rw [h3]; rfl) (le_refl 2) M res rep).2
  refine ⟨s, _, M, res, es, hh, e, rep, (hm 1).2 ?_, fun hc => ?_⟩
  · intro i i'; simp [hM]
  · have := (hm 0).1 hc 0 1
    norm_num [hM] at this

end Sd
end LDT
