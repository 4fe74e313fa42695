import Verif.Lemmas.Pca
/-!
# The steps of the principal component analysis
-/
namespace LDT
namespace Pc
open Mx Sd
open Arr (Val)
open Co (part)
open Ls (dotTr0 IsM Sized isM_of_cells dotTr0_isM sized_part)

variable {r c k : ℕ}

/-- No column that is to be scaled has the variance 0, or such columns are removed. -/
def Scalable (remove scale : Bool) (M : Fin r → Fin c → ℝ) : Prop :=
  scale = true → remove = true ∨ ∀ j, colVar true M j ≠ 0

theorem width_le (remove scale : Bool) (M : Fin r → Fin c → ℝ) : width remove scale M ≤ c := by
  unfold width keptColumns
  have := List.length_filter_le (fun j => open Classical in decide ((scale && remove) = true → colVar true M j ≠ 0)) (List.finRange c)
  rw [List.length_finRange] at this
  exact this

theorem width_all (remove : Bool) (M : Fin r → Fin c → ℝ) : width remove false M = c := by
  unfold width keptColumns
  rw [List.filter_eq_self.2 (by intro j _; simp), List.length_finRange]

theorem kept_pos (h2 : 2 ≤ r) {remove scale : Bool} {M : Fin r → Fin c → ℝ} (hs : Scalable remove scale M) (hsc : scale = true) (j : Fin c)
    (hj : j ∈ keptColumns (scale && remove) (colVar true M)) : 0 < colVar true M j := by
  refine lt_of_le_of_ne (colVar_nonneg h2 _ _ _) (Ne.symm ?_)
  rcases hs hsc with h | h
  · unfold keptColumns at hj
    rw [List.mem_filter] at hj
    have := hj.2
    rw [hsc, h] at this
    simpa using this
  · exact h j

/-- The standardized table (of the data or of other rows), as numbers. -/
theorem reports_holds (h2 : 2 ≤ r) {n : ℕ} {s : Std} {M : Fin r → Fin c → ℝ} {N : Fin n → Fin c → ℝ} {om ov : Option (Fin c → ℝ)}
    {remove center scale : Bool} (hrm : (s.scale && s.removeZeroVar) = (scale && remove)) (hce : s.center = center) (hsc : s.scale = scale)
    (hok : Scalable remove scale M)
    (hsh : ∀ j, shift center om N j = if center then colMean M j else 0) (hsp : scale = true → spread s.sample ov N = colVar true M)
    {res : StdRes ℝ} (h : Reports s om ov N res) : Holds res.result (analysed remove center scale M N) := by
  have hk : keptColumns (s.scale && s.removeZeroVar) (spread s.sample ov N) = keptColumns (scale && remove) (colVar true M) := by
    rw [hrm]
    by_cases hs : scale = true
    · rw [hsp hs]
    · have : scale = false := by simpa using hs
      unfold keptColumns
      refine List.filter_congr fun j _ => ?_
      simp [this]
  refine ⟨h.wf, h.rows, by rw [h.cols, hk]; rfl, fun i b => ?_⟩
  have hj := List.getElem?_eq_getElem b.2
  rw [h.cell i b _ (by rw [hk]; exact hj), hce, hsc]
  unfold analysed standardValue
  dsimp only
  rw [hsh]
  by_cases hs : scale = true
  · have hpos := kept_pos h2 hok hs ((keptColumns (scale && remove) (colVar true M))[(b : ℕ)]'b.2) (List.getElem_mem _)
    have e := congrFun (hsp hs) ((keptColumns (scale && remove) (colVar true M))[(b : ℕ)]'b.2)
    rw [e, if_pos hs, if_pos hpos, if_pos hs]
  · rw [if_neg hs, if_neg hs, div_one]

/-- The object: which flags, and for which sizes it was made. -/
structure Made (o : Pca) (R C F : ℕ) (doPCs remove center scale : Bool) : Prop where
  doPcs : o.doPcs = doPCs
  std : if (center || scale) = true then ∃ d, o.dataS = some d ∧ d.center = center ∧ d.scale = scale ∧ d.removeZeroVar = (scale && remove) ∧
      d.sample = true ∧ d.checkNan = false ∧
      d.storageSize = (R : Int) * C + (if center then (C : Int) else 0) + (if scale then (C : Int) else 0)
    else o.dataS = none
  storage : o.storageSize = (C : Int) * C + min (R : Int) C * 2 +
    (if (center || scale) = true then (R : Int) * C + (if center then (C : Int) else 0) + (if scale then (C : Int) else 0) else 0) +
    (F : Int) * C + (if doPCs then (R : Int) * C else 0)
  work : o.workSize = (if (center || scale) = true ∧ 0 < F then
      max ((R : Int) * C + 2 * max (3 * min (R : Int) C + max (R : Int) C) (5 * min (R : Int) C))
        ((F : Int) * C + (if center then (C : Int) else 0) + (if scale then (C : Int) else 0))
    else (R : Int) * C + 2 * max (3 * min (R : Int) C + max (R : Int) C) (5 * min (R : Int) C) +
      (if (center || scale) = true then 0 else (R : Int) * C))

theorem make_ok (R C F : ℕ) (hR : 0 < R) (hC : 0 < C) (doPCs remove center scale : Bool) :
    ∃ o, Pca.make (R : Int) (C : Int) (F : Int) doPCs remove center scale = .ok o ∧ Made o R C F doPCs remove center scale := by
  have hF : (if (F : Int) > 0 then (F : Int) * C else 0) = (F : Int) * C := by
    by_cases h : (F : Int) > 0
    · rw [if_pos h]
    · rw [if_neg h]
      have : (F : Int) = 0 := by omega
      rw [this, zero_mul]
  have hsv : Svd.make (R : Int) (C : Int) = .ok ⟨min (R : Int) C + (C : Int) * C,
      (R : Int) * C + 2 * max (3 * min (R : Int) C + max (R : Int) C) (5 * min (R : Int) C),
      2 * max (3 * min (R : Int) C + max (R : Int) C) (5 * min (R : Int) C)⟩ := if_neg (by omega)
  unfold Pca.make
  dsimp only
  rw [hsv, Outcome.ok_bind]
  dsimp only
  by_cases hcs : (center || scale) = true
  · have hst : ∀ (n : ℕ) z, 0 < n → Std.make (n : Int) (C : Int) z center scale = .ok
        { removeZeroVar := if scale then z else false, center := center, scale := scale,
          storageSize := (n : Int) * C + (if center then (C : Int) else 0) + (if scale then (C : Int) else 0) } := by
      intro n z hn; exact if_neg (by omega)
    have hrz : (if scale then (if scale then remove else false) else false) = (scale && remove) := by cases scale <;> rfl
    rw [if_pos hcs, hst R _ hR]
    by_cases hf : 0 < F
    · have hw : ∀ z w, forecastWork (F : Int) (C : Int) z center scale w =
          pure (max w ((F : Int) * C + (if center then (C : Int) else 0) + (if scale then (C : Int) else 0))) := by
        intro z w
        unfold forecastWork
        rw [if_pos ⟨by omega, hcs⟩, hst F _ hf]; rfl
      simp only [hw]
      refine ⟨_, rfl, rfl, ?_, ?_, ?_⟩
      · rw [if_pos hcs]; exact ⟨_, rfl, rfl, rfl, hrz, rfl, rfl, rfl⟩
      · rw [if_pos hcs]; dsimp only; rw [hF]
      · rw [if_pos (show (center || scale) = true ∧ 0 < F from ⟨hcs, hf⟩)]; dsimp only; rw [add_zero]
    · have hw : ∀ z w, forecastWork (F : Int) (C : Int) z center scale w = pure w := fun z w => if_neg (by omega)
      simp only [hw]
      refine ⟨_, rfl, rfl, ?_, ?_, ?_⟩
      · rw [if_pos hcs]; exact ⟨_, rfl, rfl, rfl, hrz, rfl, rfl, rfl⟩
      · rw [if_pos hcs]; dsimp only; rw [hF]
      · rw [if_neg (show ¬ ((center || scale) = true ∧ 0 < F) from fun h => hf h.2), if_pos hcs]
  · rw [if_neg hcs]
    have hw : ∀ z w, forecastWork (F : Int) (C : Int) z center scale w = pure w := fun z w => if_neg (fun h => hcs h.2)
    simp only [hw]
    refine ⟨_, rfl, rfl, ?_, ?_, ?_⟩
    · rw [if_neg hcs]
    · rw [if_neg hcs]; dsimp only; rw [hF]
    · rw [if_neg (show ¬ ((center || scale) = true ∧ 0 < F) from fun h => hcs h.1), if_neg hcs]

theorem Made.storage_mono {o t : Pca} {R C F r c f : ℕ} {doPCs remove center scale : Bool} (h : Made o R C F doPCs remove center scale)
    (ht : Made t r c f doPCs remove center scale) (h1 : r ≤ R) (h2 : c ≤ C) (h3 : f ≤ F) : t.storageSize ≤ o.storageSize := by
  rw [h.storage, ht.storage]
  have a1 : (c : Int) * c ≤ (C : Int) * C := by exact_mod_cast Nat.mul_le_mul h2 h2
  have a2 : (r : Int) * c ≤ (R : Int) * C := by exact_mod_cast Nat.mul_le_mul h1 h2
  have a3 : (f : Int) * c ≤ (F : Int) * C := by exact_mod_cast Nat.mul_le_mul h3 h2
  generalize (c : Int) * c = x1 at *; generalize (C : Int) * C = x2 at *; generalize (r : Int) * c = x3 at *
  generalize (R : Int) * C = x4 at *; generalize (f : Int) * c = x5 at *; generalize (F : Int) * C = x6 at *
  cases center <;> cases scale <;> cases doPCs <;> simp only [Bool.or_false, Bool.or_true, Bool.or_self, Bool.false_or, Bool.true_or,
    Bool.false_eq_true, if_true, if_false] <;> omega

theorem Made.work_mono {o t : Pca} {R C F r c f : ℕ} {doPCs doPCs' remove center scale : Bool} (h : Made o R C F doPCs remove center scale)
    (ht : Made t r c f doPCs' remove center scale) (h1 : r ≤ R) (h2 : c ≤ C) (h3 : f ≤ F) : t.workSize ≤ o.workSize := by
  rw [h.work, ht.work]
  have a2 : (r : Int) * c ≤ (R : Int) * C := by exact_mod_cast Nat.mul_le_mul h1 h2
  have a3 : (f : Int) * c ≤ (F : Int) * C := by exact_mod_cast Nat.mul_le_mul h3 h2
  generalize (r : Int) * c = x3 at *
  generalize (R : Int) * C = x4 at *; generalize (f : Int) * c = x5 at *; generalize (F : Int) * C = x6 at *
  by_cases hf : 0 < f
  · have hF : 0 < F := by omega
    cases center <;> cases scale <;> simp only [Bool.or_false, Bool.or_true, Bool.or_self, Bool.false_or, Bool.true_or,
      Bool.false_eq_true, if_true, if_false, true_and, false_and, hf, hF] <;> omega
  · by_cases hF : 0 < F
    · cases center <;> cases scale <;> simp only [Bool.or_false, Bool.or_true, Bool.or_self, Bool.false_or, Bool.true_or,
        Bool.false_eq_true, if_true, if_false, true_and, false_and, hf, hF] <;> omega
    · cases center <;> cases scale <;> simp only [Bool.or_false, Bool.or_true, Bool.or_self, Bool.false_or, Bool.true_or,
        Bool.false_eq_true, if_true, if_false, true_and, false_and, hf, hF] <;> omega

/-- The analysed matrix and where it is. -/
structure UseOk (o : Pca) (remove center scale : Bool) (M : Fin r → Fin c → ℝ) (u : Used) : Prop where
  mat : IsM u.mat (analysed remove center scale M M : Matrix (Fin r) (Fin (width remove scale M)) ℝ)
  std : if (center || scale) = true then ∃ d res, o.dataS = some d ∧ u.dataS = some res ∧ Reports d none none M res
    else u.dataS = none
  q : u.q = match o.dataS with | some d => d.storageSize | none => 0
  p : u.p = match o.dataS with | some _ => 0 | none => (r : Int) * c

theorem map_some_len (l : List ℝ) : (l.map some : List (Val ℝ)).length = l.length := List.length_map _

theorem part_len (l : List ℝ) (n : ℕ) (h : n ≤ l.length) : (part l 0 (n : Int)).length = n := by
  unfold part
  rw [List.length_take, List.length_drop]
  simp
  exact h

theorem use_ok {o : Pca} {R C F : ℕ} {doPCs remove center scale : Bool} (h : Made o R C F doPCs remove center scale) (h2 : 2 ≤ r) (hc : 0 < c)
    (hrR : r ≤ R) (hcC : c ≤ C) {A : Mat (Val ℝ)} {M : Fin r → Fin c → ℝ} (hA : Holds A M) (hok : Scalable remove scale M)
    (work storage : List ℝ) (hst : (storage.length : Int) = o.storageSize) (hwk : (work.length : Int) = o.workSize) :
    ∃ u, o.use A work storage = .ok u ∧ UseOk o remove center scale M u := by
  have a2 : (r : Int) * c ≤ (R : Int) * C := by exact_mod_cast Nat.mul_le_mul hrR hcC
  have a1 : (0 : Int) ≤ (C : Int) * C := by positivity
  have a3 : (0 : Int) ≤ (F : Int) * C := by positivity
  have a4 : (0 : Int) ≤ (R : Int) * C := by positivity
  unfold Pca.use
  by_cases hcs : (center || scale) = true
  · have hd := h.std
    rw [if_pos hcs] at hd
    obtain ⟨d, e1, e2, e3, e4, e5, e6, e7⟩ := hd
    rw [e1]
    dsimp only
    have hds : d.storageSize ≤ storage.length := by
      rw [hst, h.storage, if_pos hcs, e7]
      have : (0 : Int) ≤ if doPCs = true then (R : Int) * C else 0 := by split_ifs <;> omega
      have : (0 : Int) ≤ min (R : Int) C := by omega
      omega
    have hd0 : 0 ≤ d.storageSize := by rw [e7]; split_ifs <;> omega
    obtain ⟨n, hn⟩ := Int.eq_ofNat_of_zero_le hd0
    obtain ⟨res, er, rep⟩ := C129_calculate d e6 (by omega) hc A M hA ((part storage 0 d.storageSize).map some) (by
        rw [map_some_len, hn, part_len _ _ (by omega)]) (by
        unfold need
        rw [e2, e3, e7]
        split_ifs <;> omega) none none none none trivial trivial (Or.inl h2)
    have hH : Holds res.result (analysed remove center scale M M) := by
      refine reports_holds h2 ?_ e2 e3 hok ?_ ?_ rep
      · rw [e3, e4]; cases scale <;> rfl
      · intro j; unfold shift; rfl
      · intro _; rw [e5]; rfl
    obtain ⟨x, ex, ix⟩ := numbersOf_ok hH
    refine ⟨⟨x, some res, d.storageSize, 0⟩, ?_, ix, ?_, ?_, ?_⟩
    · rw [er, Outcome.ok_bind, ex]; rfl
    · rw [if_pos hcs]; exact ⟨d, res, e1, rfl, rep⟩
    · rw [e1]
    · rw [e1]
  · have hd := h.std
    rw [if_neg hcs] at hd
    rw [hd]
    dsimp only
    have hce : center = false := by cases center <;> simp_all
    have hsc : scale = false := by cases scale <;> simp_all
    have hlen : ((r * c : ℕ) : Int) = (r : Int) * c := by push_cast; rfl
    have hwl : (r : Int) * c ≤ work.length := by
      rw [hwk, h.work, if_neg (fun h => hcs h.1), if_neg hcs]
      have : (0 : Int) ≤ 2 * max (3 * min (R : Int) C + max (R : Int) C) (5 * min (R : Int) C) := by omega
      omega
    have wst : (⟨A.rows, A.cols, some ((part work 0 (A.rows * A.cols)).map some)⟩ : Mat (Val ℝ)).Wf := by
      refine ⟨hA.wf.rows_nonneg, hA.wf.cols_nonneg, rfl, ?_⟩
      show A.rows * A.cols ≤ (((part work 0 (A.rows * A.cols)).map some).length : Int)
      rw [hA.rows, hA.cols, map_some_len, ← hlen, part_len _ _ (by omega)]
    obtain ⟨D, eD, sD, gD⟩ := copyTo00_spec A _ hA.wf wst rfl rfl
    have hD : Holds D (analysed remove center scale M M) := by
      refine ⟨sD.wf wst, by rw [sD.rows]; exact hA.rows, ?_, fun i b => ?_⟩
      · rw [sD.cols]
        show A.cols = ((width remove scale M : ℕ) : Int)
        rw [hA.cols, hsc, width_all]
      · have hlt : (b : ℕ) < c := lt_of_lt_of_le b.2 (width_le remove scale M)
        have hin := hA.inR i ⟨b, hlt⟩
        rw [gD _ _ hin, hA.cell i ⟨b, hlt⟩]
        unfold analysed
        dsimp only
        rw [if_neg (by rw [hce]; simp), if_neg (by rw [hsc]; simp), sub_zero, div_one]
        congr 3
        have e : keptColumns (scale && remove) (colVar true M) = List.finRange c := by
          unfold keptColumns
          rw [List.filter_eq_self.2]
          intro j _; simp [hsc]
        have hb : (keptColumns (scale && remove) (colVar true M))[(b : ℕ)]? = some ⟨b, hlt⟩ := by
          rw [List.getElem?_eq_some_iff]
          refine ⟨b.2, ?_⟩
          have : ∀ (l : List (Fin c)) (hl : l = List.finRange c) (hb : (b : ℕ) < l.length), l[(b : ℕ)]'hb = ⟨b, hlt⟩ := by
            intro l hl hb; subst hl; rw [List.getElem_finRange]; rfl
          exact this _ e _
        rw [List.getElem?_eq_getElem b.2] at hb
        exact (Option.some.inj hb).symm
    obtain ⟨x, ex, ix⟩ := numbersOf_ok hD
    refine ⟨⟨x, none, 0, A.rows * A.cols⟩, ?_, ix, ?_, ?_, ?_⟩
    · rw [eD, Outcome.ok_bind, ex]; rfl
    · rw [if_neg hcs]
    · rw [hd]
    · rw [hd, hA.rows, hA.cols]

end Pc
end LDT
