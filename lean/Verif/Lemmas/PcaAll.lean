import Verif.Lemmas.PcaFit
/-!
# `PcaAnalysis::Calculate` as a whole
-/
namespace LDT
namespace Pc
open Mx Sd
open Arr (Val)
open Co (part)
open Ls (dotTr0 IsM Sized isM_of_cells dotTr0_isM sized_part get_isM)

variable {r c k n f : ℕ}

/-- The rows to be forecast: a matrix with `f` rows or no matrix. -/
def Given (xf : Option (Mat (Val ℝ))) (N : Fin f → Fin c → ℝ) : Prop := (xf = none ∧ f = 0) ∨ ∃ B, xf = some B ∧ Holds B N

theorem Given.rows {xf : Option (Mat (Val ℝ))} {N : Fin f → Fin c → ℝ} (h : Given xf N) : forecastRows xf = f := by
  rcases h with ⟨e, h⟩ | ⟨B, e, h⟩
  · rw [e, h]; rfl
  · rw [e]; exact h.rows

theorem Given.cols {xf : Option (Mat (Val ℝ))} {N : Fin f → Fin c → ℝ} (h : Given xf N) : xf.any (fun f => f.cols != (c : Int)) = false := by
  rcases h with ⟨e, h⟩ | ⟨B, e, h⟩
  · rw [e]; rfl
  · rw [e]; simp [h.cols]

theorem Made.norm {o : Pca} {R C F : ℕ} {doPCs remove center scale : Bool} (h : Made o R C F doPCs remove center scale) :
    Made o R C F doPCs (scale && remove) center scale := by
  refine ⟨h.doPcs, ?_, h.storage, h.work⟩
  have := h.std
  rw [show (scale && (scale && remove)) = (scale && remove) by cases scale <;> rfl]
  exact this

/-- The flags that `Calculate` passes on. -/
theorem Made.temp {o : Pca} {R C F : ℕ} {doPCs remove center scale : Bool} (h : Made o R C F doPCs remove center scale) (rows cols num : Int) :
    Pca.make rows cols num o.doPcs o.flags.1 o.flags.2.1 o.flags.2.2 =
      Pca.make rows cols num doPCs (if (center || scale) = true then (scale && remove) else false) center scale := by
  have hs := h.std
  rw [h.doPcs]
  unfold Pca.flags
  by_cases hcs : (center || scale) = true
  · rw [if_pos hcs] at hs ⊢
    obtain ⟨d, e1, e2, e3, e4, -⟩ := hs
    rw [e1]
    dsimp only
    rw [e2, e3, e4]
  · rw [if_neg hcs] at hs ⊢
    have hce : center = false := by cases center <;> simp_all
    have hsc : scale = false := by cases scale <;> simp_all
    rw [hs, hce, hsc]

theorem getD_part (l : List ℝ) (a t n : ℕ) (ha : a + n ≤ l.length) (h : t < n) : (part l (a : Int) (n : Int)).getD t 0 ∈ l := by
  unfold part
  rw [List.getD_eq_getElem?_getD]
  have hl : t < ((List.drop (a : Int).toNat l).take (n : Int).toNat).length := by
    rw [List.length_take, List.length_drop]; simp; omega
  rw [List.getElem?_eq_getElem hl, Option.getD_some]
  exact List.mem_of_mem_drop (List.mem_of_mem_take (List.getElem_mem hl))

/-- The forecasts. -/
def Forecasted (X : Fin f → Fin k → ℝ) (D : Fin k → Fin k → ℝ) (G : Option (Mat ℝ)) : Prop :=
  if 0 < f then ∃ g, G = some g ∧ Table g (scores X D) else G = none

theorem forecastsRun_ok {o : Pca} {R C F : ℕ} {doPCs remove center scale : Bool} (h : Made o R C F doPCs remove center scale) (h2 : 2 ≤ r)
    (hc : 0 < c) (hcC : c ≤ C) {M : Fin r → Fin c → ℝ} (hok : Scalable remove scale M) {u : Used} (hu : UseOk o remove center scale M u)
    (hfF : f ≤ F) {xf : Option (Mat (Val ℝ))} {N : Fin f → Fin c → ℝ} (hB : Given xf N)
    {D : Mat ℝ} {Dm : Fin (width remove scale M) → Fin (width remove scale M) → ℝ}
    (hD : IsM D (Dm : Matrix (Fin (width remove scale M)) (Fin (width remove scale M)) ℝ)) (hk : 0 < width remove scale M)
    (work storage : List ℝ) (q : Int) (h0 : 0 ≤ q) (hq : q + (f : Int) * (width remove scale M : ℕ) ≤ storage.length)
    (hwk : (work.length : Int) = o.workSize) :
    ∃ G, forecastsRun o u D c xf work storage q = .ok G ∧ Forecasted (analysed remove center scale M N) Dm G := by
  unfold forecastsRun Forecasted
  rcases hB with ⟨e, hf⟩ | ⟨B, e, hB⟩
  · rw [e]
    exact ⟨none, rfl, by rw [if_neg (by omega)]⟩
  · rw [e]
    dsimp only
    by_cases hf : 0 < f
    · rw [if_pos (show B.rows > 0 by rw [hB.rows]; omega)]
      obtain ⟨g, eg, ig⟩ := forecastRun_ok h h2 hc hcC hok hu hf hfF hB hD hk work storage q h0 hq hwk
      rw [eg]
      exact ⟨some g, rfl, by rw [if_pos hf]; exact ⟨g, rfl, IsM.table ig⟩⟩
    · rw [if_neg (show ¬ B.rows > 0 by rw [hB.rows]; omega)]
      exact ⟨none, rfl, by rw [if_neg hf]⟩

theorem stds_ok (h2 : 2 ≤ r) (S : Fin n → ℝ) : (List.ofFn S).map (fun x => vmul (some x) (stdFactor (r : Int))) =
    List.ofFn fun a => (some (S a / Real.sqrt ((r : ℝ) - 1)) : Val ℝ) := by
  rw [List.map_ofFn, stdFactor_ok h2]
  congr 1
  funext a
  simp only [Function.comp_apply, vmul]
  rw [mul_one_div]

theorem work_arith (r k R C : ℕ) (hr : r ≤ R) (hk : k ≤ C) :
    2 * max (3 * min (r : Int) k + max (r : Int) k) (5 * min (r : Int) k) ≤
      2 * max (3 * min (R : Int) C + max (R : Int) C) (5 * min (R : Int) C) := by omega

theorem storage_fits {o : Pca} {R C F : ℕ} {doPCs remove center scale : Bool} (h : Made o R C F doPCs remove center scale)
    (q : Int) (hq : q = match o.dataS with | some d => d.storageSize | none => 0) (len : ℕ) (hst : (len : Int) = o.storageSize) :
    0 ≤ q ∧ q + (C : Int) * C + min (R : Int) C * 2 + (F : Int) * C + (if doPCs then (R : Int) * C else 0) ≤ len := by
  have a : (0 : Int) ≤ (R : Int) * C := by positivity
  have hs := h.std
  rw [hq, hst, h.storage]
  by_cases hcs : (center || scale) = true
  · rw [if_pos hcs] at hs ⊢
    obtain ⟨d, e1, -, -, -, -, -, e7⟩ := hs
    rw [e1]
    dsimp only
    rw [e7]
    constructor
    · split_ifs <;> omega
    · apply le_of_eq; ring
  · rw [if_neg hcs] at hs ⊢
    rw [hs]
    dsimp only
    exact ⟨le_rfl, by apply le_of_eq; ring⟩

theorem work_fits {o : Pca} {R C F : ℕ} {doPCs remove center scale : Bool} (h : Made o R C F doPCs remove center scale)
    (p : Int) (hp : p = match o.dataS with | some _ => 0 | none => (r : Int) * c) (len : ℕ) (hwk : (len : Int) = o.workSize)
    (hrR : r ≤ R) (hcC : c ≤ C) (hk : k ≤ c) :
    0 ≤ p ∧ p + (r : Int) * k + 2 * max (3 * min (r : Int) k + max (r : Int) k) (5 * min (r : Int) k) ≤ len := by
  have n2 : (r : Int) * k ≤ (R : Int) * C := by exact_mod_cast Nat.mul_le_mul hrR (le_trans hk hcC)
  have n4 : (r : Int) * c ≤ (R : Int) * C := by exact_mod_cast Nat.mul_le_mul hrR hcC
  have n5 : (0 : Int) ≤ (r : Int) * c := by positivity
  have hwa := work_arith r k R C hrR (by omega)
  have hs := h.std
  rw [hp, hwk, h.work]
  by_cases hcs : (center || scale) = true
  · rw [if_pos hcs] at hs
    obtain ⟨d, e1, -⟩ := hs
    rw [e1]
    dsimp only
    by_cases hF : 0 < F
    · rw [if_pos ⟨hcs, hF⟩]
      refine ⟨le_rfl, le_trans ?_ (le_max_left _ _)⟩
      linarith
    · rw [if_neg (fun h => hF h.2), if_pos hcs]
      exact ⟨le_rfl, by linarith⟩
  · rw [if_neg hcs] at hs
    rw [hs]
    dsimp only
    rw [if_neg (fun h => hcs h.1), if_neg hcs]
    exact ⟨n5, by linarith⟩

/-- The places in the storage. -/
theorem places {q : Int} {len r k R C F f c : ℕ} {doPCs : Bool} (h0 : 0 ≤ q)
    (hq : q + (C : Int) * C + min (R : Int) C * 2 + (F : Int) * C + (if doPCs then (R : Int) * C else 0) ≤ len)
    (hrR : r ≤ R) (hcC : c ≤ C) (hfF : f ≤ F) (hk : k ≤ c) :
    q + min (r : Int) k + (k : Int) * k ≤ len ∧ 0 ≤ q + min (r : Int) k + (k : Int) * k + min (r : Int) k ∧
    q + min (r : Int) k + (k : Int) * k + min (r : Int) k ≤ len ∧
    afterPcs doPCs (q + min (r : Int) k + (k : Int) * k + min (r : Int) k) r k + (f : Int) * k ≤ len ∧
    0 ≤ afterPcs doPCs (q + min (r : Int) k + (k : Int) * k + min (r : Int) k) r k ∧
    afterPcs doPCs (q + min (r : Int) k + (k : Int) * k + min (r : Int) k) r k ≤ len := by
  have n1 : (k : Int) * k ≤ (C : Int) * C := by exact_mod_cast Nat.mul_le_mul (le_trans hk hcC) (le_trans hk hcC)
  have n2 : (r : Int) * k ≤ (R : Int) * C := by exact_mod_cast Nat.mul_le_mul hrR (le_trans hk hcC)
  have n3 : (f : Int) * k ≤ (F : Int) * C := by exact_mod_cast Nat.mul_le_mul hfF (le_trans hk hcC)
  have p1 : (0 : Int) ≤ (k : Int) * k := by positivity
  have p2 : (0 : Int) ≤ (r : Int) * k := by positivity
  have p3 : (0 : Int) ≤ (f : Int) * k := by positivity
  unfold afterPcs
  generalize (k : Int) * k = x1 at *; generalize (C : Int) * C = x2 at *; generalize (r : Int) * k = x3 at *
  generalize (R : Int) * C = x4 at *; generalize (f : Int) * k = x5 at *; generalize (F : Int) * C = x6 at *
  cases doPCs
  · simp only [Bool.false_eq_true, if_false] at hq ⊢; omega
  · simp only [if_true] at hq ⊢; omega

theorem calculate_ok (L : Lapack) {o : Pca} {R C F : ℕ} {doPCs remove center scale : Bool} (h : Made o R C F doPCs remove center scale)
    (h2 : 2 ≤ r) (hc : 0 < c) (hrR : r ≤ R) (hcC : c ≤ C) (hfF : f ≤ F) {A : Mat (Val ℝ)} {M : Fin r → Fin c → ℝ} (hA : Holds A M)
    (hok : Scalable remove scale M) {xf : Option (Mat (Val ℝ))} {N : Fin f → Fin c → ℝ} (hB : Given xf N)
    (hk : 0 < width remove scale M) (work storage : List ℝ) (hst : (storage.length : Int) = o.storageSize)
    (hwk : (work.length : Int) = o.workSize) :
    ((L.gesvd r (width remove scale M) (analysed remove center scale M M)).1 ≠ 0 → o.calculate L A work storage xf = .throws) ∧
    ((L.gesvd r (width remove scale M) (analysed remove center scale M M)).1 = 0 →
      ∃ (Dm : Fin (width remove scale M) → Fin (width remove scale M) → ℝ) (res : PcaRes),
        o.calculate L A work storage xf = .ok res ∧
        (∀ a j : Fin (width remove scale M), (a : ℕ) < min r (width remove scale M) →
          Dm a j = (L.gesvd r (width remove scale M) (analysed remove center scale M M)).2.2 a j) ∧
        (∀ a j : Fin (width remove scale M), ¬ (a : ℕ) < min r (width remove scale M) → Dm a j ∈ storage) ∧
        Table res.directions Dm ∧
        res.stds = List.ofFn (fun a : Fin (min r (width remove scale M)) =>
          (some ((L.gesvd r (width remove scale M) (analysed remove center scale M M)).2.1 a / Real.sqrt ((r : ℝ) - 1)) : Val ℝ)) ∧
        res.ratios = ratiosOf res.stds ∧
        (if doPCs = true then ∃ P, res.pcs = some P ∧ Table P (scores (analysed remove center scale M M) Dm) else res.pcs = none) ∧
        Forecasted (analysed remove center scale M N) Dm res.forecasts ∧
        (if (center || scale) = true then ∃ d z, o.dataS = some d ∧ res.dataS = some z ∧ Reports d none none M z else res.dataS = none)) := by
  obtain ⟨u, eu, hu⟩ := use_ok h h2 hc hrR hcC hA hok work storage hst hwk
  obtain ⟨t, et, ht⟩ := make_ok r c f (by omega) hc doPCs (if (center || scale) = true then (scale && remove) else false) center scale
  have hns : Made o R C F doPCs (if (center || scale) = true then (scale && remove) else false) center scale := by
    by_cases hcs : (center || scale) = true
    · rw [if_pos hcs]; exact h.norm
    · have := h.std
      rw [if_neg hcs] at this
      exact ⟨h.doPcs, by rw [if_neg hcs]; exact this, h.storage, h.work⟩
  have hsm := hns.storage_mono ht hrR hcC hfF
  have hwm := hns.work_mono ht hrR hcC hfF
  have htemp := h.temp (r : Int) (c : Int) (f : Int)
  rw [et] at htemp
  have hwc := width_le remove scale M
  have hmat := hu.mat
  have hmr : u.mat.rows = (r : Int) := hmat.rows
  have hmc : u.mat.cols = ((width remove scale M : ℕ) : Int) := hmat.cols
  have hfor := @forecastsRun_ok r c f o R C F doPCs remove center scale h h2 hc hcC M hok u hu hfF xf N hB
  have hus := hu.std
  have huq := hu.q
  have hup := hu.p
  clear hu hok
  generalize analysed remove center scale M M = X at *
  generalize analysed remove center scale M N = Y at *
  generalize width remove scale M = k at *
  obtain ⟨hq0, hqq⟩ := storage_fits h u.q huq storage.length hst
  obtain ⟨hp0, hpp⟩ := work_fits h u.p hup work.length hwk hrR hcC hwc
  obtain ⟨pl1, pl2, pl3, pl4, pl5, pl6⟩ := places hq0 hqq hrR hcC hfF hwc
  obtain ⟨qn, hqn⟩ := Int.eq_ofNat_of_zero_le hq0
  obtain ⟨pn, hpn⟩ := Int.eq_ofNat_of_zero_le hp0
  clear hqq huq hup hst
  have g1 : min r k + k * k ≤ (storage.drop u.q.toNat).length := by
    have i6 : (k : Int) * k = ((k * k : ℕ) : Int) := by push_cast; rfl
    rw [List.length_drop, hqn, Int.toNat_natCast]
    rw [hqn, i6] at pl1
    clear pl2 pl3 pl4 pl5 pl6 hpp hsm hwm
    omega
  have g2 : r * k + 2 * max (3 * min r k + max r k) (5 * min r k) ≤ (work.drop u.p.toNat).length := by
    have i4 : (r : Int) * k = ((r * k : ℕ) : Int) := by push_cast; rfl
    rw [List.length_drop, hpn, Int.toNat_natCast]
    rw [hpn, i4] at hpp
    clear pl1 pl2 pl3 pl4 pl5 pl6 hsm hwm
    omega
  have hsv := svdRun_ok L hmat (by omega) hk (storage.drop u.q.toNat) (work.drop u.p.toNat) g1 g2
  have hmn : ((min r k : ℕ) : Int) = min (r : Int) k := by push_cast; rfl
  unfold Pca.calculate
  rw [hA.rows, hA.cols, hB.cols, hB.rows, if_neg (by simp)]
  dsimp only at htemp ⊢
  rw [htemp, Outcome.ok_bind, if_neg (by omega), eu, Outcome.ok_bind, hmc]
  constructor
  · intro hi
    rw [hsv.1 hi]; rfl
  · intro hi
    obtain ⟨D, eD, iD⟩ := hsv.2 hi
    rw [eD, Outcome.ok_bind]
    dsimp only
    rw [if_neg (by omega)]
    obtain ⟨P, eP, P1, P2⟩ := pcsRun_ok hmat iD (by omega) hk storage _ pl2 doPCs pl6
    obtain ⟨G, eG, hG⟩ := hfor iD hk work storage _ pl5 pl4 hwk
    rw [h.doPcs, eP, Outcome.ok_bind, eG, Outcome.ok_bind]
    refine ⟨_, _, rfl, fun a j ha => if_pos ha, fun a j ha => ?_, IsM.table iD, stds_ok h2 _, rfl, ?_, hG, hus⟩
    · rw [if_neg ha]
      unfold oldCell
      refine List.mem_of_mem_drop (getD_part (storage.drop u.q.toNat) (min r k) ((a : ℕ) + k * j) (k * k) g1 (Ls.lin_lt a j))
    · by_cases hd : doPCs = true
      · rw [if_pos hd]
        obtain ⟨p, e, i⟩ := P2 hd
        exact ⟨p, e, IsM.table i⟩
      · rw [if_neg hd]
        exact P1 (by simpa using hd)

end Pc
end LDT
