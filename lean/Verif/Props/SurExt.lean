import Verif.Lemmas.SurCond
import Verif.Props.SurFit
import Verif.Props.SurProj
import Mathlib.Analysis.Matrix.PosDef
import Mathlib.Data.Real.StarOrdered
/-! # C123: from a table to an estimated, checked and projected system of regressions -/
namespace LDT
namespace Su
open Mx Ls Op
open Co (part)
open Arr (Val)
open Matrix

/-- The new regressors: `n` rows (none: no pointer). -/
def NewRows (newX : Option (Mat ℝ)) {n k : ℕ} (Z : Matrix (Fin n) (Fin k) ℝ) : Prop :=
  match newX with
  | none => n = 0
  | some z => IsM z Z

theorem newRows_eq {newX : Option (Mat ℝ)} {n k : ℕ} {Z : Matrix (Fin n) (Fin k) ℝ} (h : NewRows newX Z) : newRows newX = n := by
  cases newX with
  | none => have : n = 0 := h
            subst this; rfl
  | some z => exact (h : IsM z Z).rows

theorem cov_det_nonneg {N m : ℕ} (E : Matrix (Fin N) (Fin m) ℝ) : 0 ≤ (cov E).det := by
  have e : cov E = ((N : ℝ)⁻¹) • (Eᵀ * E) := by
    funext j j'
    rw [Matrix.smul_apply, smul_eq_mul, mul_apply]
    unfold cov
    rw [div_eq_inv_mul]
    rfl
  rw [e, det_smul]
  have : 0 ≤ (Eᵀ * E).det := by
    have := (Matrix.posSemidef_conjTranspose_mul_self E).det_nonneg
    rwa [Matrix.conjTranspose_eq_transpose_of_trivial] at this
  positivity

theorem logL_eq {N m : ℕ} {S : Matrix (Fin m) (Fin m) ℝ} (h : 0 ≤ S.det) : logL N m S.det = Likelihood N S := by
  unfold logL Likelihood
  rw [if_neg (not_lt.2 h)]
  by_cases h0 : S.det = 0
  · rw [if_pos h0, if_pos h0]
  · rw [if_neg h0, if_neg h0]
    unfold likelihood
    push_cast
    congr 1
    ring

theorem two_mul_sub_pinf (c : ℝ) : (exact : Ops ℝ).sub (.num c) ((exact : Ops ℝ).mul (.num 2) .pinf) = .ninf := by
  have : (exact : Ops ℝ).mul (.num 2) .pinf = .pinf := by
    show (if (0 : ℝ) < 2 then Dbl.pinf else if (2 : ℝ) < 0 then .ninf else .nan) = .pinf
    rw [if_pos two_pos]
  rw [this]
  rfl

theorem aic_eq {N m k : ℕ} {S : Matrix (Fin m) (Fin m) ℝ} (h : 0 ≤ S.det) : aic (logL N m S.det) ((k : ℤ) * m) = Akaike N (m * k) S := by
  rw [logL_eq h]
  unfold Likelihood Akaike aic
  by_cases h0 : S.det = 0
  · rw [if_pos h0, if_pos h0, two_mul_sub_pinf]
  · rw [if_neg h0, if_neg h0]
    show Dbl.num _ = Dbl.num _
    congr 1
    push_cast
    ring

theorem sic_eq {N m k : ℕ} {S : Matrix (Fin m) (Fin m) ℝ} (h : 0 ≤ S.det) :
    sic (logL N m S.det) N ((k : ℤ) * m) = Schwarz N (m * k) S := by
  rw [logL_eq h]
  unfold Likelihood Schwarz sic
  by_cases h0 : S.det = 0
  · rw [if_pos h0, if_pos h0, two_mul_sub_pinf]
  · rw [if_neg h0, if_neg h0]
    show Dbl.num _ = Dbl.num _
    congr 1
    push_cast
    ring

/-- The coefficient of determination of the residuals `E`, in all cases. -/
noncomputable def Determination {N m : ℕ} (Y E : Matrix (Fin N) (Fin m) ℝ) : Dbl ℝ :=
  if total Y = 0 then (if unexplained E = 0 then .nan else .ninf) else .num (1 - unexplained E / total Y)

theorem det_eq {cdf : ℤ → ℤ → Ext ℝ → ℝ} {N m k : ℕ} {Y E : Matrix (Fin N) (Fin m) ℝ} {g : Fit ℝ} (h : GoodFit cdf Y E k g) :
    g.r2.dbl = Determination Y E := by
  unfold Determination
  by_cases ht : total Y = 0
  · rw [if_pos ht]
    by_cases hu : unexplained E = 0
    · rw [if_pos hu, ((h.constant ht).2.2.1 hu)]; rfl
    · rw [if_neg hu, ((h.constant ht).2.2.2 hu)]; rfl
  · rw [if_neg ht, h.number ht]; rfl

theorem fewObs_iff {checks : Option (SOpt.Checks ℝ)} {N k : ℕ} : fewObs checks N k ↔ ¬ EnoughObs checks N k := by
  unfold EnoughObs
  cases checks with
  | none => simp [fewObs]
  | some c =>
    show ((c.minObs > 0 ∧ c.minObs > (N : ℤ)) ∨ (c.minDof > 0 ∧ c.minDof > (N : ℤ) - k)) ↔ _
    constructor
    · intro h hh
      obtain ⟨h1, h2⟩ := hh c rfl
      omega
    · intro h
      by_contra hc
      refine h fun c' hc' => ?_
      cases hc'
      constructor <;> intro _ <;> omega

theorem badFit_iff {checks : Option (SOpt.Checks ℝ)} {a b c d : Dbl ℝ} : badFit checks a b c d ↔ ¬ Accepted checks a b c d := by
  unfold Accepted
  cases checks with
  | none => simp [badFit]
  | some o =>
    show ((o.checkCNAll = true ∧ o.maxCondition.lt a = true) ∨ o.maxAic.lt b = true ∨ o.maxSic.lt c = true ∨ d.lt o.minR2 = true) ↔ _
    constructor
    · intro h hh
      obtain ⟨h1, h2, h3, h4⟩ := hh o rfl
      rcases h with ⟨p, q⟩ | h | h | h
      · rw [h1 p] at q; cases q
      · rw [h2] at h; cases h
      · rw [h3] at h; cases h
      · rw [h4] at h; cases h
    · intro h
      by_contra hc
      refine h fun c' hc' => ?_
      cases hc'
      simp only [not_or, not_and, Bool.not_eq_true] at hc
      exact hc

/-- What is held after an estimation: the criteria of the sample `Y`, `X`, the coefficients `B`, the inverse `G` of the moments of the regressors and
the projections for the rows of `Z`. -/
structure Held (f : Fns ℝ) (details doVar : Bool) {N m k n : ℕ} (Y : Matrix (Fin N) (Fin m) ℝ) (X : Matrix (Fin N) (Fin k) ℝ)
    (Z : Matrix (Fin n) (Fin k) ℝ) (B : Matrix (Fin k) (Fin m) ℝ) (G : Matrix (Fin k) (Fin k) ℝ) (r : ExtRes) : Prop where
  y : IsM r.y Y
  x : IsM r.x X
  fitted : Fitted r.res.est Y X B
  variances : ∃ V : Matrix (Fin (m * k)) (Fin (m * k)) ℝ, IsM r.res.est.gammaVar V ∧
    ∀ j l j' l', V (number j l) (number j' l') = cov (left Y X B) j j' * G l l'
  likelihood : r.logL = Likelihood N (cov (left Y X B))
  report : if details then ∃ d g, r.res.details = some d ∧ Report f N B (fun l j => cov (left Y X B) j j * G l l) d ∧ r.res.fit = some g ∧
    GoodFit f.fcdf Y (left Y X B) k g else r.res.details = none ∧ r.res.fit = none
  projected : if n = 0 then r.proj = none else ∃ p, r.proj = some p ∧
    (∀ (i : Fin n) (j : Fin m), p.means.get i j = .ok (∑ l, Z i l * B l j)) ∧
    (doVar = true → ∀ (i : Fin n) (j : Fin m), p.variances.get i j =
      .ok (cov (left Y X B) j j * (1 + ∑ l, ∑ l', Z i l * G l l' * Z i l')))

/-- A value that is there only with details. -/
def ifDetails (details : Bool) (v : Dbl ℝ) : Dbl ℝ := if details then v else .nan

/-- The part after the choice of the rows. -/
theorem tail_estimate (lu : List ℝ → List ℝ) (f : Fns ℝ) {u : ExtSetup} {N0 m0 k0 n0 : ℤ} {N m k n : ℕ} {t : Mat ℝ} {maxProb : ℝ}
    {newX : Option (Mat ℝ)} {checks : Option (SOpt.Checks ℝ)} {storage work : List ℝ} {p : ℤ} (hN : (N : ℤ) ≤ N0) (hm : 0 < m) (hk : 0 < k)
    (hml : (m : ℤ) ≤ m0) (hkl : (k : ℤ) ≤ k0) (hn : newRows newX ≤ n0) (hs : storageSize u.opts N0 m0 k0 +
      (if n0 > 0 then projStorage u.doVar n0 m0 else 0) ≤ (storage.drop p.toNat).length)
    (hw : extWork u N0 m0 k0 n0 ≤ work.length) (hr : u.restricted = false) (hi : u.maxIter = 0)
    {Y : Matrix (Fin N) (Fin m) ℝ} {X : Matrix (Fin N) (Fin k) ℝ} (ht : Beside t Y X)
    {Z : Matrix (Fin n) (Fin k) ℝ} (hz : NewRows newX Z) :
    (¬ (EnoughObs checks N k ∧ Estimable u.details Y X) →
      extTail lu f u N0 m0 k0 n0 t m k none maxProb newX checks p storage work = .throws) ∧
    (EnoughObs checks N k → Estimable u.details Y X → ∃ B G a b,
      (∀ B', LeastSquares Y X B' ↔ B' = B) ∧ G * (Xᵀ * X) = 1 ∧ GreatestColumn (Xᵀ * X) a ∧ GreatestColumn G b ∧
      let S := cov (left Y X B)
      let A := ifDetails u.details (Akaike N (m * k) S)
      let C := ifDetails u.details (Schwarz N (m * k) S)
      let D := ifDetails u.details (Determination Y (left Y X B))
      (¬ Accepted checks (.num (a * b)) A C D →
        extTail lu f u N0 m0 k0 n0 t m k none maxProb newX checks p storage work = .throws) ∧
      (Accepted checks (.num (a * b)) A C D → ∃ r,
        extTail lu f u N0 m0 k0 n0 t m k none maxProb newX checks p storage work = .ok r ∧
        Held f u.details u.doVar Y X Z B G r ∧ r.condition = a * b ∧ r.aic = A ∧ r.sic = C ∧ r.r2 = D)) := by
  have hopt : u.opts = Opts.make false u.details 0 := by unfold ExtSetup.opts; rw [hr, hi]
  have hnew : ¬ badNew newX k := by
    cases newX with
    | none => exact id
    | some z => rintro ⟨-, h2⟩; exact h2 (hz : IsM z Z).cols
  by_cases ho : EnoughObs checks N k
  swap
  · refine ⟨fun _ => ?_, fun hh => absurd hh ho⟩
    unfold extTail
    rw [ht.rows, if_pos (fewObs_iff.2 ho)]
  have hT : extTail lu f u N0 m0 k0 n0 t m k none maxProb newX checks p storage work = (do
        let res ← sur lu f (Opts.make false u.details 0) N0 m0 k0 (⟨N, m, some (part t.mem 0 ((N : ℤ) * m))⟩ : Mat ℝ)
          (⟨N, k, some (part t.mem ((m : ℤ) * N) ((N : ℤ) * k))⟩ : Mat ℝ) none maxProb (storage.drop p.toNat) work
        let cn ← condUn lu (⟨N, k, some (part t.mem ((m : ℤ) * N) ((N : ℤ) * k))⟩ : Mat ℝ) work
        extAfter u m0 k0 n0 (⟨N, m, some (part t.mem 0 ((N : ℤ) * m))⟩ : Mat ℝ) (⟨N, k, some (part t.mem ((m : ℤ) * N) ((N : ℤ) * k))⟩ : Mat ℝ)
          newX checks ((storage.drop p.toNat).drop (storageSize u.opts N0 m0 k0).toNat) work res cn) := by
    unfold extTail
    rw [ht.rows, if_neg (fun hh => fewObs_iff.1 hh ho)]
    dsimp only
    rw [if_neg hnew]
    unfold extR
    have : ¬ u.opts.maxIter > 0 := by rw [hopt]; simp [Opts.make]
    rw [if_neg this, Outcome.ok_bind, hopt]
    rfl
  rw [hT]
  clear hT
  generalize ey : (⟨N, m, some (part t.mem 0 ((N : ℤ) * m))⟩ : Mat ℝ) = y
  generalize ex : (⟨N, k, some (part t.mem ((m : ℤ) * N) ((N : ℤ) * k))⟩ : Mat ℝ) = x
  have hy : IsM y Y := ey ▸ ht.y
  have hx : IsM x X := ex ▸ ht.x
  have hp0 : 0 ≤ (if n0 > 0 then projStorage u.doVar n0 m0 else 0) := by
    by_cases h0 : n0 > 0
    · rw [if_pos h0]
      have : 0 ≤ m0 * n0 := mul_nonneg (by omega) (by omega)
      have : 0 ≤ m0 * m0 := mul_nonneg (by omega) (by omega)
      unfold projStorage
      cases u.doVar <;> simp <;> omega
    · rw [if_neg h0]
  have hs1 : storageSize (Opts.make false u.details 0) N0 m0 k0 ≤ (storage.drop p.toNat).length := by rw [← hopt]; omega
  have hw1 : workSize (Opts.make false u.details 0) N0 m0 k0 ≤ work.length := by
    rw [← hopt]
    refine le_trans ?_ hw
    unfold extWork
    by_cases h0 : n0 > 0
    · simp only [if_pos h0]; exact le_trans (le_max_right _ _) (le_max_left _ _)
    · simp only [if_neg h0]; exact le_max_right _ _
  refine ⟨fun hne => ?_, fun _ hes => ?_⟩
  · have hne' : ¬ Estimable u.details Y X := fun hh => hne ⟨ho, hh⟩
    have : sur lu f (Opts.make false u.details 0) N0 m0 k0 y x none maxProb (storage.drop p.toNat) work = .throws := by
      rcases Nat.eq_zero_or_pos N with h0 | h0
      · exact C88_sizes _ _ _ _ _ _ _ _ _ _ _ _ (Or.inl (by rw [hy.rows, h0]; simp))
      · refine C88_refused lu f hy hx h0 hm hk hN hml hkl u.details maxProb _ _ hs1 hw1 ?_
        by_contra hc
        simp only [not_or, not_and, not_exists, not_not] at hc
        obtain ⟨c1, c2, c3⟩ := hc
        refine hne' ⟨h0, c1, ?_, fun hd => by have := c3 hd; omega⟩
        by_cases h1 : m = 1
        · exact Or.inl h1
        · exact Or.inr fun B hB => c2 h1 B hB
    rw [this]
    rfl
  · obtain ⟨pN, hX, hE, hdt⟩ := hes
    obtain ⟨res, B, G, e1, ls, fit, -, hG, hV, hdet, -, hrep, hfit, hno⟩ :=
      C88_estimate lu f hy hx pN hm hk hN hml hkl u.details maxProb _ _ hs1 hw1 hX hE hdt
    have hGi : (Xᵀ * X)⁻¹ = G := Matrix.inv_eq_left_inv hG
    have hd : (Xᵀ * X).det ≠ 0 := fun hd => by
      have := congrArg Matrix.det hG
      rw [Matrix.det_mul, hd, mul_zero, Matrix.det_one] at this
      exact zero_ne_one this
    have hkk : (k : ℤ) * k ≤ work.length := by
      refine le_trans ?_ (le_trans (workSize_mono _ (N := N) (m := m) (k := k) (by positivity) (by positivity) (by positivity) hN hml hkl) hw1)
      have a1 : (0 : ℤ) ≤ (k : ℤ) * m := by positivity
      have a2 : (0 : ℤ) ≤ (k : ℤ) * k := by positivity
      have b1 : (k : ℤ) * k ≤ max ((k : ℤ) * k + k * m) (m * m) := le_trans (by omega) (le_max_left _ _)
      rw [make_zero]
      cases u.details
      · rw [(C88_announced false false 0 N m k).2.1]; exact b1
      · rw [(C88_announced false false 0 N m k).2.2.1]; exact le_trans b1 (le_max_left _ _)
    obtain ⟨a, b, ec, ha, hb⟩ := condUn_spec lu hx pN hk work hkk hd
    rw [hGi] at hb
    refine ⟨B, G, a, b, ls, hG, ha, hb, ?_⟩
    have hdd := cov_det_nonneg (left Y X B)
    have hA : (if u.opts.details then aic (logL y.rows y.cols res.detS) (x.cols * y.cols) else .nan) =
        ifDetails u.details (Akaike N (m * k) (cov (left Y X B))) := by
      have : u.opts.details = u.details := by rw [hopt]; rfl
      rw [this, hy.rows, hy.cols, hx.cols, hdet, aic_eq hdd]
      rfl
    have hC : (if u.opts.details then sic (logL y.rows y.cols res.detS) y.rows (x.cols * y.cols) else .nan) =
        ifDetails u.details (Schwarz N (m * k) (cov (left Y X B))) := by
      have : u.opts.details = u.details := by rw [hopt]; rfl
      rw [this, hy.rows, hy.cols, hx.cols, hdet, sic_eq hdd]
      rfl
    have hD : fitR2 res.fit = ifDetails u.details (Determination Y (left Y X B)) := by
      cases hde : u.details with
      | true =>
        obtain ⟨g, eg, hg⟩ := hfit hde
        rw [eg]
        exact det_eq hg
      | false => rw [(hno hde).2]; rfl
    dsimp only
    rw [e1, Outcome.ok_bind, ec, Outcome.ok_bind]
    unfold extAfter
    dsimp only
    rw [hA, hC, hD]
    refine ⟨fun hna => by rw [if_pos (badFit_iff.2 hna)], fun hac => ?_⟩
    rw [if_neg (fun hh => badFit_iff.1 hh hac)]
    have hproj : ∃ pr, extProject u m0 k0 n0 y.cols res newX ((storage.drop p.toNat).drop (storageSize u.opts N0 m0 k0).toNat) work = .ok pr ∧
        (if n = 0 then pr = none else ∃ p, pr = some p ∧
          (∀ (i : Fin n) (j : Fin m), p.means.get i j = .ok (∑ l, Z i l * B l j)) ∧
          (u.doVar = true → ∀ (i : Fin n) (j : Fin m), p.variances.get i j =
            .ok (cov (left Y X B) j j * (1 + ∑ l, ∑ l', Z i l * G l l' * Z i l')))) := by
      cases newX with
      | none =>
        refine ⟨none, rfl, ?_⟩
        rw [if_pos (show n = 0 from hz)]
      | some z =>
        have hz' : IsM z Z := hz
        by_cases h0 : n = 0
        · refine ⟨none, ?_, by rw [if_pos h0]⟩
          unfold extProject
          dsimp only
          rw [if_neg (by rw [hz'.rows, h0]; simp)]
        · have hn' : (n : ℤ) ≤ n0 := by have : z.rows ≤ n0 := hn; rwa [hz'.rows] at this
          have hn0 : n0 > 0 := by omega
          obtain ⟨V, hV1, hV2⟩ := hV
          have hsn : 0 ≤ storageSize u.opts N0 m0 k0 := by
            unfold ExtSetup.opts Opts.make
            rw [(C88_announced _ _ _ N0 m0 k0).1]
            have c1 : 0 ≤ k0 * m0 := mul_nonneg (by omega) (by omega)
            have c2 : 0 ≤ N0 * m0 := mul_nonneg (by omega) (by omega)
            have c3 : 0 ≤ m0 * m0 := mul_nonneg (by omega) (by omega)
            have c4 := mul_nonneg c1 c1
            split <;> omega
          have hst : projStorage u.doVar n0 m0 ≤ ((storage.drop p.toNat).drop (storageSize u.opts N0 m0 k0).toNat).length := by
            rw [if_pos hn0] at hs hp0
            rw [List.length_drop]
            omega
          have hwk : projWork false u.doVar m0 k0 ≤ work.length := by
            refine le_trans ?_ hw
            unfold extWork
            simp only [if_pos hn0, hr]
            exact le_max_right _ _
          obtain ⟨pr, e2, h2⟩ := C93_projection hz' fit.beta hV1 fit.residVar hm hk u.doVar hn' hml hkl res.R _ work hst hwk
          refine ⟨some pr, ?_, ?_⟩
          · unfold extProject projSetup
            dsimp only
            rw [if_pos (by rw [hz'.rows]; omega), if_pos hn0, hr]
            dsimp only
            rw [hy.cols, e2]
            rfl
          · rw [if_neg h0]
            refine ⟨pr, rfl, fun i j => get_isM h2.means i j, fun hv i j => ?_⟩
            rw [get_isM (h2.variances hv) i j]
            congr 1
            unfold projectionCov
            rw [mul_add, mul_one, Finset.mul_sum]
            congr 1
            refine Finset.sum_congr rfl fun l _ => ?_
            rw [Finset.mul_sum]
            refine Finset.sum_congr rfl fun l' _ => ?_
            rw [hV2]; ring
    obtain ⟨pr, ep, hpr⟩ := hproj
    rw [ep]
    refine ⟨_, rfl, ⟨hy, hx, fit, hV, ?_, ?_, hpr⟩, rfl, rfl, rfl, rfl⟩
    · show logL y.rows y.cols res.detS = _
      rw [hy.rows, hy.cols, hdet, logL_eq hdd]
    · cases hde : u.details with
      | true =>
        obtain ⟨d, ed, hd⟩ := hrep hde
        obtain ⟨g, eg, hg⟩ := hfit hde
        exact ⟨d, g, ed, hd, eg, hg⟩
      | false => exact hno hde

/-- **C123**, without restrictions. The rows that are used (the complete ones in their order, or all) are the sample. It throws if there are too few
rows or the system cannot be estimated; otherwise it is estimated as C88 says, and the checks see the condition number, the criteria and the
coefficient of determination of that estimate: it throws if one is beyond its bound, and otherwise holds the estimate, these numbers, and the
projections for the new rows, with the variances `s_jj (1 + z'(X'X)⁻¹z)`. -/
theorem C123_estimate (lu : List ℝ → List ℝ) (f : Fns ℝ) {u : ExtSetup} {N0 m0 k0 n0 : ℤ} {other : Outcome ExtRes} {data : Mat (Val ℝ)} {m k n : ℕ}
    {maxProb : ℝ} {newX : Option (Mat ℝ)} {checks : Option (SOpt.Checks ℝ)} {storage work : List ℝ}
    (h : Made u N0 m0 k0 n0 data m k newX storage work) (hr : u.restricted = false) (hi : u.maxIter = 0) {kept : List ℤ}
    {Y : Matrix (Fin kept.length) (Fin m) ℝ} {X : Matrix (Fin kept.length) (Fin k) ℝ} (hs : Sample u.checkNan data kept Y X)
    {Z : Matrix (Fin n) (Fin k) ℝ} (hz : NewRows newX Z) :
    (¬ (EnoughObs checks kept.length k ∧ Estimable u.details Y X) →
      extended lu f u N0 m0 k0 n0 other data m none maxProb newX checks storage work = .throws) ∧
    (EnoughObs checks kept.length k → Estimable u.details Y X → ∃ B G a b,
      (∀ B', LeastSquares Y X B' ↔ B' = B) ∧ G * (Xᵀ * X) = 1 ∧ GreatestColumn (Xᵀ * X) a ∧ GreatestColumn G b ∧
      let S := cov (left Y X B)
      let A := ifDetails u.details (Akaike kept.length (m * k) S)
      let C := ifDetails u.details (Schwarz kept.length (m * k) S)
      let D := ifDetails u.details (Determination Y (left Y X B))
      (¬ Accepted checks (.num (a * b)) A C D →
        extended lu f u N0 m0 k0 n0 other data m none maxProb newX checks storage work = .throws) ∧
      (Accepted checks (.num (a * b)) A C D → ∃ r,
        extended lu f u N0 m0 k0 n0 other data m none maxProb newX checks storage work = .ok r ∧
        Held f u.details u.doVar Y X Z B G r ∧ r.condition = a * b ∧ r.aic = A ∧ r.sic = C ∧ r.r2 = D)) := by
  obtain ⟨t, ht, e⟩ := extended_eq (lu := lu) (f := f) (other := other) (R := none) (maxProb := maxProb) (checks := checks) h hs
  rw [e]
  refine tail_estimate lu f ?_ h.m_pos h.k_pos h.m_le h.k_le h.new_le ?_ h.work hr hi ht hz
  · refine le_trans ?_ h.rows_le
    have hu := hs.used
    unfold UsedRows at hu
    split at hu
    · exact kept_length _ _ h.wf _ _ hu
    · rw [hu, length_upTo]
      have := h.wf.rows_nonneg
      omega
  · have hst := h.storage
    unfold extStorage at hst
    have h1 := h.rows; have h2 := h.rows_le; have h3 := h.m_le; have h4 := h.k_le
    have h0 : 0 ≤ N0 * (m0 + k0) := mul_nonneg (by omega) (by omega)
    rw [List.length_drop]
    generalize (if n0 > 0 then projStorage u.doVar n0 m0 else 0) = q at hst ⊢
    have : 0 ≤ storage.length := Nat.zero_le _
    split at hst <;> rename_i hc
    · rw [if_pos hc]; omega
    · rw [if_neg hc]; omega

/-- **C123**, any setting: what is held is what the model gives for the sample, and the checks were passed. With a search the selection matrix is given
the shape `mk × mk` first; without a matrix for it nothing is held. -/
theorem C123_model (lu : List ℝ → List ℝ) (f : Fns ℝ) {u : ExtSetup} {N0 m0 k0 n0 : ℤ} {other : Outcome ExtRes} {data : Mat (Val ℝ)} {m k : ℕ}
    {R : Option (Mat ℝ)} {maxProb : ℝ} {newX : Option (Mat ℝ)} {checks : Option (SOpt.Checks ℝ)} {storage work : List ℝ}
    (h : Made u N0 m0 k0 n0 data m k newX storage work) {kept : List ℤ}
    {Y : Matrix (Fin kept.length) (Fin m) ℝ} {X : Matrix (Fin kept.length) (Fin k) ℝ} (hs : Sample u.checkNan data kept Y X) {r : ExtRes}
    (e : extended lu f u N0 m0 k0 n0 other data m R maxProb newX checks storage work = .ok r) :
    IsM r.y Y ∧ IsM r.x X ∧ EnoughObs checks kept.length k ∧ (∀ z, newX = some z → 0 < z.rows → z.cols = k) ∧
    (∃ R', (u.opts.maxIter > 0 → ∃ R0, R = some R0 ∧ R' = some { R0 with rows := m * k, cols := m * k }) ∧ (u.opts.maxIter ≤ 0 → R' = R) ∧
      ∃ st, sur lu f u.opts N0 m0 k0 r.y r.x R' maxProb st work = .ok r.res ∧
        condition lu f u.opts r.y r.x R' maxProb st work = .ok r.condition) ∧
    Accepted checks (.num r.condition) r.aic r.sic r.r2 := by
  obtain ⟨t, ht, e'⟩ := extended_eq (lu := lu) (f := f) (other := other) (R := R) (maxProb := maxProb) (checks := checks) h hs
  rw [e'] at e
  unfold extTail at e
  rw [ht.rows] at e
  by_cases ho : EnoughObs checks kept.length k
  swap
  · rw [if_pos (fewObs_iff.2 ho)] at e; cases e
  rw [if_neg (fun hh => fewObs_iff.1 hh ho)] at e
  dsimp only at e
  by_cases hb : badNew newX k
  · rw [if_pos hb] at e; cases e
  rw [if_neg hb] at e
  obtain ⟨R', e1, e⟩ := Dc.bind_ok e
  obtain ⟨res, e2, e⟩ := Dc.bind_ok e
  obtain ⟨cn, e3, e⟩ := Dc.bind_ok e
  unfold extAfter at e
  dsimp only at e
  by_cases hg : badFit checks (.num cn) (if u.opts.details then aic (logL kept.length m res.detS) (k * m) else .nan)
      (if u.opts.details then sic (logL kept.length m res.detS) kept.length (k * m) else .nan) (fitR2 res.fit)
  · rw [if_pos hg] at e; cases e
  rw [if_neg hg] at e
  obtain ⟨pr, -, e⟩ := Dc.bind_ok e
  have er := Outcome.ok.inj e
  subst er
  refine ⟨ht.y, ht.x, ho, ?_, ⟨R', ?_, ?_, _, e2, e3⟩, ?_⟩
  · rintro z rfl hz
    by_contra hc
    exact hb ⟨hz, hc⟩
  · intro hp
    unfold extR at e1
    rw [if_pos hp] at e1
    cases R with
    | none => cases e1
    | some R0 => exact ⟨R0, rfl, (Outcome.ok.inj e1).symm⟩
  · intro hp
    unfold extR at e1
    rw [if_neg (by omega)] at e1
    exact (Outcome.ok.inj e1).symm
  · by_contra hc
    exact hg (badFit_iff.2 hc)

/-- **C123**: new rows with another number of columns are refused, and so is a search without a matrix for the selection. -/
theorem C123_refused (lu : List ℝ → List ℝ) (f : Fns ℝ) {u : ExtSetup} {N0 m0 k0 n0 : ℤ} {other : Outcome ExtRes} {data : Mat (Val ℝ)} {m k : ℕ}
    {R : Option (Mat ℝ)} {maxProb : ℝ} {newX : Option (Mat ℝ)} {checks : Option (SOpt.Checks ℝ)} {storage work : List ℝ}
    (h : Made u N0 m0 k0 n0 data m k newX storage work) {kept : List ℤ}
    {Y : Matrix (Fin kept.length) (Fin m) ℝ} {X : Matrix (Fin kept.length) (Fin k) ℝ} (hs : Sample u.checkNan data kept Y X)
    (hb : (∃ z, newX = some z ∧ 0 < z.rows ∧ z.cols ≠ k) ∨ (0 < u.maxIter ∧ R = none)) :
    extended lu f u N0 m0 k0 n0 other data m R maxProb newX checks storage work = .throws := by
  obtain ⟨t, ht, e'⟩ := extended_eq (lu := lu) (f := f) (other := other) (R := R) (maxProb := maxProb) (checks := checks) h hs
  rw [e']
  unfold extTail
  rw [ht.rows]
  by_cases ho : fewObs checks kept.length k
  · rw [if_pos ho]
  rw [if_neg ho]
  dsimp only
  rcases hb with ⟨z, rfl, h1, h2⟩ | ⟨h1, rfl⟩
  · rw [if_pos (show badNew (some z) k from ⟨h1, h2⟩)]
  · by_cases hb : badNew newX k
    · rw [if_pos hb]
    rw [if_neg hb]
    unfold extR
    have : u.opts.maxIter > 0 := by
      unfold ExtSetup.opts Opts.make
      split <;> exact h1
    rw [if_pos this]
    rfl

/-- **C123**: every table has its sample of complete rows (which may be empty). -/
theorem C123_sample (data : Mat (Val ℝ)) {m k : ℕ} (hc : data.cols = m + k) : ∃ (kept : List ℤ) (Y : Matrix (Fin kept.length) (Fin m) ℝ)
    (X : Matrix (Fin kept.length) (Fin k) ℝ), Sample true data kept Y X := by
  classical
  have hk : CompleteRows Option.isNone data (upTo 0 data.cols)
      ((upTo 0 data.rows).filter fun i => decide (Complete Option.isNone data (upTo 0 data.cols) i)) := by
    refine ⟨(upTo_sorted 0 data.rows).filter _, fun i => ?_⟩
    rw [List.mem_filter, mem_upTo, decide_eq_true_iff]
    tauto
  generalize ((upTo 0 data.rows).filter fun i => decide (Complete Option.isNone data (upTo 0 data.cols) i)) = kept at hk
  have hv : ∀ (i : Fin kept.length) (c : ℕ), (c : ℤ) < data.cols → ∃ v : ℝ, data.get (kept.get i) (c : ℤ) = .ok (some v) := fun i c hcl => by
    obtain ⟨-, -, h⟩ := (hk.mem (kept.get i)).1 (List.get_mem _ _)
    obtain ⟨v, e, hn⟩ := h c (mem_upTo.2 ⟨by omega, hcl⟩)
    cases v with
    | none => cases hn
    | some v => exact ⟨v, e⟩
  refine ⟨kept, fun i j => (hv i j (by have := j.2; omega)).choose, fun i l => (hv i (m + (l : ℕ)) (by have := l.2; push_cast; omega)).choose,
    hc, ?_, fun i j => (hv i j (by have := j.2; omega)).choose_spec,
    fun i l => (hv i (m + (l : ℕ)) (by have := l.2; push_cast; omega)).choose_spec⟩
  unfold UsedRows
  rw [if_pos rfl]
  exact hk

/-- A concrete case: four rows, one of them with a missing cell, and a constant; one new row. -/
example (lu : List ℝ → List ℝ) (f : Fns ℝ) (other : Outcome ExtRes) : ∃ r,
    extended lu f ⟨false, true, true, 0, true⟩ 4 1 1 1 other ⟨4, 2, some [some 0, some 1, none, some 2, some 1, some 1, some 1, some 1]⟩ 1 none 0
      (some ⟨1, 1, some [1]⟩) none (List.replicate 40 0) (List.replicate 20 0) = .ok r ∧ ∃ p, r.proj = some p ∧ p.means.get 0 0 = .ok 1 := by
  have hs : Sample true ⟨4, 2, some [some 0, some 1, none, some 2, some 1, some 1, some 1, some 1]⟩ [0, 1, 3] (m := 1) (k := 1)
      (![![0], ![1], ![2]] : Matrix (Fin 3) (Fin 1) ℝ) (fun _ _ => 1 : Matrix (Fin 3) (Fin 1) ℝ) := by
    refine ⟨rfl, ?_, ?_, ?_⟩
    · unfold UsedRows
      rw [if_pos rfl]
      refine ⟨by decide, fun i => ?_⟩
      have hcomp : ∀ i : ℤ, i = 0 ∨ i = 1 ∨ i = 3 → Complete Option.isNone
          (⟨4, 2, some [some 0, some 1, none, some 2, some 1, some 1, some 1, some 1]⟩ : Mat (Val ℝ)) (upTo 0 2) i := by
        rintro i hi c hc
        have hc' : c = 0 ∨ c = 1 := by have := mem_upTo.1 hc; omega
        rcases hi with rfl | rfl | rfl <;> rcases hc' with rfl | rfl <;> exact ⟨_, rfl, rfl⟩
      constructor
      · intro hi
        simp only [List.mem_cons, List.not_mem_nil, or_false] at hi
        refine ⟨by omega, show i < 4 by omega, hcomp i hi⟩
      · rintro ⟨h0, h1, h2⟩
        have h1' : i < 4 := h1
        have hne : i ≠ 2 := by
          rintro rfl
          obtain ⟨v, e, hn⟩ := h2 0 (by decide)
          have : v = none := (Outcome.ok.inj e).symm
          rw [this] at hn
          cases hn
        simp only [List.mem_cons, List.not_mem_nil, or_false]
        omega
    · intro i j
      fin_cases i <;> fin_cases j <;> rfl
    · intro i j
      fin_cases i <;> fin_cases j <;> rfl
  have hM : Made ⟨false, true, true, 0, true⟩ 4 1 1 1 ⟨4, 2, some [some 0, some 1, none, some 2, some 1, some 1, some 1, some 1]⟩ 1 1
      (some ⟨1, 1, some [1]⟩) (List.replicate 40 0) (List.replicate 20 0) :=
    ⟨⟨by decide, by decide, by simp, by rfl⟩, by decide, by decide, by decide, by decide, by decide, by decide, by decide,
      by rw [List.length_replicate]; decide, by rw [List.length_replicate]; decide⟩
  have hX : FullRank (fun _ _ => 1 : Matrix (Fin 3) (Fin 1) ℝ) := by
    intro b h
    have h0 := h 0
    simp at h0
    funext l
    fin_cases l
    exact h0
  obtain ⟨-, h⟩ := C123_estimate (n := 1) (other := other) (maxProb := 0) (checks := none) lu f hM rfl rfl hs
    (Z := fun _ _ => 1) (isM_list 1 1 [1] rfl (fun _ _ => 1) (by intro i j; fin_cases i; fin_cases j; rfl) : IsM (⟨1, 1, some [1]⟩ : Mat ℝ) _)
  obtain ⟨B, G, a, b, ls, -, -, -, -, h⟩ := h (fun c hc => by cases hc) ⟨by decide, hX, Or.inl rfl, fun _ => by decide⟩
  obtain ⟨r, e, hh, -⟩ := h (fun c hc => by cases hc)
  have hp := hh.projected
  rw [if_neg one_ne_zero] at hp
  obtain ⟨p, ep, hpm, -⟩ := hp
  refine ⟨r, e, p, ep, ?_⟩
  have : LeastSquares (![![0], ![1], ![2]] : Matrix (Fin 3) (Fin 1) ℝ) (fun _ _ => 1 : Matrix (Fin 3) (Fin 1) ℝ) !![1] := by
    intro j b
    simp only [squares, misfit, Fin.sum_univ_three]
    fin_cases j
    simp
    nlinarith [sq_nonneg (b 0 - 1)]
  have hB := (ls _).1 this
  have := hpm 0 0
  rw [← hB] at this
  simpa using this

end Su
end LDT
