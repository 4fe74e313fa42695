import Verif.Props.SurExt
import Verif.Props.SurR
/-! # C124: the condition number of a system of regressions -/
namespace LDT
namespace Su
open Mx Ls Op
open Co (part)
open Matrix

theorem det_of_rank {N k : ℕ} {X : Matrix (Fin N) (Fin k) ℝ} (hX : FullRank X) : (Xᵀ * X).det ≠ 0 := by
  have := gram_det_ne hX (PosDef.one (K := ℝ) (ι := Fin N)); rwa [Matrix.mul_one] at this

/-- **C124**, without restrictions: the number is `‖X'X‖ ‖(X'X)⁻¹‖`, with the greatest column sum as norm. It is at least one, and one for
regressors whose moments are a multiple of the identity; it does not change with the unit in which all regressors are measured. -/
theorem C124_unrestricted (lu : List ℝ → List ℝ) (f : Fns ℝ) {N k : ℕ} {y x : Mat ℝ} {X : Matrix (Fin N) (Fin k) ℝ} (hx : IsM x X) (pN : 0 < N)
    (pk : 0 < k) (hX : FullRank X) (details : Bool) (R : Option (Mat ℝ)) (maxProb : ℝ) (storage work : List ℝ) (hw : (k : ℤ) * k ≤ work.length) :
    ∃ c a b, condition lu f (Opts.make false details 0) y x R maxProb storage work = .ok c ∧ GreatestColumn (Xᵀ * X) a ∧
      GreatestColumn (Xᵀ * X)⁻¹ b ∧ c = a * b ∧ 1 ≤ c ∧ ((∃ s : ℝ, Xᵀ * X = s • 1) → c = 1) ∧
      ∀ (s : ℝ) (x' : Mat ℝ), s ≠ 0 → IsM x' (s • X) → condition lu f (Opts.make false details 0) y x' R maxProb storage work = .ok c := by
  have hd := det_of_rank hX
  have hu : IsUnit (Xᵀ * X).det := isUnit_iff_ne_zero.2 hd
  have hc : ∀ x : Mat ℝ, condition lu f (Opts.make false details 0) y x R maxProb storage work = condUn lu x work := fun x => by
    rw [make_zero]
    unfold condition
    rw [if_neg (by simp)]
  obtain ⟨a, b, e, ha, hb⟩ := condUn_spec lu hx pN pk work hw hd
  have h1 : (1 : ℝ) ≤ a * b := by
    refine GreatestColumn.mul_le ha hb ?_
    rw [Matrix.mul_nonsing_inv _ hu]
    exact greatest_one pk
  refine ⟨a * b, a, b, by rw [hc, e], ha, hb, rfl, h1, ?_, fun s x' hs hx' => ?_⟩
  · rintro ⟨s, hs⟩
    have hs0 : s ≠ 0 := by
      rintro rfl
      haveI : Nonempty (Fin k) := ⟨⟨0, pk⟩⟩
      rw [hs, zero_smul, Matrix.det_zero] at hd
      exact hd rfl
    have ea : a = |s| * 1 := by
      rw [hs] at ha
      exact ha.unique ((greatest_one pk).smul s)
    have eb : b = |s⁻¹| * 1 := by
      have : (Xᵀ * X)⁻¹ = s⁻¹ • 1 := by
        refine Matrix.inv_eq_left_inv ?_
        rw [hs, Matrix.smul_mul, Matrix.one_mul, smul_smul, inv_mul_cancel₀ hs0, one_smul]
      rw [this] at hb
      exact hb.unique ((greatest_one pk).smul _)
    rw [ea, eb, mul_one, mul_one, ← abs_mul, mul_inv_cancel₀ hs0, abs_one]
  · have hg : (s • X)ᵀ * (s • X) = (s * s) • (Xᵀ * X) := by
      rw [Matrix.transpose_smul, Matrix.smul_mul, Matrix.mul_smul, smul_smul]
    have hss : s * s ≠ 0 := mul_ne_zero hs hs
    have hd' : ((s • X)ᵀ * (s • X)).det ≠ 0 := by
      rw [hg, Matrix.det_smul]
      exact mul_ne_zero (pow_ne_zero _ hss) hd
    obtain ⟨a', b', e', ha', hb'⟩ := condUn_spec lu hx' pN pk work hw hd'
    rw [hc, e']
    have ea : a' = |s * s| * a := by
      rw [hg] at ha'
      exact ha'.unique (ha.smul _)
    have eb : b' = |(s * s)⁻¹| * b := by
      have : ((s • X)ᵀ * (s • X))⁻¹ = (s * s)⁻¹ • (Xᵀ * X)⁻¹ := by
        refine Matrix.inv_eq_left_inv ?_
        rw [hg, Matrix.smul_mul, Matrix.mul_smul, smul_smul, inv_mul_cancel₀ hss, one_smul, Matrix.nonsing_inv_mul _ hu]
      rw [this] at hb'
      exact hb'.unique (hb.smul _)
    rw [ea, eb]
    congr 1
    rw [abs_inv]
    have : |s * s| ≠ 0 := abs_ne_zero.2 hss
    field_simp

theorem halfway_eq {N m k q : ℕ} (W : Matrix (Fin m) (Fin m) ℝ) (X : Matrix (Fin N) (Fin k) ℝ) (R : Matrix (Fin (m * k)) (Fin q) ℝ) :
    Rᵀ * kronM W (Xᵀ * X) = halfway W X R := by
  funext a p
  unfold halfway
  rw [mul_apply, sum_split]
  refine Finset.sum_congr rfl fun j _ => Finset.sum_congr rfl fun l _ => ?_
  conv_lhs => rw [number_split p]
  rw [kronM_number, mul_apply, transpose_apply]
  rfl

theorem halfway_mul {N m k q : ℕ} (W : Matrix (Fin m) (Fin m) ℝ) (X : Matrix (Fin N) (Fin k) ℝ) (R : Matrix (Fin (m * k)) (Fin q) ℝ) :
    halfway W X R * R = information W X R := by
  rw [← halfway_eq, information_eq]; rfl

/-- **C124**, with given restrictions, as far as it goes: the number is `‖R'(W ⊗ X'X)‖ ‖V‖`, where `V` is the inverse of
`R'(W ⊗ X'X)R`. So it is the condition number of the system that is solved if `R` is the identity. Missing: with any `R` it should be
`‖R'(W ⊗ X'X)R‖ ‖V‖` (see `C124_restricted_violated`). -/
theorem C124_restricted_partial (lu : List ℝ → List ℝ) (f : Fns ℝ) {N m k q : ℕ} {y x Rs : Mat ℝ} {Y : Matrix (Fin N) (Fin m) ℝ}
    {X : Matrix (Fin N) (Fin k) ℝ} {R : Matrix (Fin (m * k)) (Fin q) ℝ} (hy : IsM y Y) (hx : IsM x X) (hR : IsM Rs R) (pN : 0 < N) (pm : 0 < m)
    (pk : 0 < k) (pq : 0 < q) (hq : q ≤ m * k) (det : Bool) (maxProb : ℝ) (storage work : List ℝ)
    (hs : storageSize (Opts.make true det 0) N m k ≤ storage.length) (hw : workSize (Opts.make true det 0) N m k ≤ work.length)
    (hX : FullRank X) (rR : FullRank R) (hE : ∀ B, LeastSquares Y X B → FullRank (left Y X B)) :
    ∃ (B : Matrix (Fin k) (Fin m) ℝ) (W : Matrix (Fin m) (Fin m) ℝ) (V : Matrix (Fin q) (Fin q) ℝ) (a b : ℝ),
      LeastSquares Y X B ∧ W * cov (left Y X B) = 1 ∧ V * information W X R = 1 ∧
      condition lu f (Opts.make true det 0) y x (some Rs) maxProb storage work = .ok (a * b) ∧
      GreatestColumn (halfway W X R) a ∧ GreatestColumn V b ∧
      (∀ h : q = m * k, R.submatrix id (Fin.cast h.symm) = 1 → GreatestColumn (information W X R) a ∧ 1 ≤ a * b) := by
  rw [make_zero] at hs hw ⊢
  have en := enough ⟨true, det, 0⟩ pm pk storage work hs hw
  obtain ⟨ro, rg, rv⟩ := layout_room storage en.room
  have hd := det_of_rank hX
  obtain ⟨e0, e1, u⟩ := (estimUn_core lu hy hx pN pm pk work en.un _ ro rg rv false).1 hd
  have hls : LeastSquares Y X ((Xᵀ * X)⁻¹ * (Xᵀ * Y)) := (leastSquares_iff hX _).2 rfl
  have hfr := hE _ hls
  generalize hB : (Xᵀ * X)⁻¹ * (Xᵀ * Y) = B at u hls hfr
  have hc : covM (Y - X * B) = cov (left Y X B) := by rw [cov_eq, left_eq]
  have ures := u.residVar
  rw [hc] at ures
  have hpd := (posDef_cov pN _).2 hfr
  have hcd := hpd.det_ne
  have hg := gramR_det_ne hpd.inv hX rR
  obtain ⟨a, b, ec, ha, hb⟩ := condR_spec lu hy hx hR pN pm pk pq hq work (en.re rfl q hq) e0 u.room ures hcd hg
  rw [halfway_eq] at ha
  have hinf := Matrix.nonsing_inv_mul _ (isUnit_iff_ne_zero.2 hg)
  have hinf' := Matrix.mul_nonsing_inv _ (isUnit_iff_ne_zero.2 hg)
  rw [← information_eq] at hinf hinf' hb
  refine ⟨B, (cov (left Y X B))⁻¹, _, a, b, hls, Matrix.nonsing_inv_mul _ (isUnit_iff_ne_zero.2 hcd), hinf, ?_, ha, hb, ?_⟩
  · unfold condition
    simp only [if_true, hy.rows, hy.cols, hx.cols, e1, Outcome.ok_bind, ec]
  · intro h h1
    subst h
    have : R = 1 := h1
    have hh : GreatestColumn (information (cov (left Y X B))⁻¹ X R) a := by
      rw [← halfway_mul]
      rw [this, Matrix.mul_one]
      rw [this] at ha
      exact ha
    refine ⟨hh, ?_⟩
    refine GreatestColumn.mul_le hh hb ?_
    rw [hinf']
    exact greatest_one pq

/-- **C124**, with restrictions, is false of the code: in one equation with one regressor and the restriction that the coefficient is `r` times the free
one, the reported number is `1 / |r|`, whatever the data are. The condition number of the system that is solved is one. -/
theorem C124_restricted_violated (lu : List ℝ → List ℝ) (f : Fns ℝ) {N : ℕ} {y x : Mat ℝ} {Y X : Matrix (Fin N) (Fin 1) ℝ} (hy : IsM y Y)
    (hx : IsM x X) (pN : 0 < N) (r : ℝ) (hr : r ≠ 0) (det : Bool) (maxProb : ℝ) (storage work : List ℝ)
    (hs : storageSize (Opts.make true det 0) N 1 1 ≤ storage.length) (hw : workSize (Opts.make true det 0) N 1 1 ≤ work.length)
    (hX : FullRank X) (hE : ∀ B, LeastSquares Y X B → FullRank (left Y X B)) :
    condition lu f (Opts.make true det 0) y x (some ⟨1, 1, some [r]⟩) maxProb storage work = .ok (1 / |r|) ∧
    ∀ (A V : Matrix (Fin 1) (Fin 1) ℝ) (a b : ℝ), V * A = 1 → GreatestColumn A a → GreatestColumn V b → a * b = 1 := by
  have one : ∀ (A : Matrix (Fin 1) (Fin 1) ℝ) (a : ℝ), GreatestColumn A a → a = |A 0 0| := fun A a h => by
    obtain ⟨-, j, e⟩ := h
    rw [← e, Subsingleton.elim j 0]
    simp
  constructor
  · obtain ⟨R, hRr, hR⟩ : ∃ R : Matrix (Fin (1 * 1)) (Fin 1) ℝ, (∀ i j, R i j = r) ∧ IsM (⟨1, 1, some [r]⟩ : Mat ℝ) R :=
      ⟨fun _ _ => r, fun _ _ => rfl, isM_list 1 1 [r] rfl _ (by intro i j; fin_cases i; fin_cases j; rfl)⟩
    obtain ⟨B, W, V, a, b, -, -, hV, e, ha, hb, -⟩ := C124_restricted_partial lu f hy hx hR pN one_pos one_pos one_pos le_rfl det maxProb
      storage work hs hw hX (by
        intro v h; funext i
        have := h 0
        simp [hr, hRr] at this
        rw [Subsingleton.elim i 0]; exact this) hE
    rw [e]
    congr 1
    rw [one _ _ ha, one _ _ hb]
    rw [← halfway_mul] at hV
    have h1 := congrFun (congrFun hV 0) 0
    have h2 : V 0 0 * (halfway W X R 0 0 * r) = 1 := by
      rw [mul_apply, Fin.sum_univ_one, mul_apply, one_apply_eq] at h1
      have h4 : ∑ j, halfway W X R 0 j * R j 0 = halfway W X R 0 0 * r := by
        rw [Finset.sum_congr rfl fun j _ => by rw [hRr j 0]]
        exact Fin.sum_univ_one (fun j : Fin 1 => halfway W X R 0 j * r)
      rw [h4] at h1
      exact h1
    rw [← abs_mul]
    have h3 : halfway W X R 0 0 * V 0 0 = 1 / r := by field_simp; linarith
    rw [h3, abs_div, abs_one]
  · intro A V a b h ha hb
    rw [one _ _ ha, one _ _ hb, ← abs_mul]
    have h1 := congrFun (congrFun h 0) 0
    rw [mul_apply, Fin.sum_univ_one, one_apply_eq] at h1
    rw [mul_comm, h1, abs_one]

/-- A concrete case of both: three observations of one variable with a constant; the number is `1` without the restriction and `1/2` with
`r = 2` - less than any condition number. -/
example (lu : List ℝ → List ℝ) (f : Fns ℝ) :
    condition lu f (Opts.make false false 0) ⟨3, 1, some [0, 1, 2]⟩ ⟨3, 1, some [1, 1, 1]⟩ none 0 [] [0] = .ok 1 ∧
    condition lu f (Opts.make true false 0) ⟨3, 1, some [0, 1, 2]⟩ ⟨3, 1, some [1, 1, 1]⟩ (some ⟨1, 1, some [2]⟩) 0 (List.replicate 20 0)
      (List.replicate 40 0) = .ok (1 / 2) := by
  have hy : IsM (⟨3, 1, some [0, 1, 2]⟩ : Mat ℝ) (![![0], ![1], ![2]] : Matrix (Fin 3) (Fin 1) ℝ) :=
    isM_list 3 1 [0, 1, 2] rfl _ (by intro i j; fin_cases i <;> fin_cases j <;> rfl)
  have hx : IsM (⟨3, 1, some [1, 1, 1]⟩ : Mat ℝ) (fun _ _ => 1 : Matrix (Fin 3) (Fin 1) ℝ) :=
    isM_list 3 1 [1, 1, 1] rfl _ (by intro i j; fin_cases i <;> fin_cases j <;> rfl)
  have hX : FullRank (fun _ _ => 1 : Matrix (Fin 3) (Fin 1) ℝ) := by
    intro b h
    have h0 := h 0
    simp at h0
    funext l
    fin_cases l
    exact h0
  constructor
  · obtain ⟨c, a, b, e, -, -, -, -, h, -⟩ := C124_unrestricted lu f (y := ⟨3, 1, some [0, 1, 2]⟩) hx (by decide) (by decide) hX false none 0 [] [0]
      (by decide)
    rw [e, h ⟨3, ?_⟩]
    ext i j
    fin_cases i
    fin_cases j
    show ∑ x : Fin 3, (1 : ℝ) * 1 = 3 * (1 : Matrix (Fin 1) (Fin 1) ℝ) 0 0
    rw [one_apply_eq]
    simp
  · have := (C124_restricted_violated lu f hy hx (by decide) 2 two_ne_zero false 0 (List.replicate 20 0) (List.replicate 40 0)
      (by rw [List.length_replicate]; decide) (by rw [List.length_replicate]; decide) hX (by
        intro B _ b h
        have h0 := h 0
        have h1 := h 1
        simp [left] at h0 h1
        funext l
        fin_cases l
        rcases h0 with h0 | h0
        · rw [h0] at h1; simpa using h1
        · exact h0)).1
    rw [this, abs_two]

end Su
end LDT
