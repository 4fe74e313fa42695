import Verif.Model.SurProj
import Verif.Spec.SurProj
import Verif.Lemmas.SurSys
import Verif.Props.MatrixVecProd
/-! # The loop of the projections -/
namespace LDT
namespace Su
open Mx Matrix Ls
open Co (part)

section
variable {K : Type} [Field K] [DecidableEq K] {n m k q : Nat}

theorem getRow0_isM {x row : Mat K} {X : Matrix (Fin n) (Fin k) K} (hx : IsM x X) (hr : Sized row k 1) (i : Fin n) :
    ∃ r, x.getRow0 (i : Nat) row = .ok r ∧ IsM r (fun l _ => X i l : Matrix (Fin k) (Fin 1) K) := by
  have hi := i.2
  obtain ⟨r, e, s, v⟩ := getRow0_spec x row hx.wf hr.wf (i : Nat) (by omega) (by rw [hx.rows]; omega)
    (by unfold Mat.length; rw [hr.rows, hr.cols, hx.cols]; simp)
  refine ⟨r, e, isM_of_get (hr.same s) fun l j => ?_⟩
  have hl := l.2
  have hj : (j : Nat) = 0 := by omega
  have hs := hr.same s
  rw [get_eq_get0 hs.wf (hs.inR l j)]
  unfold Mat.get0
  rw [hj, Nat.cast_zero, mul_zero, add_zero, v _ (by omega) (by rw [hx.cols]; omega), get0_val hx.wf (hx.toSized.inR i l), hx.val]

theorem tDotVector_isM {b r t : Mat K} {B : Matrix (Fin k) (Fin m) K} {v : Matrix (Fin k) (Fin 1) K} (hb : IsM b B) (hr : IsM r v)
    (ht : Sized t m 1) (pk : 0 < k) (pm : 0 < m) : ∃ res, b.tDotVector r t 1 0 = .ok res ∧ IsM res (Bᵀ * v) := by
  obtain ⟨res, e, s, h⟩ := (C92_t_dot_vector b r t hb.wf hr.wf ht.wf 1 0).1 (by rw [hr.cols]; rfl) (by rw [ht.cols]; rfl)
    (by rw [hb.rows, hr.rows]) (by rw [hb.cols, ht.rows]) (by rw [hb.rows]; omega) (by rw [hb.cols]; omega)
  refine ⟨res, e, ⟨ht.same s, fun j z => ?_⟩⟩
  have hj := j.2
  have hz : z = 0 := Subsingleton.elim _ _
  subst hz
  have := h (j : Nat) (by omega) (by rw [hb.cols]; omega)
  simp only [one_mul, zero_mul, add_zero] at this
  show res.val _ 0 = _
  rw [this, hb.rows, mul_apply]
  simp only [Int.toNat_natCast]
  rw [Finset.sum_range]
  refine Finset.sum_congr rfl fun l _ => ?_
  rw [hb.val, transpose_apply]
  congr 1
  exact hr.val l 0

theorem setRow0_val {A t : Mat K} {T : Matrix (Fin m) (Fin 1) K} (ha : Sized A n m) (ht : IsM t T) (i : Fin n) :
    ∃ res, A.setRow0 (i : Nat) t = .ok res ∧ Sized res n m ∧
      ∀ (i' : Fin n) (j : Fin m), res.val (i' : Nat) (j : Nat) = if i' = i then T j 0 else A.val (i' : Nat) (j : Nat) := by
  have hi := i.2
  obtain ⟨res, e, s, v, u⟩ := (C91_set_row_partial A t ha.wf ht.wf (i : Nat)).1 (by omega) (by rw [ha.rows]; omega)
    (by unfold Mat.length; rw [ht.rows, ht.cols, ha.cols]; simp)
  have hs := ha.same s
  refine ⟨res, ?_, hs, fun i' j => ?_⟩
  · unfold Mat.setRow at e; rw [if_neg (by rw [ha.rows]; omega)] at e; exact e
  · have hj := j.2
    have g := get_val hs.wf (hs.inR i' j)
    by_cases h : i' = i
    · subst h
      rw [if_pos rfl]
      rw [v (j : Nat) (by omega) (by rw [ha.cols]; omega), De.getLin_eq ht.wf (by omega) (by
        unfold Mat.length; rw [ht.rows, ht.cols]; simp), ht.read j 0 _ (by simp)] at g
      exact (Outcome.ok.inj g).symm
    · rw [if_neg h]
      rw [u _ _ (ha.inR i' j) (by intro hc; exact h (Fin.ext (by exact_mod_cast hc))), get_val ha.wf (ha.inR i' j)] at g
      exact (Outcome.ok.inj g).symm

theorem setRowFromDiag0_val {A c : Mat K} {C : Matrix (Fin m) (Fin m) K} (ha : Sized A n m) (hc : IsM c C) (i : Fin n) :
    ∃ res, A.setRowFromDiag0 (i : Nat) c = .ok res ∧ Sized res n m ∧
      ∀ (i' : Fin n) (j : Fin m), res.val (i' : Nat) (j : Nat) = if i' = i then C j j else A.val (i' : Nat) (j : Nat) := by
  have hi := i.2
  obtain ⟨res, e, s, v, u⟩ := (C91_row_from_diag A c ha.wf hc.wf (i : Nat)).1 (by omega) (by rw [ha.rows]; omega)
    (by rw [hc.rows, ha.cols]) (by rw [hc.cols, ha.cols])
  have hs := ha.same s
  refine ⟨res, ?_, hs, fun i' j => ?_⟩
  · unfold Mat.setRowFromDiag at e
    rw [if_neg (by rw [ha.rows]; omega), if_neg (by rw [hc.rows, hc.cols, ha.cols]; omega)] at e; exact e
  · have hj := j.2
    have g := get_val hs.wf (hs.inR i' j)
    by_cases h : i' = i
    · subst h
      rw [if_pos rfl]
      rw [v (j : Nat) (by omega) (by rw [ha.cols]; omega), get_isM hc j j] at g
      exact (Outcome.ok.inj g).symm
    · rw [if_neg h]
      rw [u _ _ (ha.inR i' j) (by intro hc; exact h (Fin.ext (by exact_mod_cast hc))), get_val ha.wf (ha.inR i' j)] at g
      exact (Outcome.ok.inj g).symm

/-- `I ⊗ x` -/
def place (x : Fin k → K) : Matrix (Fin (m * k)) (Fin m) K := fun p j => if p.divNat = j then x p.modNat else 0

theorem idenKron_place {row iox : Mat K} {x : Fin k → K} (hr : IsM row (fun l _ => x l : Matrix (Fin k) (Fin 1) K))
    (hs : Sized iox (m * k) m) :
    ∃ res, row.idenKron m iox = .ok res ∧ IsM res (place x : Matrix (Fin (m * k)) (Fin m) K) := by
  obtain ⟨res, e, i, s⟩ := idenKron_isM hr (h := m) (S := iox) (by rw [mul_one]; exact hs)
  refine ⟨res, e, isM_of_get (hs.same s) fun p j => ?_⟩
  have := get_isM i p ⟨(j : Nat), by rw [mul_one]; exact j.2⟩
  rw [this]
  unfold kronM place
  congr 1
  have e1 : (⟨(j : Nat), by rw [mul_one]; exact j.2⟩ : Fin (m * 1)).divNat = j := by
    apply Fin.ext; simp [Fin.divNat]
  rw [e1, one_apply]
  split_ifs <;> simp

theorem place_form (Q : Matrix (Fin (m * k)) (Fin (m * k)) K) (x : Fin k → K) (j j' : Fin m) :
    ((place x : Matrix (Fin (m * k)) (Fin m) K)ᵀ * Q * (place x : Matrix (Fin (m * k)) (Fin m) K) : Matrix (Fin m) (Fin m) K) j j' = ∑ l, ∑ l', x l * Q (number j l) (number j' l') * x l' := by
  simp only [Matrix.mul_apply, transpose_apply, Finset.sum_mul]
  rw [Finset.sum_comm, sum_split]
  rw [Finset.sum_eq_single j]
  · refine Finset.sum_congr rfl fun l _ => ?_
    rw [sum_split, Finset.sum_eq_single j']
    · refine Finset.sum_congr rfl fun l' _ => ?_
      simp [place]
    · intro b _ hb
      refine Finset.sum_eq_zero fun l' _ => ?_
      simp [place, hb]
    · simp
  · intro b _ hb
    refine Finset.sum_eq_zero fun l _ => Finset.sum_eq_zero fun p _ => ?_
    simp [place, hb]
  · simp

theorem coefCov_eq (R : Matrix (Fin (m * k)) (Fin q) K) (V : Matrix (Fin q) (Fin q) K) : coefCov R V = R * V * Rᵀ := by
  funext p p'
  unfold coefCov
  simp only [mul_apply, transpose_apply, Finset.sum_mul]
  rw [Finset.sum_comm]

/-- The places for the covariances are there. -/
structure CovRoom (m k q : Nat) (restricted : Bool) (s : Proj K) : Prop where
  covariance : Sized s.covariance m m
  iox : Sized s.iox (m * k) m
  rg : Sized s.rg m q
  ri : restricted = true → Sized s.ri q m

theorem projCov_un {e : Est K} {s : Proj K} {V : Matrix (Fin (m * k)) (Fin (m * k)) K} {S : Matrix (Fin m) (Fin m) K}
    (hV : IsM e.gammaVar V) (hS : IsM e.residVar S) (pm : 0 < m) (pk : 0 < k) (cr : CovRoom m k (m * k) false s) {x : Fin k → K}
    (hr : IsM s.row (fun l _ => x l : Matrix (Fin k) (Fin 1) K)) :
    ∃ iox rg c, projCov m e none s = .ok { s with iox := iox, rg := rg, covariance := c } ∧ Sized iox (m * k) m ∧
      Sized rg m (m * k) ∧ IsM c (projectionCov V S x) := by
  have pmk : 0 < m * k := Nat.mul_pos pm pk
  obtain ⟨iox, e1, i1⟩ := idenKron_place hr cr.iox
  obtain ⟨rg, e2, i2, -⟩ := trDot0_isM i1 hV cr.rg pm pmk
  obtain ⟨c, e3, i3, -⟩ := dot0_isM i2 i1 cr.covariance pm pmk
  obtain ⟨d, e4, i4, -⟩ := addMIn_isM i3 hS
  rw [← trDot_eq (by rw [i1.rows, hV.rows]) (by rw [i1.cols, cr.rg.rows]) (by rw [hV.cols, cr.rg.cols])] at e2
  rw [← dot_eq (by rw [i2.cols, i1.rows]) (by rw [i2.rows, cr.covariance.rows]) (by rw [i1.cols, cr.covariance.cols])] at e3
  refine ⟨iox, rg, d, ?_, i1.toSized, i2.toSized, ?_⟩
  · unfold projCov
    simp only [e1, e2, e3, e4, Outcome.ok_bind]; rfl
  · have : (place x : Matrix (Fin (m * k)) (Fin m) K)ᵀ * V * place x + S = projectionCov V S x := by
      funext j j'
      rw [Matrix.add_apply, place_form, add_comm]; rfl
    rw [← this]; exact i4

theorem projCov_r {e : Est K} {s : Proj K} {Rs : Mat K} {R : Matrix (Fin (m * k)) (Fin q) K} {V : Matrix (Fin q) (Fin q) K}
    {S : Matrix (Fin m) (Fin m) K} (hR : IsM Rs R)
    (hV : IsM e.gammaVar V) (hS : IsM e.residVar S) (pm : 0 < m) (pk : 0 < k) (pq : 0 < q) (cr : CovRoom m k q true s) {x : Fin k → K}
    (hr : IsM s.row (fun l _ => x l : Matrix (Fin k) (Fin 1) K)) :
    ∃ iox ri rg c, projCov m e (some Rs) s = .ok { s with iox := iox, ri := ri, rg := rg, covariance := c } ∧ Sized iox (m * k) m ∧
      Sized ri q m ∧ Sized rg m q ∧ IsM c (projectionCov (coefCov R V) S x) := by
  have pmk : 0 < m * k := Nat.mul_pos pm pk
  obtain ⟨iox, e1, i1⟩ := idenKron_place hr cr.iox
  have sri := cr.ri rfl
  obtain ⟨ri, e0, i0, -⟩ := trDot0_isM hR i1 sri pq pmk
  obtain ⟨rg, e2, i2, -⟩ := trDot0_isM i0 hV cr.rg pm pq
  obtain ⟨c, e3, i3, -⟩ := dot0_isM i2 i0 cr.covariance pm pq
  obtain ⟨d, e4, i4, -⟩ := addMIn_isM i3 hS
  rw [← trDot_eq (by rw [hR.rows, i1.rows]) (by rw [hR.cols, sri.rows]) (by rw [i1.cols, sri.cols])] at e0
  rw [← trDot_eq (by rw [i0.rows, hV.rows]) (by rw [i0.cols, cr.rg.rows]) (by rw [hV.cols, cr.rg.cols])] at e2
  rw [← dot_eq (by rw [i2.cols, i0.rows]) (by rw [i2.rows, cr.covariance.rows]) (by rw [i0.cols, cr.covariance.cols])] at e3
  refine ⟨iox, ri, rg, d, ?_, i1.toSized, i0.toSized, i2.toSized, ?_⟩
  · unfold projCov
    simp only [e1, e0, e2, e3, e4, Outcome.ok_bind]; rfl
  · have : (Rᵀ * (place x : Matrix (Fin (m * k)) (Fin m) K))ᵀ * V * (Rᵀ * place x) + S = projectionCov (coefCov R V) S x := by
      have h1 : (Rᵀ * (place x : Matrix (Fin (m * k)) (Fin m) K))ᵀ * V * (Rᵀ * place x) =
          (place x : Matrix (Fin (m * k)) (Fin m) K)ᵀ * coefCov R V * place x := by
        rw [coefCov_eq, transpose_mul, transpose_transpose]
        simp only [Matrix.mul_assoc]
      rw [h1]
      funext j j'
      rw [Matrix.add_apply, place_form, add_comm]; rfl
    rw [← this]; exact i4

/-- The rows before `t` are done. -/
structure Rows (restricted doVar : Bool) (q : Nat) (X : Matrix (Fin n) (Fin k) K) (B : Matrix (Fin k) (Fin m) K)
    (C : Fin n → Matrix (Fin m) (Fin m) K) (t : Int) (s : Proj K) : Prop where
  means : Sized s.means n m
  mean : ∀ (i : Fin n) (j : Fin m), ((i : Nat) : Int) < t → s.means.val (i : Nat) (j : Nat) = ∑ l, X i l * B l j
  row : Sized s.row k 1
  tv : Sized s.t m 1
  room : doVar = true → CovRoom m k q restricted s ∧ Sized s.variances n m
  variance : doVar = true → ∀ (i : Fin n) (j : Fin m), ((i : Nat) : Int) < t → s.variances.val (i : Nat) (j : Nat) = C i j j
  last : doVar = true → ∀ i : Fin n, ((i : Nat) : Int) + 1 = t → IsM s.covariance (C i)

/-- The loop, for any way to compute the covariances. -/
theorem rows_loop (restricted doVar : Bool) {e : Est K} {x : Mat K} {X : Matrix (Fin n) (Fin k) K} {B : Matrix (Fin k) (Fin m) K}
    (hx : IsM x X) (hB : IsM e.beta B) (pm : 0 < m) (pk : 0 < k) (C : Fin n → Matrix (Fin m) (Fin m) K) (R : Option (Mat K))
    (hC : doVar = true → ∀ (s : Proj K) (i : Fin n), CovRoom m k q restricted s →
      IsM s.row (fun l _ => X i l : Matrix (Fin k) (Fin 1) K) →
      ∃ s', projCov m e R s = .ok s' ∧ s'.means = s.means ∧ s'.variances = s.variances ∧ s'.t = s.t ∧ s'.row = s.row ∧
        CovRoom m k q restricted s' ∧ IsM s'.covariance (C i))
    {s : Proj K} (h0 : Rows restricted doVar q X B C 0 s) :
    ∃ s', (upTo 0 (n : Int)).foldlM (projRow doVar m e R x) s = .ok s' ∧ Rows restricted doVar q X B C n s' := by
  refine loop_inv (by omega) _ _ h0 ?_
  intro t ht0 ht1 s h
  have htn : t.toNat < n := by omega
  set i : Fin n := ⟨t.toNat, htn⟩ with hi
  have hit : ((i : Nat) : Int) = t := by simp [hi]; omega
  obtain ⟨row, e1, i1⟩ := getRow0_isM hx h.row i
  obtain ⟨tv, e2, i2⟩ := tDotVector_isM hB i1 h.tv pk pm
  obtain ⟨means, e3, s3, v3⟩ := setRow0_val h.means i2 i
  rw [hit] at e1 e3
  have hmean : ∀ (i' : Fin n) (j : Fin m), ((i' : Nat) : Int) < t + 1 → means.val (i' : Nat) (j : Nat) = ∑ l, X i' l * B l j := by
    intro i' j hi'
    rw [v3]
    split_ifs with hc
    · subst hc
      refine (mul_apply ..).trans (Finset.sum_congr rfl fun l _ => ?_)
      rw [transpose_apply, mul_comm]
    · refine h.mean i' j ?_
      have : (i' : Nat) ≠ t.toNat := fun hh => hc (Fin.ext hh)
      omega
  cases hd : doVar with
  | false =>
    subst hd
    refine ⟨{ s with row := row, t := tv, means := means }, ?_, s3, hmean, i1.toSized, i2.toSized, by simp, by simp, by simp⟩
    unfold projRow
    simp only [e1, e2, e3, Outcome.ok_bind, Bool.false_eq_true, if_false]; rfl
  | true =>
    subst hd
    have hroom := h.room rfl
    obtain ⟨s', e4, q1, q2, q3, q4, q5, q6⟩ := hC rfl { s with row := row, t := tv, means := means } i
      ⟨hroom.1.covariance, hroom.1.iox, hroom.1.rg, hroom.1.ri⟩ i1
    obtain ⟨vs, e5, s5, v5⟩ := setRowFromDiag0_val (A := s'.variances) (by rw [q2]; exact hroom.2) q6 i
    rw [hit] at e5
    refine ⟨{ s' with variances := vs }, ?_, ?_, ?_, ?_, ?_, ?_, ?_, ?_⟩
    · unfold projRow
      simp only [e1, e2, e3, Outcome.ok_bind, if_true, e4, e5]; rfl
    · show Sized s'.means n m
      rw [q1]; exact s3
    · show ∀ (i : Fin n) (j : Fin m), _ → s'.means.val _ _ = _
      rw [q1]; exact hmean
    · show Sized s'.row k 1
      rw [q4]; exact i1.toSized
    · show Sized s'.t m 1
      rw [q3]; exact i2.toSized
    · intro _
      exact ⟨⟨q5.covariance, q5.iox, q5.rg, q5.ri⟩, s5⟩
    · intro _ i' j hi'
      show vs.val _ _ = _
      rw [v5]
      split_ifs with hc
      · rw [hc]
      · rw [q2]
        refine h.variance rfl i' j ?_
        have : (i' : Nat) ≠ t.toNat := fun hh => hc (Fin.ext hh)
        omega
    · intro _ i' hi'
      have : i' = i := by apply Fin.ext; omega
      rw [this]; exact q6

end
end Su
end LDT
