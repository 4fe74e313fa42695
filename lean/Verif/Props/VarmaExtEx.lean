import Verif.Props.VarmaExtUse
import Verif.Props.VarmaExtPca
/-!
# C138: an example - three periods, an endogenous variable that is not observed in the last one, and an exogenous variable
-/
namespace LDT
namespace Vx
open Mx Op
open Arr (Val)

/-- The table. -/
noncomputable def exD : Mat (Val ℝ) := ⟨3, 2, some [some 1, some 2, none, some 3, some 4, some 5]⟩

/-- The setup: one equation, one exogenous variable, a horizon of one period. -/
noncomputable def exU : Setup := ⟨3, 1, 1, true, 1, none, none, false⟩

/-- The work array. -/
noncomputable def exB : Buffers := ⟨List.replicate 6 none, [none], [], [], [], []⟩

theorem exD_wf : exD.Wf := ⟨by decide, by decide, rfl, by decide⟩

theorem exD_cells : exD.get 0 0 = .ok (some 1) ∧ exD.get 1 0 = .ok (some 2) ∧ exD.get 2 0 = .ok none ∧
    exD.get 0 1 = .ok (some 3) ∧ exD.get 1 1 = .ok (some 4) ∧ exD.get 2 1 = .ok (some 5) := by
  refine ⟨?_, ?_, ?_, ?_, ?_, ?_⟩ <;>
  · rw [get_eq_get0 exD_wf ⟨by decide, by decide, by decide, by decide⟩]; rfl

theorem exD_sample : IsSample exD 0 1 := by
  obtain ⟨h1, h2, h3, h4, h5, h6⟩ := exD_cells
  refine ⟨le_rfl, by decide, by decide, fun t j a b c d => ?_, ⟨0, le_rfl, by decide, fun t a b => by omega⟩, ⟨0, le_rfl, by decide, fun t a b => ?_⟩⟩
  · have hd : j < 2 := d
    have ht : t = 0 ∨ t = 1 := by omega
    have hj : j = 0 ∨ j = 1 := by omega
    rcases ht with rfl | rfl <;> rcases hj with rfl | rfl
    exacts [⟨_, h1⟩, ⟨_, h4⟩, ⟨_, h2⟩, ⟨_, h5⟩]
  · have hb : t < 3 := b
    obtain rfl : t = 2 := by omega
    exact h3

theorem exD_noGaps : NoGaps exD := by
  obtain ⟨h1, h2, h3, h4, h5, h6⟩ := exD_cells
  intro j a t b hj hj' ha hat htb hb _ _ he
  have hb : b < 3 := hb
  have hj' : j < 2 := hj'
  obtain rfl : t = 1 := by omega
  have hj : j = 0 ∨ j = 1 := by omega
  rcases hj with rfl | rfl
  · rw [h2] at he; cases he
  · rw [h5] at he; cases he

theorem exFits : Fits exU exD exB 1 := ⟨exD_wf, by decide, by decide, by decide, by decide, by decide⟩

/-- The endogenous values are 1 and 2, the exogenous values 3 and 4, and the future value is 5. -/
example (L : Pc.Lapack) : ∃ e p X F, make (fun _ _ => .ok ()) exU = .ok e ∧ prepare L (fun _ _ => .ok ()) e exD 1 0 exB = .ok p ∧ p.sizes = (1, 1) ∧
    p.y.rows = 2 ∧ p.y.cols = 1 ∧ p.y.get 0 0 = .ok (some 1) ∧ p.y.get 1 0 = .ok (some 2) ∧
    p.x = some X ∧ X.get 0 0 = .ok (some 3) ∧ X.get 1 0 = .ok (some 4) ∧ p.future = some F ∧ F.rows = 1 ∧ F.get 0 0 = .ok (some 5) := by
  obtain ⟨h1, h2, h3, h4, h5, h6⟩ := exD_cells
  have hy : NoPca exU.pcaY := fun o h => by cases h
  have hx : NoPca exU.pcaX := fun o h => by cases h
  obtain ⟨e, he⟩ := (C138_made (other := fun _ _ => .ok ()) hy hx).2 ⟨by decide, by decide, rfl, rfl⟩
  obtain ⟨p, hp, by', hE, hs⟩ := C138_sample L he hy hx rfl exFits (S := 0) (E := 1) (se := 0) (h := 1) (by decide) (by decide) (by decide) (by decide) exD_sample
    exD_noGaps (by decide) (fun _ _ => by decide)
  obtain ⟨X, eX, bX⟩ := hE.2.1 (by decide)
  obtain ⟨F, eF, bF⟩ := hE.2.2 (by decide) (by decide)
  refine ⟨e, p, X, F, he, hp, hs, by'.rows, by'.cols, ?_, ?_, eX, ?_, ?_, eF, bF.rows, ?_⟩
  · rw [by'.cell 0 0 (by decide) (by decide) (by decide) (by decide)]; exact h1
  · rw [by'.cell 1 0 (by decide) (by decide) (by decide) (by decide)]; exact h2
  · rw [bX.cell 0 0 (by decide) (by decide) (by decide) (by decide)]; exact h4
  · rw [bX.cell 1 0 (by decide) (by decide) (by decide) (by decide)]; exact h5
  · rw [bF.cell 0 0 (by decide) (by decide) (by decide) (by decide)]; exact h6

/-! ## A table with a gap -/

noncomputable def exGap : Mat (Val ℝ) := ⟨3, 2, some [some 1, none, some 2, some 3, some 4, some 5]⟩

theorem exGap_wf : exGap.Wf := ⟨by decide, by decide, rfl, by decide⟩

/-- After the table with the gap, the table above is refused. -/
example (L : Pc.Lapack) : ∃ e, make (fun _ _ => .ok ()) exU = .ok e ∧ (∃ p, prepare L (fun _ _ => .ok ()) e exD 1 0 exB = .ok p) ∧
    ∀ p, prepare L (fun _ _ => .ok ()) (e.after exGap) exD 1 0 exB ≠ .ok p := by
  have hy : NoPca exU.pcaY := fun o h => by cases h
  have hx : NoPca exU.pcaX := fun o h => by cases h
  obtain ⟨e, he⟩ := (C138_made (other := fun _ _ => .ok ()) hy hx).2 ⟨by decide, by decide, rfl, rfl⟩
  have c : ∀ i j, exGap.InR i j → exGap.get i j = exGap.get0 i j := fun i j h => get_eq_get0 exGap_wf h
  have c00 : exGap.get 0 0 = .ok (some 1) := (c 0 0 ⟨by decide, by decide, by decide, by decide⟩).trans rfl
  have c10 : exGap.get 1 0 = .ok none := (c 1 0 ⟨by decide, by decide, by decide, by decide⟩).trans rfl
  have c20 : exGap.get 2 0 = .ok (some 2) := (c 2 0 ⟨by decide, by decide, by decide, by decide⟩).trans rfl
  have c01 : exGap.get 0 1 = .ok (some 3) := (c 0 1 ⟨by decide, by decide, by decide, by decide⟩).trans rfl
  obtain ⟨h1, h2⟩ := C138_history_violated L he hy hx rfl exGap_wf (by decide) (fun j h1 h2 => by
      have h2 : j < 2 := h2
      have hj : j = 0 ∨ j = 1 := by omega
      rcases hj with rfl | rfl
      exacts [⟨0, 1, le_rfl, by decide, c00⟩, ⟨0, 3, le_rfl, by decide, c01⟩])
    (fun hg => hg 0 0 1 2 le_rfl (by decide) le_rfl (by decide) (by decide) (by decide) ⟨_, c00⟩ ⟨_, c20⟩ c10)
    exFits (by decide) (by decide) (by decide) (by decide) exD_sample exD_noGaps (se := 0) (by decide) (fun _ _ => by decide)
  exact ⟨e, he, h1, fun p => h2 exD 1 0 exB p⟩

/-! ## Components: two endogenous variables of which at most one component is to be kept -/

noncomputable def pcD : Mat (Val ℝ) := ⟨3, 3, some [some 0, some 2, none, some 7, some 8, none, some 3, some 4, some 5]⟩

/-- One component, and at most one. -/
noncomputable def pcO : Pc.Options := { ignoreFirst := 0, exact := 1, countMax := 1 }

noncomputable def pcU : Setup := ⟨3, 2, 1, true, 1, some pcO, none, false⟩

theorem pcD_wf : pcD.Wf := ⟨by decide, by decide, rfl, by decide⟩

theorem pcD_cell (i j : Int) (h : pcD.InR i j) : pcD.get i j = pcD.get0 i j := get_eq_get0 pcD_wf h

theorem pcD_cells : pcD.get 0 0 = .ok (some 0) ∧ pcD.get 1 0 = .ok (some 2) ∧ pcD.get 2 0 = .ok none ∧
    pcD.get 0 1 = .ok (some 7) ∧ pcD.get 1 1 = .ok (some 8) ∧ pcD.get 2 1 = .ok none ∧
    pcD.get 0 2 = .ok (some 3) ∧ pcD.get 1 2 = .ok (some 4) ∧ pcD.get 2 2 = .ok (some 5) := by
  refine ⟨?_, ?_, ?_, ?_, ?_, ?_, ?_, ?_, ?_⟩ <;>
  · rw [get_eq_get0 pcD_wf ⟨by decide, by decide, by decide, by decide⟩]; rfl

theorem pcD_sample : IsSample pcD 0 1 := by
  obtain ⟨h1, h2, h3, h4, h5, h6, h7, h8, h9⟩ := pcD_cells
  refine ⟨le_rfl, by decide, by decide, fun t j a b c d => ?_, ⟨0, le_rfl, by decide, fun t a b => by omega⟩, ⟨0, le_rfl, by decide, fun t a b => ?_⟩⟩
  · have hd : j < 3 := d
    have ht : t = 0 ∨ t = 1 := by omega
    have hj : j = 0 ∨ j = 1 ∨ j = 2 := by omega
    rcases ht with rfl | rfl <;> rcases hj with rfl | rfl | rfl
    exacts [⟨_, h1⟩, ⟨_, h4⟩, ⟨_, h7⟩, ⟨_, h2⟩, ⟨_, h5⟩, ⟨_, h8⟩]
  · have hb : t < 3 := b
    obtain rfl : t = 2 := by omega
    exact h3

theorem pcD_noGaps : NoGaps pcD := by
  obtain ⟨h1, h2, h3, h4, h5, h6, h7, h8, h9⟩ := pcD_cells
  intro j a t b hj hj' ha hat htb hb _ _ he
  have hb : b < 3 := hb
  have hj' : j < 3 := hj'
  obtain rfl : t = 1 := by omega
  have hj : j = 0 ∨ j = 1 ∨ j = 2 := by omega
  rcases hj with rfl | rfl | rfl
  · rw [h2] at he; cases he
  · rw [h5] at he; cases he
  · rw [h8] at he; cases he

/-- The first variable. -/
def pcM : Fin 2 → Fin (0 + 1) → ℝ := fun i _ => if i = 0 then 0 else 2

theorem svd_half : ∀ (k n : ℕ) (_ : k = 1) (_ : n = 1) (X : Fin 2 → Fin k → ℝ), (∀ j, X 0 j = -(1 / Real.sqrt 2) ∧ X 1 j = 1 / Real.sqrt 2) →
    Pc.IsSvd (n := n) X (fun _ => 1) (fun _ _ => 1) := by
  intro k n hk hn X hX
  subst hk; subst hn
  have hss : 1 / Real.sqrt 2 * (1 / Real.sqrt 2) = 1 / 2 := by rw [div_mul_div_comm, Real.mul_self_sqrt (by norm_num)]; norm_num
  refine ⟨fun _ => zero_le_one, fun _ _ _ => le_rfl, fun a b => ?_, fun i _ => X i 0, fun a b => ?_, fun i j => ?_⟩
  · rw [if_pos (Subsingleton.elim a b)]; simp
  · rw [if_pos (Subsingleton.elim a b), Fin.sum_univ_two]; dsimp only; rw [(hX 0).1, (hX 0).2, neg_mul_neg, hss]; norm_num
  · rw [Fin.sum_univ_one, Subsingleton.elim j 0]; simp

theorem pcDecomposes : Decomposes Pc.someLapack pcM := by
  have h0 : ∀ j, tail pcM 0 j = 0 ∧ tail pcM 1 j = 2 := fun j => ⟨rfl, rfl⟩
  have hmean : ∀ j, Sd.colMean (tail pcM) j = 1 := by
    intro j; unfold Sd.colMean; rw [Fin.sum_univ_two, (h0 j).1, (h0 j).2]; norm_num
  have hvar : ∀ j, Sd.colVar true (tail pcM) j = 2 := by
    intro j; unfold Sd.colVar; rw [Fin.sum_univ_two, hmean, (h0 j).1, (h0 j).2]; norm_num
  have hw : Pc.width true true (tail pcM) = 1 := by
    unfold Pc.width Sd.keptColumns
    rw [List.filter_eq_self.2 (by intro j _; simp only [decide_eq_true_eq]; intro _; rw [hvar]; norm_num), List.length_finRange]
  refine ⟨fun j => by rw [hvar]; norm_num, Pc.someLapack_info _ ⟨(fun _ => 1, fun _ _ => 1), svd_half _ _ hw (by rw [hw]; rfl) _ fun j => ?_⟩⟩
  unfold std Pc.analysed
  dsimp only
  rw [if_pos rfl, hmean, hvar, (h0 _).1, (h0 _).2, if_pos rfl]
  constructor
  · ring
  · norm_num

/-- The value that is passed on as the future value of the exogenous variable, 5, is the missing value of the second endogenous variable, and the exogenous variable of the
sample is that endogenous variable. -/
example : ∃ e b p X F, make (fun _ _ => .ok ()) pcU = .ok e ∧ prepare Pc.someLapack (fun _ _ => .ok ()) e pcD 1 0 b = .ok p ∧
    p.y.cols = 1 ∧ p.x = some X ∧ X.get 0 0 = .ok (some 7) ∧ X.get 1 0 = .ok (some 8) ∧ p.future = some F ∧ F.get 0 0 = .ok none := by
  obtain ⟨h1, h2, h3, h4, h5, h6, h7, h8, h9⟩ := pcD_cells
  have hen : pcO.enabled = true := by
    unfold Pc.Options.enabled
    exact decide_eq_true (Or.inl (by decide))
  have hck : pcO.check = .ok () := by
    unfold Pc.Options.check
    rw [hen, if_neg (by simp), if_neg (by decide), if_pos (by decide)]
  have hx : NoPca pcU.pcaX := fun o h => by cases h
  obtain ⟨q, hq⟩ := pca_make 3 2 0 (by decide) (by decide)
  have hyy : makeY pcU = .ok (some (pcO, q), reduced 2 pcO) := by
    unfold makeY
    rw [show pcU.pcaY = some pcO from rfl, Option.filter_some, if_pos hen]
    show (pcO.check >>= fun _ => Pc.Pca.make 3 2 0 true true true true >>= fun p => pure (some (pcO, p), reduced 2 pcO)) = _
    rw [hck, hq]; rfl
  obtain ⟨e, he⟩ := make_of (u := pcU) (other := fun _ _ => .ok ()) (by decide) (by decide) hyy (makeX_none hx) rfl rfl
  let b : Buffers := ⟨List.replicate 9 none, [none], List.replicate q.workSize.toNat 0, List.replicate q.storageSize.toNat 0, [], []⟩
  have hqe : ∀ q', e.pcaY = some (pcO, q') → q' = q := by
    intro q' h
    have := congrArg Prod.fst (Outcome.ok.inj ((made he).stepY.symm.trans hyy))
    rw [h] at this
    exact congrArg Prod.snd (Option.some.inj this)
  obtain ⟨o, eo, ho⟩ := Pc.make_ok 3 2 0 (by norm_num) (by norm_num) true true true true
  have hoq : o = q := Outcome.ok.inj (eo.symm.trans hq)
  have hS := ho.storage
  have hW := ho.work
  rw [hoq] at hS hW
  have hS0 : 0 ≤ q.storageSize := by
    rw [hS]; norm_num
  have hW0 : 0 ≤ q.workSize := by
    rw [hW]; norm_num
  have fits : Fits pcU pcD b 1 := ⟨pcD_wf, by decide, by decide, by decide, by show (3 : Int) * 3 ≤ 9; norm_num, by show (1 : Int) * 1 ≤ 1; norm_num⟩
  obtain ⟨Dir, sd, res, -, hall⟩ := C138_pca_reduced_violated Pc.someLapack Pc.someLapack_correct he (o := pcO) rfl hen hx rfl fits (S := 0) (E := 1) (se := 0) (h := 1)
    (by decide) (by decide) (by decide) pcD_sample pcD_noGaps (by decide) (by decide) (s := 0) (c := 1) (n := 2) rfl rfl (by decide) (by decide) (by decide) le_rfl
    pcM (fun i j => by
      have hj : j = 0 := Subsingleton.elim (α := Fin 1) j 0
      subst hj
      fin_cases i
      · exact h1
      · exact h2)
    (fun q' h' => by
      rw [hqe q' h']
      exact ⟨by show ((List.replicate q.storageSize.toNat (0 : ℝ)).length : Int) = _; rw [List.length_replicate]; omega,
        by show ((List.replicate q.workSize.toNat (0 : ℝ)).length : Int) = _; rw [List.length_replicate]; omega⟩) pcDecomposes
  obtain ⟨p, X, F, hp, hrep, eX, eF, gX, gF⟩ := hall 1 (by unfold Pc.Options.finalCount; rw [if_pos (by decide)]; rfl) le_rfl
  refine ⟨e, b, p, X, F, he, hp, hrep.cols, eX, (gX 0 (by decide)).trans h4, (gX 1 (by decide)).trans h5, eF, (gF 0 le_rfl (by decide)).trans h6⟩

end Vx
end LDT
