import Verif.Lemmas.PcaRun
/-!
# The whole principal component analysis
-/
namespace LDT
namespace Pc
open Mx Sd
open Arr (Val)
open Co (part)
open Ls (dotTr0 IsM Sized isM_of_cells dotTr0_isM sized_part get_isM)

variable {r c k n : ℕ}

theorem IsM.table {A : Mat ℝ} {M : Fin r → Fin c → ℝ} (h : IsM A (M : Matrix (Fin r) (Fin c) ℝ)) : Table A M :=
  ⟨h.wf, h.rows, h.cols, fun i j => get_isM h i j⟩

/-- `X * D'`. -/
def scores (X : Fin r → Fin k → ℝ) (D : Fin k → Fin k → ℝ) (i : Fin r) (a : Fin k) : ℝ := score X i (D a)

theorem mul_tr (X : Matrix (Fin r) (Fin k) ℝ) (D : Matrix (Fin n) (Fin k) ℝ) (i : Fin r) (a : Fin n) :
    (X * D.transpose) i a = score X i (D a) := by
  rw [Matrix.mul_apply]; rfl

theorem dotScores {x D slot : Mat ℝ} {X : Fin r → Fin k → ℝ} {Dm : Fin k → Fin k → ℝ} (hx : IsM x (X : Matrix (Fin r) (Fin k) ℝ))
    (hD : IsM D (Dm : Matrix (Fin k) (Fin k) ℝ)) (hs : Sized slot r k) (hr : 0 < r) (hk : 0 < k) :
    ∃ p, dotTr0 x D slot = .ok p ∧ IsM p (scores X Dm : Matrix (Fin r) (Fin k) ℝ) := by
  obtain ⟨p, e, i, -⟩ := dotTr0_isM hx hD hs hr hk
  refine ⟨p, e, ?_⟩
  have : ∀ Z : Matrix (Fin r) (Fin k) ℝ, (∀ i a, Z i a = scores X Dm i a) → IsM p Z → IsM p (scores X Dm : Matrix (Fin r) (Fin k) ℝ) := by
    intro Z hZ hi
    have e : Z = scores X Dm := by funext i a; exact hZ i a
    rw [← e]; exact hi
  exact this _ (fun i a => mul_tr _ _ i a) i

theorem sized_slot (l : List ℝ) (q R C : Int) (a b : ℕ) (hR : R = a) (hC : C = b) (h0 : 0 ≤ q) (h : q + (a : Int) * b ≤ l.length) :
    Sized (⟨R, C, some (part l q (R * C))⟩ : Mat ℝ) a b := by
  subst hR; subst hC; exact sized_part l q a b h0 h

theorem pcsRun_ok {x D : Mat ℝ} {X : Fin r → Fin k → ℝ} {Dm : Fin k → Fin k → ℝ} (hx : IsM x (X : Matrix (Fin r) (Fin k) ℝ))
    (hD : IsM D (Dm : Matrix (Fin k) (Fin k) ℝ)) (hr : 0 < r) (hk : 0 < k) (storage : List ℝ) (q : Int) (h0 : 0 ≤ q) (doPcs : Bool)
    (h : (afterPcs doPcs q r k) ≤ storage.length) :
    ∃ P, pcsRun doPcs x D storage q = .ok P ∧ (doPcs = false → P = none) ∧
      (doPcs = true → ∃ p, P = some p ∧ IsM p (scores X Dm : Matrix (Fin r) (Fin k) ℝ)) := by
  unfold pcsRun
  unfold afterPcs at h
  by_cases hd : doPcs = true
  · rw [if_pos hd] at h ⊢
    obtain ⟨p, e, i⟩ := dotScores hx hD (sized_slot storage q x.rows x.cols r k hx.rows hx.cols h0 h) hr hk
    have e' : (do let r ← dotTr0 x D ⟨x.rows, x.cols, some (part storage q (x.rows * x.cols))⟩; pure (some r) : Outcome (Option (Mat ℝ))) = .ok (some p) := by rw [e]; rfl
    exact ⟨some p, e', (fun hf => by rw [hf] at hd; cases hd), fun _ => ⟨p, rfl, i⟩⟩
  · rw [if_neg hd]
    exact ⟨none, rfl, fun _ => rfl, fun h => (hd h).elim⟩

theorem forecastRun_eq {o : Pca} {R C F : ℕ} {doPCs remove center scale : Bool} (h : Made o R C F doPCs remove center scale) (h2 : 2 ≤ r)
    (hc : 0 < c) {M : Fin r → Fin c → ℝ} (hok : Scalable remove scale M) {u : Used} (hu : UseOk o remove center scale M u)
    {f : ℕ} (hf : 0 < f) {B : Mat (Val ℝ)} {N : Fin f → Fin c → ℝ} (hB : Holds B N) (D : Mat ℝ)
    (work storage : List ℝ) (q : Int)
    (hfit0 : (center || scale) = true → (f : Int) * c + (if center then (c : Int) else 0) + (if scale then (c : Int) else 0) ≤ work.length) :
    ∃ x, forecastRun o u D c B work storage q = dotTr0 x D ⟨B.rows, D.cols, some (part storage q (B.rows * D.cols))⟩ ∧
      IsM x (analysed remove center scale M N : Matrix (Fin f) (Fin (width remove scale M)) ℝ) := by
  unfold forecastRun
  by_cases hcs : (center || scale) = true
  · have hd := h.std
    rw [if_pos hcs] at hd
    obtain ⟨d, e1, e2, e3, e4, e5, e6, e7⟩ := hd
    have hs := hu.std
    rw [if_pos hcs] at hs
    obtain ⟨d', res, e1', er, rep⟩ := hs
    rw [e1] at e1'
    cases e1'
    rw [e1, er]
    dsimp only
    obtain ⟨fd, ef, f1, f2, f3, f4, f5, f6⟩ := (C129_sizes B.rows c d.removeZeroVar d.center d.scale).2 (by rw [hB.rows]; omega) (by omega)
    rw [ef, Outcome.ok_bind]
    have hneed : fd.storageSize = (f : Int) * c + (if center then (c : Int) else 0) + (if scale then (c : Int) else 0) := by
      rw [f6, hB.rows, e2, e3]; cases center <;> cases scale <;> simp <;> ring
    have a4 : (0 : Int) ≤ (f : Int) * c := by positivity
    have hfit : fd.storageSize ≤ work.length := by
      rw [hneed]; exact hfit0 hcs
    have hd0 : 0 ≤ fd.storageSize := by rw [hneed]; split_ifs <;> omega
    obtain ⟨m, hm⟩ := Int.eq_ofNat_of_zero_le hd0
    have hmeans := rep.means
    have hvars := rep.vars
    obtain ⟨g, eg, repg⟩ := C129_calculate fd f5 hf hc B N hB ((part work 0 fd.storageSize).map some) (by
        rw [map_some_len, hm, part_len _ _ (by omega)]) (by
        unfold need
        rw [f1, f2, e2, e3, hneed])
      res.means res.vars _ _ hmeans hvars (Or.inr ⟨fun hh => by
          rw [f1] at hh; rw [if_pos ⟨hh, rfl⟩]; rfl, fun hh => by
          rw [f2] at hh; rw [if_pos ⟨hh, rfl⟩]; rfl⟩)
    have hH : Holds g.result (analysed remove center scale M N) := by
      refine reports_holds h2 ?_ (f1.trans e2) (f2.trans e3) hok ?_ ?_ repg
      · rw [f2, f3, e3, e4]; cases scale <;> cases remove <;> rfl
      · intro j
        unfold shift
        by_cases hce : center = true
        · rw [if_pos hce, if_pos hce, if_pos ⟨by rw [e2]; exact hce, rfl⟩]; rfl
        · rw [if_neg hce, if_neg hce]
      · intro hsc
        unfold spread
        rw [if_pos ⟨by rw [e3]; exact hsc, rfl⟩, e5]; rfl
    obtain ⟨x, ex, ix⟩ := numbersOf_ok hH
    refine ⟨x, ?_, ix⟩
    rw [eg, Outcome.ok_bind, ex, Outcome.ok_bind]
  · have hd := h.std
    rw [if_neg hcs] at hd
    rw [hd]
    have hce : center = false := by cases center <;> simp_all
    have hsc : scale = false := by cases scale <;> simp_all
    subst hce; subst hsc
    have hH : Holds B (analysed remove false false M N) := by
      refine ⟨hB.wf, hB.rows, by rw [hB.cols]; congr 1; exact (width_all remove M).symm, fun i b => ?_⟩
      have hlt : (b : ℕ) < c := lt_of_lt_of_le b.2 (width_le remove false M)
      rw [hB.cell i ⟨b, hlt⟩]
      unfold analysed
      dsimp only
      rw [if_neg (by simp), if_neg (by simp), sub_zero, div_one]
      congr 3
      have e : keptColumns (false && remove) (colVar true M) = List.finRange c := by
        unfold keptColumns
        rw [List.filter_eq_self.2]
        intro j _; simp
      have this : ∀ (l : List (Fin c)) (hl : l = List.finRange c) (hb : (b : ℕ) < l.length), l[(b : ℕ)]'hb = ⟨b, hlt⟩ := by
        intro l hl hb; subst hl; rw [List.getElem_finRange]; rfl
      exact (this _ e b.2).symm
    obtain ⟨x, ex, ix⟩ := numbersOf_ok hH
    refine ⟨x, ?_, ix⟩
    dsimp only
    rw [ex, Outcome.ok_bind]

theorem forecastRun_ok {o : Pca} {R C F : ℕ} {doPCs remove center scale : Bool} (h : Made o R C F doPCs remove center scale) (h2 : 2 ≤ r)
    (hc : 0 < c) (hcC : c ≤ C) {M : Fin r → Fin c → ℝ} (hok : Scalable remove scale M) {u : Used} (hu : UseOk o remove center scale M u)
    {f : ℕ} (hf : 0 < f) (hfF : f ≤ F) {B : Mat (Val ℝ)} {N : Fin f → Fin c → ℝ} (hB : Holds B N)
    {D : Mat ℝ} {Dm : Fin (width remove scale M) → Fin (width remove scale M) → ℝ}
    (hD : IsM D (Dm : Matrix (Fin (width remove scale M)) (Fin (width remove scale M)) ℝ)) (hk : 0 < width remove scale M)
    (work storage : List ℝ) (q : Int) (h0 : 0 ≤ q) (hq : q + (f : Int) * (width remove scale M : ℕ) ≤ storage.length)
    (hwk : (work.length : Int) = o.workSize) :
    ∃ G, forecastRun o u D c B work storage q = .ok G ∧
      IsM G (scores (analysed remove center scale M N) Dm : Matrix (Fin f) (Fin (width remove scale M)) ℝ) := by
  have hslot := sized_slot storage q B.rows D.cols f (width remove scale M) hB.rows hD.cols h0 hq
  have a3 : (f : Int) * c ≤ (F : Int) * C := by exact_mod_cast Nat.mul_le_mul hfF hcC
  by_cases hcs : (center || scale) = true
  · obtain ⟨x, ex, ix⟩ := forecastRun_eq h h2 hc hok hu hf hB D work storage q (fun _ => by
      rw [hwk, h.work, if_pos (show (center || scale) = true ∧ 0 < F from ⟨hcs, by omega⟩)]
      refine le_trans ?_ (le_max_right _ _)
      cases center <;> cases scale <;> simp <;> omega)
    rw [ex]
    exact dotScores ix hD hslot hf hk
  · obtain ⟨x, ex, ix⟩ := forecastRun_eq h h2 hc hok hu hf hB D work storage q (fun h => (hcs h).elim)
    rw [ex]
    exact dotScores ix hD hslot hf hk

theorem stdFactor_ok (h2 : 2 ≤ r) : stdFactor (r : Int) = some (1 / Real.sqrt ((r : ℝ) - 1)) := by
  have hr : (0 : ℝ) < (r : ℝ) - 1 := by have : (2 : ℝ) ≤ r := by exact_mod_cast h2
                                        linarith
  unfold stdFactor rsqrt
  simp only [Option.bind_some, Arr.sqrtV, Int.cast_natCast]
  rw [if_neg (not_lt.2 hr.le)]
  simp only [vdiv]
  rw [if_neg (Real.sqrt_pos.2 hr).ne']

theorem foldl_vadd (l : List ℝ) (z : ℝ) : (l.map some).foldl vadd (some z) = (some (z + l.sum) : Val ℝ) := by
  induction l generalizing z with
  | nil => simp
  | cons a t ih =>
    rw [List.map_cons, List.foldl_cons]
    show List.foldl vadd (some (z + a)) _ = _
    rw [ih, List.sum_cons, add_assoc]

theorem ratios_ok (sd : Fin n → ℝ) : ratiosOf (List.ofFn fun a => (some (sd a) : Val ℝ)) = List.ofFn (share sd) := by
  have e1 : (List.ofFn fun a => (some (sd a) : Val ℝ)).map (fun x => vmul x x) = (List.ofFn fun a => sd a ^ 2).map some := by
    rw [List.map_ofFn, List.map_ofFn]
    congr 1
    funext a
    simp only [Function.comp_apply, vmul]
    rw [sq]
  unfold ratiosOf
  dsimp only
  rw [e1, foldl_vadd, List.sum_ofFn, zero_add, List.map_map, List.map_ofFn]
  congr 1

end Pc
end LDT
