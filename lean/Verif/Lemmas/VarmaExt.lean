import Verif.Model.VarmaExt
import Verif.Spec.VarmaExt
import Verif.Props.DatasetTs
import Verif.Props.Dataset
import Verif.Props.PcaOptions
namespace LDT
namespace Vx
open Mx Op
open Arr (Val)
open Pc (Options Pca Lapack)

/-! ## Blocks -/

theorem inR_of_block {A D : Mat (Val ℝ)} {t j n m : Int} (h : IsBlock A D t j n m) {i c : Int} (h1 : 0 ≤ i) (h2 : i < n) (h3 : 0 ≤ c) (h4 : c < m) : A.InR i c :=
  ⟨h1, by rw [h.rows]; exact h2, h3, by rw [h.cols]; exact h4⟩

/-- Columns of a matrix as a view into its memory. -/
theorem view {r D : Mat (Val ℝ)} {t n C : Int} (w : r.Wf) (h : IsBlock r D t 0 n C) {j m : Int} (hj : 0 ≤ j) (hm : 0 ≤ m) (hC : j + m ≤ C) :
    (⟨n, m, some (r.mem.drop (j * n).toNat)⟩ : Mat (Val ℝ)).Wf ∧ IsBlock ⟨n, m, some (r.mem.drop (j * n).toNat)⟩ D t j n m := by
  have hn : 0 ≤ n := h.rows ▸ w.rows_nonneg
  have hz := w.size
  rw [h.rows, h.cols] at hz
  have hjn : 0 ≤ j * n := mul_nonneg hj hn
  have wf : (⟨n, m, some (r.mem.drop (j * n).toNat)⟩ : Mat (Val ℝ)).Wf := by
    refine ⟨hn, hm, rfl, ?_⟩
    show n * m ≤ ((r.mem.drop (j * n).toNat).length : Int)
    rw [List.length_drop]
    have : n * (j + m) ≤ n * C := mul_le_mul_of_nonneg_left hC hn
    have e : n * (j + m) = j * n + n * m := by ring
    have : 0 ≤ n * m := mul_nonneg hn hm
    omega
  refine ⟨wf, rfl, rfl, fun i c h1 h2 h3 h4 => ?_⟩
  rw [get_eq_get0 wf ⟨h1, h2, h3, h4⟩]
  have e := h.cell i (j + c) h1 h2 (by omega) (by omega)
  rw [get_eq_get0 w (inR_of_block h h1 h2 (by omega) (by omega))] at e
  rw [zero_add] at e
  rw [← e]
  unfold Mat.get0
  rw [h.rows]
  show Mx.read (r.mem.drop (j * n).toNat) (i + n * c) = _
  have hic : 0 ≤ i + n * c := by have := mul_nonneg hn h3; omega
  unfold Mx.read
  rw [if_pos hic, if_pos (by have : 0 ≤ n * (j + c) := mul_nonneg hn (by omega)
                             omega), List.getElem?_drop]
  congr 2
  have : i + n * (j + c) = j * n + (i + n * c) := by ring
  omega

theorem view0 {r D : Mat (Val ℝ)} {t n C : Int} (w : r.Wf) (h : IsBlock r D t 0 n C) {m : Int} (hm : 0 ≤ m) (hC : m ≤ C) :
    (⟨n, m, some r.mem⟩ : Mat (Val ℝ)).Wf ∧ IsBlock ⟨n, m, some r.mem⟩ D t 0 n m := by
  have := view w h le_rfl hm (by omega)
  rwa [zero_mul, show (0 : Int).toNat = 0 from rfl, List.drop_zero] at this

/-! ## The sample -/

theorem obs_iff {D : Mat (Val ℝ)} {k t : Int} : ObsT false D k t ↔ ∃ v, D.get t k = .ok (some v) := Iff.rfl

theorem gap_iff {D : Mat (Val ℝ)} : (∃ k, 0 ≤ k ∧ k < D.cols ∧ Gap false D k) ↔ ¬ NoGaps D := by
  unfold NoGaps Gap nTime
  constructor
  · rintro ⟨k, h1, h2, a, t, b, h3, h4, h5, h6, h7, h8, h9⟩ h
    exact h k a t b h1 h2 h3 h4 h5 h6 h7 h8 h9
  · intro h
    push Not at h
    obtain ⟨k, a, t, b, h1, h2, h3, h4, h5, h6, h7, h8, h9⟩ := h
    exact ⟨k, h1, h2, a, t, b, h3, h4, h5, h6, h7, h8, h9⟩

/-- Loading a table that has a sample. -/
theorem load {D : Mat (Val ℝ)} (w : D.Wf) {S E : Int} (hs : IsSample D S E) (hmax : D.rows ≤ intMax) (d : DsTs ℝ) (hn : d.hasNaN = true) (hsel : d.select = false)
    (hm : d.hasMissing = false) (st : List (Val ℝ)) (hst : D.rows * D.cols ≤ st.length) :
    ∃ d' r, d.setData false D = .ok d' ∧ (d'.hasMissing = true ↔ ¬ NoGaps D) ∧ d'.update false none st = .ok (S, E, r) ∧ r.Wf ∧ IsBlock r D S 0 (E - S + 1) D.cols := by
  have hS := hs.nonneg
  have hSE := hs.le
  have hE := hs.lt
  obtain ⟨j1, hj1, hj1', hf⟩ := hs.first
  obtain ⟨j2, hj2, hj2', hl⟩ := hs.last
  have hT : 0 < nTime false D := show 0 < D.rows by omega
  obtain ⟨d', e, hp, hn', hs', -, hlen, hr, hmi⟩ := (C45_ranges false d hn hm D w hT).2 fun k h1 h2 => ⟨S, hS, show S < D.rows by omega, hs.complete S k le_rfl hSE h1 h2⟩
  rw [show nSer false D = D.cols from rfl] at hmi hlen
  have hof : ∀ r ∈ d'.ranges, ∃ k, 0 ≤ k ∧ k < D.cols ∧ RangeOf false D k r := by
    intro r hr'
    obtain ⟨i, hi⟩ := List.mem_iff_getElem?.1 hr'
    have := lt_length_of_some hi
    exact ⟨i, by omega, by omega, hr i r hi⟩
  have hto : ∀ k, 0 ≤ k → k < D.cols → ∃ r ∈ d'.ranges, RangeOf false D k r := by
    intro k h1 h2
    have hk : d'.ranges[k.toNat]? = some (d'.ranges[k.toNat]'(by omega)) := List.getElem?_eq_getElem (by omega)
    refine ⟨_, List.mem_iff_getElem?.2 ⟨_, hk⟩, ?_⟩
    have := hr k.toNat _ hk
    rwa [show ((k.toNat : Nat) : Int) = k by omega] at this
  have hwin := window_of_fold d'.ranges (by
    obtain ⟨r, hr', -⟩ := hto j1 hj1 hj1'
    exact List.ne_nil_of_mem hr') (by
    intro r hr'
    obtain ⟨k, -, -, ho⟩ := hof r hr'
    have := ho.lt
    have e : nTime false D = D.rows := rfl
    exact ⟨ho.start_nonneg, by omega⟩)
  have key : (d'.ranges.foldl bigStep (0, intMax)) = (S, E) := by
    generalize d'.ranges.foldl bigStep (0, intMax) = out at hwin
    obtain ⟨a, b⟩ := out
    simp only at hwin
    have ha : a = S := by
      obtain ⟨r, hr', rfl⟩ := hwin.start_at
      obtain ⟨k, h1, h2, ho⟩ := hof r hr'
      have l1 := (ho.tight S hS (show S < D.rows by omega) (hs.complete S k le_rfl hSE h1 h2)).1
      obtain ⟨r', hr2, ho'⟩ := hto j1 hj1 hj1'
      have l2 := (hwin.ge r' hr2).1
      by_contra hne
      obtain ⟨v, hv⟩ := obs_iff.1 ho'.obs_start
      have l3 := ho'.start_nonneg
      rw [hf r'.start l3 (by omega)] at hv
      cases hv
    have hb : b = E := by
      obtain ⟨r, hr', rfl⟩ := hwin.stop_at
      obtain ⟨k, h1, h2, ho⟩ := hof r hr'
      have l1 := (ho.tight E (by omega) (show E < D.rows by omega) (hs.complete E k hSE le_rfl h1 h2)).2
      obtain ⟨r', hr2, ho'⟩ := hto j2 hj2 hj2'
      have l2 := (hwin.ge r' hr2).2
      by_contra hne
      obtain ⟨v, hv⟩ := obs_iff.1 ho'.obs_stop
      have l3 := ho'.lt
      rw [hl r'.stop (by omega) l3] at hv
      cases hv
    rw [ha, hb]
  obtain ⟨res, er, hc⟩ := C35_get_sub_partial D ⟨E - S + 1, D.cols, some st⟩ w ⟨by show 0 ≤ E - S + 1; omega, w.cols_nonneg, rfl, by
      show (E - S + 1) * D.cols ≤ (st.length : Int)
      have := mul_le_mul_of_nonneg_right (show E - S + 1 ≤ D.rows by omega) w.cols_nonneg
      omega⟩ S 0 (E - S + 1) D.cols 0 0 hS le_rfl (by omega) w.cols_nonneg le_rfl le_rfl (by omega) (by omega) (by show E - S + 1 = _; omega) (by show D.cols = _; omega)
  refine ⟨d', res, e, by rw [hmi]; exact gap_iff, ?_, hc.shape.wf ⟨by show 0 ≤ E - S + 1; omega, w.cols_nonneg, rfl, by
      show (E - S + 1) * D.cols ≤ (st.length : Int)
      have := mul_le_mul_of_nonneg_right (show E - S + 1 ≤ D.rows by omega) w.cols_nonneg
      omega⟩, hc.shape.rows, hc.shape.cols, fun i c h1 h2 h3 h4 => ?_⟩
  · unfold DsTs.update
    rw [hs', hsel, hn']
    simp only [Bool.false_eq_true, if_false, if_true]
    unfold biggestWithoutNaN
    rw [key, hp]
    show (D.getSub S 0 (E - S + 1) D.cols ⟨E - S + 1, D.cols, some st⟩ 0 0 >>= fun out => Outcome.ok (S, E, out)) = _
    rw [er]; rfl
  · have := hc.block i.toNat c.toNat (S + i) c (by rw [getElem?_upTo, if_pos (by omega)]; congr 1; omega) (by rw [getElem?_upTo, if_pos (by omega)]; congr 1; omega)
    rw [show (0 : Int) + (i.toNat : Nat) = i by omega, show (0 : Int) + (c.toNat : Nat) = c by omega] at this
    rw [this, zero_add]

/-- The future rows. -/
theorem future_ok {D : Mat (Val ℝ)} (w : D.Wf) {g k E h se : Int} (b : List (Val ℝ)) (hg : 0 ≤ g) (hk : 0 ≤ k) (hgk : g + k ≤ D.cols) (hh : 0 ≤ h)
    (h0 : 0 ≤ E + 1 - se) (hr : E + h - se < D.rows) (hb : h * k ≤ b.length) :
    ∃ f, (⟨h, k, some b⟩ : Mat (Val ℝ)).setSub 0 0 D (E + 1 - se) g h k = .ok f ∧ f.Wf ∧ IsBlock f D (E + 1 - se) g h k := by
  have wf : (⟨h, k, some b⟩ : Mat (Val ℝ)).Wf := ⟨hh, hk, rfl, hb⟩
  obtain ⟨f, e, hc⟩ := C35_set_sub (⟨h, k, some b⟩ : Mat (Val ℝ)) D wf w 0 0 (E + 1 - se) g h k le_rfl le_rfl h0 hg hh hk (by show 0 + h ≤ h; omega)
    (by show 0 + k ≤ k; omega) (by omega) (by omega)
  refine ⟨f, e, hc.shape.wf wf, hc.shape.rows, hc.shape.cols, fun i c h1 h2 h3 h4 => ?_⟩
  have := hc.block i.toNat c.toNat (E + 1 - se + i) (g + c) (by rw [getElem?_upTo, if_pos (by omega)]; congr 1; omega)
    (by rw [getElem?_upTo, if_pos (by omega)]; congr 1; omega)
  rwa [show (0 : Int) + (i.toNat : Nat) = i by omega, show (0 : Int) + (c.toNat : Nat) = c by omega] at this

end Vx
end LDT
