import Verif.Props.MatrixCols
/-!
# C66 (second part): means and variances of all columns, standardization
-/
namespace LDT
namespace Mx
open Stat
open Arr (Val sqrtV)

variable {K : Type} [Field K] [DecidableEq K]

/-- The view of a column has the cells of the column. -/
theorem colView_cells {m : Mat (Val K)} (w : m.Wf) {j : Int} (h0 : 0 ≤ j) {xs : List (Val K)} (h : IsColumn m j xs) :
    IsCells (m.colView j) xs := by
  refine ⟨by rw [h.len]; simp [Mat.colView, Mat.length], fun k x hk => ?_⟩
  have hr := isColumn_read h k x hk
  have hl := h.len
  have hk' : k < xs.length := by rw [List.getElem?_eq_some_iff] at hk; exact hk.1
  have hn := w.rows_nonneg
  have hp : 0 ≤ m.rows * j := Int.mul_nonneg hn h0
  unfold Mat.getLin
  rw [if_neg (by simp [Mat.colView]), if_neg (by simp [Mat.colView, Mat.length]; omega)]
  rw [← hr]
  unfold read
  have : (m.rows * j + (k : Int)).toNat = (j * m.rows).toNat + k := by rw [mul_comm j]; omega
  rw [this]
  simp [Mat.colView, Mat.mem]
  intro hc; omega

theorem upTo_get {n : Int} {j : Nat} (h : (j : Int) < n) : (upTo 0 n)[j]? = some (j : Int) := by
  unfold upTo
  rw [List.getElem?_map, List.getElem?_range (by omega)]; simp

section
variable [CharZero K]

/-- `ColumnsMeans(storage)` without the check for NaN. -/
theorem C66_columns_means (m storage : Mat (Val K)) (w : m.Wf) (ws : storage.Wf) :
    (storage.length = m.cols → ∃ res, m.columnsMeans storage false = .ok res ∧ SameShape storage res ∧
      ∀ (j : Nat) xs, (j : Int) < m.cols → IsColumn m j xs → res.getLin j = .ok (avg xs)) ∧
    (storage.length ≠ m.cols → ∀ c, m.columnsMeans storage c = .throws) := by
  unfold Mat.columnsMeans
  refine ⟨fun h => ?_, fun h c => if_pos h⟩
  rw [if_neg (by omega)]
  have hc := w.cols_nonneg
  have key : ∀ (j : Int) xs, 0 ≤ j → IsColumn m j xs → (m.colView j).mean false = .ok (avg xs) := by
    intro j xs h0 hx
    rw [C65_mean _ _ (colView_cells w h0 hx)]
    unfold avg; congr 1; simp only [or_comm]
  obtain ⟨res, e, s, c⟩ := fillFrom_spec (fun j => (m.colView j).mean false) (upTo 0 m.cols) storage ws
    (by rw [h]; simp [upTo]; omega) (fun j hj => by
      rw [mem_upTo] at hj
      obtain ⟨xs, hx⟩ := exists_isColumn w hj.1 hj.2
      exact ⟨_, key j xs hj.1 hx⟩)
  exact ⟨res, e, s, fun j xs hj hx => by rw [c j j (upTo_get hj), key j xs (by omega) hx]⟩

/-- The mean of the numbers among the cells and their variance, as `Variance(check_nan = true)` reports them. -/
def numberStats (sample : Bool) (xs : List (Val K)) : Val K × Val K :=
  (perCount sample (sqSum (numbers xs)) (numbers xs).length, some (mean (numbers xs)))

theorem viewVar {m : Mat (Val K)} (w : m.Wf) {j : Int} (h0 : 0 ≤ j) {xs : List (Val K)} (hx : IsColumn m j xs) (h2 : 2 ≤ m.rows)
    (sample c : Bool) (hok : if c then numbers xs ≠ [] else none ∉ xs) :
    (m.colView j).variance sample c = .ok (numberStats sample xs) := by
  have hc := colView_cells w h0 hx
  have hl := hx.len
  have := C65_variance_partial _ _ hc sample
  cases c
  · exact this.2.1 (by omega) (by simpa using hok)
  · exact this.1 (by omega) (by simpa using hok)

/-- `ColumnsMeansVariances` when the statistics of every column are known. -/
theorem meansVariances_gen {m sm sv : Mat (Val K)} (w : m.Wf) (wm : sm.Wf) (wv : sv.Wf) (sample c : Bool)
    (st : List (Val K) → Val K × Val K)
    (hst : ∀ (j : Int) xs, 0 ≤ j → j < m.cols → IsColumn m j xs → (m.colView j).variance sample c = .ok (st xs))
    (hm : sm.length = m.cols) (hv : sv.length = m.cols) :
    ∃ rm rv, m.columnsMeansVariances sm sv sample c = .ok (rm, rv) ∧ SameShape sm rm ∧ SameShape sv rv ∧
      ∀ (j : Nat) xs, (j : Int) < m.cols → IsColumn m j xs →
        rm.getLin j = .ok (st xs).2 ∧ rv.getLin j = .ok (st xs).1 := by
  have hc := w.cols_nonneg
  unfold Mat.columnsMeansVariances
  rw [if_neg (by omega)]
  have fit : ∀ {d s : Mat (Val K)}, SameShape s d → s.Wf → s.length = m.cols → ∀ j, 0 ≤ j → j < m.cols → j < d.mem.length := by
    intro d s h ws hs j h0 h1
    rw [h.len]; have := ws.size; unfold Mat.length at hs; omega
  have wr : ∀ {d s : Mat (Val K)}, SameShape s d → s.Wf → s.length = m.cols → ∀ j v, 0 ≤ j → j < m.cols →
      write d.mem j v = .ok (d.mem.set j.toNat v) ∧ SameShape s { d with data := some (d.mem.set j.toNat v) } := by
    intro d s h ws hs j v h0 h1
    have := fit h ws hs j h0 h1
    refine ⟨write_ok_of v h0 this, h.rows, h.cols, ?_, ?_, ?_⟩
    · rw [ws.data_eq]; rfl
    · show (d.mem.set j.toNat v).length = _
      rw [List.length_set, h.len]
    · intro k hk
      show (d.mem.set j.toNat v)[k]? = _
      unfold Mat.length at hs
      rw [List.getElem?_set_ne (by omega)]; exact h.rest k hk
  obtain ⟨r, e, s1, s2, cc⟩ := loop_inv (a := 0) (b := m.cols) hc (fun (d : Mat (Val K) × Mat (Val K)) j => do
      let r ← (m.colView j).variance sample c
      let l1 ← write d.1.mem j r.2
      let l2 ← write d.2.mem j r.1
      pure ({ d.1 with data := some l1 }, { d.2 with data := some l2 }))
    (fun n d => SameShape sm d.1 ∧ SameShape sv d.2 ∧ ∀ (j : Nat) xs, (j : Int) < n → IsColumn m j xs →
      read d.1.mem j = .ok (st xs).2 ∧ read d.2.mem j = .ok (st xs).1) (s := (sm, sv))
    ⟨SameShape.refl _, SameShape.refl _, fun j xs h => by omega⟩
    (fun n h0 h1 d ⟨s1, s2, cc⟩ => by
      obtain ⟨xs, hx⟩ := exists_isColumn w h0 h1
      have a := hst n xs h0 h1 hx
      obtain ⟨w1, t1⟩ := wr s1 wm hm n (st xs).2 h0 h1
      obtain ⟨w2, t2⟩ := wr s2 wv hv n (st xs).1 h0 h1
      refine ⟨({ d.1 with data := some (d.1.mem.set n.toNat (st xs).2) },
        { d.2 with data := some (d.2.mem.set n.toNat (st xs).1) }), ?_, t1, t2, fun j ys hj hy => ?_⟩
      · rw [a, Outcome.ok_bind, w1, Outcome.ok_bind, w2, Outcome.ok_bind]; rfl
      · show read (d.1.mem.set _ _) _ = _ ∧ read (d.2.mem.set _ _) _ = _
        rw [read_set (l := d.1.mem) _ (k := n) h0 (fit s1 wm hm n h0 h1) j,
          read_set (l := d.2.mem) _ (k := n) h0 (fit s2 wv hv n h0 h1) j]
        by_cases hjn : (j : Int) = n
        · rw [if_pos hjn, if_pos hjn]
          subst hjn
          rw [isColumn_unique hx hy]; exact ⟨rfl, rfl⟩
        · rw [if_neg hjn, if_neg hjn]; exact cc j ys (by omega) hy)
  refine ⟨r.1, r.2, by rw [e], s1, s2, fun j xs hj hx => ?_⟩
  have l1 : r.1.length = m.cols := by unfold Mat.length at *; rw [s1.rows, s1.cols]; exact hm
  have l2 : r.2.length = m.cols := by unfold Mat.length at *; rw [s2.rows, s2.cols]; exact hv
  rw [getLin_read (s1.wf wm) (by omega) (by omega), getLin_read (s2.wf wv) (by omega) (by omega)]
  exact cc j xs hj hx

/-- `ColumnsVariances` and `ColumnsMeansVariances` for columns of at least two cells that contain a number (with the check
for NaN) or no NaN (without it). -/
theorem C66_columns_variances (m sm sv : Mat (Val K)) (w : m.Wf) (wm : sm.Wf) (wv : sv.Wf) (h2 : 2 ≤ m.rows)
    (sample c : Bool) (hok : ∀ j xs, IsColumn m j xs → 0 ≤ j ∧ j < m.cols → if c then numbers xs ≠ [] else none ∉ xs) :
    (sv.length = m.cols → ∃ res, m.columnsVariances sv sample c = .ok res ∧ SameShape sv res ∧
      ∀ (j : Nat) xs, (j : Int) < m.cols → IsColumn m j xs → res.getLin j = .ok (numberStats sample xs).1) ∧
    (sm.length = m.cols → sv.length = m.cols → ∃ rm rv, m.columnsMeansVariances sm sv sample c = .ok (rm, rv) ∧
      SameShape sm rm ∧ SameShape sv rv ∧
      ∀ (j : Nat) xs, (j : Int) < m.cols → IsColumn m j xs →
        rm.getLin j = .ok (numberStats sample xs).2 ∧ rv.getLin j = .ok (numberStats sample xs).1) ∧
    (sv.length ≠ m.cols → m.columnsVariances sv sample c = .throws ∧ m.columnsMeansVariances sm sv sample c = .throws) ∧
    (sm.length ≠ m.cols → m.columnsMeansVariances sm sv sample c = .throws) := by
  have hc := w.cols_nonneg
  unfold Mat.columnsVariances Mat.columnsMeansVariances
  refine ⟨fun h => ?_, fun hm hv => ?_, fun h => ⟨if_pos h, if_pos (Or.inr h)⟩, fun h => if_pos (Or.inl h)⟩
  · rw [if_neg (by omega)]
    have key : ∀ (j : Int) xs, 0 ≤ j → j < m.cols → IsColumn m j xs →
        m.viewVariance sample c j = .ok (numberStats sample xs).1 := by
      intro j xs h0 h1 hx
      unfold Mat.viewVariance
      rw [viewVar w h0 hx h2 sample c (hok j xs hx ⟨h0, h1⟩)]; rfl
    obtain ⟨res, e, s, cc⟩ := fillFrom_spec (m.viewVariance sample c) (upTo 0 m.cols) sv wv
      (by rw [h]; simp [upTo]; omega) (fun j hj => by
        rw [mem_upTo] at hj
        obtain ⟨xs, hx⟩ := exists_isColumn w hj.1 hj.2
        exact ⟨_, key j xs hj.1 hj.2 hx⟩)
    exact ⟨res, e, s, fun j xs hj hx => by rw [cc j j (upTo_get hj), key j xs (by omega) hj hx]⟩
  · have := meansVariances_gen w wm wv sample c (numberStats sample) (fun j xs h0 h1 hx => viewVar w h0 hx h2 sample c (hok j xs hx ⟨h0, h1⟩)) hm hv
    unfold Mat.columnsMeansVariances at this
    exact this

end

/-! ## Standardization -/

theorem mapColumn_spec {m : Mat (Val K)} (w : m.Wf) {j : Int} (h0 : 0 ≤ j) (h1 : j < m.cols) (f : Val K → Val K) :
    ∃ res, m.mapColumn j f = .ok res ∧ SameShape m res ∧
      ∀ a b x, m.get a b = .ok x → res.get a b = .ok (if b = j then f x else x) := by
  have : m.mapColumn j f = m.applyColumnIn j f := by
    unfold Mat.mapColumn Mat.applyColumnIn
    rw [mul_comm j]
  rw [this]
  exact (C62_apply_row_column m w f).2 j h0 h1

theorem standard_loop {m : Mat (Val K)} (w : m.Wf) (g : Int → Outcome (Val K → Val K)) (F : Int → Val K → Val K)
    (hg : ∀ j, 0 ≤ j → j < m.cols → g j = .ok (F j)) :
    ∃ res, (upTo 0 m.cols).foldlM (fun (d : Mat (Val K)) j => do
        let f ← g j
        d.mapColumn j f) m = .ok res ∧ SameShape m res ∧
      ∀ a b x, m.get a b = .ok x → res.get a b = .ok (F b x) := by
  obtain ⟨res, e, s, c⟩ := loop_inv (a := 0) (b := m.cols) w.cols_nonneg (fun (d : Mat (Val K)) j => do
        let f ← g j
        d.mapColumn j f)
    (fun n (d : Mat (Val K)) => SameShape m d ∧ ∀ a b x, m.get a b = .ok x → d.get a b = .ok (if b < n then F b x else x)) (s := m)
    ⟨SameShape.refl _, fun a b x hx => by rw [if_neg (by have := (get_inv hx).1.2.2.1; omega)]; exact hx⟩
    (fun n h0 h1 d ⟨s, c⟩ => by
      obtain ⟨d', e', s', c'⟩ := mapColumn_spec (s.wf w) h0 (by rw [s.cols]; exact h1) (F n)
      refine ⟨d', by rw [hg n h0 h1, Outcome.ok_bind]; exact e', s.trans s', fun a b x hx => ?_⟩
      rw [c' a b _ (c a b x hx)]
      congr 1
      by_cases hb : b = n
      · subst hb; rw [if_pos rfl, if_neg (by omega), if_pos (by omega)]
      · rw [if_neg hb]; congr 1; apply propext; omega)
  refine ⟨res, e, s, fun a b x hx => ?_⟩
  rw [c a b x hx, if_pos (get_inv hx).1.2.2.2]

/-- `ColumnsStandard(means, stds, is_var)`: every cell becomes `(x - mean) / scale` with the mean and the scale of its
column (the square root of the given variance), NaN when the scale is zero; means only: `x - mean`; other lengths or
nothing given: refused. -/
theorem C66_standardize (vsqrt : Val K → Val K) (m : Mat (Val K)) (w : m.Wf) (isVar : Bool) :
    (∀ me sd : Mat (Val K), me.Wf → sd.Wf → me.length = m.cols → sd.length = m.cols →
      ∃ res, m.columnsStandard vsqrt (some me) (some sd) isVar = .ok res ∧ SameShape m res ∧
        ∀ i j x a s, m.get i j = .ok x → me.getLin j = .ok a → sd.getLin j = .ok s →
          res.get i j = .ok (if s = some 0 then none else vdiv (vsub x a) (if isVar then vsqrt s else s))) ∧
    (∀ sd : Mat (Val K), sd.Wf → sd.length = m.cols →
      ∃ res, m.columnsStandard vsqrt none (some sd) isVar = .ok res ∧ SameShape m res ∧
        ∀ i j x s, m.get i j = .ok x → sd.getLin j = .ok s →
          res.get i j = .ok (if s = some 0 then none else vdiv x (if isVar then vsqrt s else s))) ∧
    (∀ me : Mat (Val K), me.Wf → me.length = m.cols →
      ∃ res, m.columnsStandard vsqrt (some me) none isVar = .ok res ∧ SameShape m res ∧
        ∀ i j x a, m.get i j = .ok x → me.getLin j = .ok a → res.get i j = .ok (vsub x a)) ∧
    (∀ (me sd : Option (Mat (Val K))), (∃ x ∈ me, x.length ≠ m.cols) ∨ (∃ x ∈ sd, x.length ≠ m.cols) →
      m.columnsStandard vsqrt me sd isVar = .throws) ∧
    m.columnsStandard vsqrt none none isVar = .throws := by
  have rd : ∀ {d : Mat (Val K)}, d.Wf → d.length = m.cols → ∀ j, 0 ≤ j → j < m.cols →
      ∃ v, read d.mem j = .ok v ∧ d.getLin j = .ok v := by
    intro d wd hd j h0 h1
    obtain ⟨v, hv⟩ := wd.read_lin h0 (by rw [hd]; exact h1)
    exact ⟨v, hv, by rw [getLin_read wd h0 (by omega)]; exact hv⟩
  have val : ∀ {d : Mat (Val K)}, d.Wf → d.length = m.cols → ∃ f : Int → Val K, ∀ j, 0 ≤ j → j < m.cols →
      read d.mem j = .ok (f j) ∧ d.getLin j = .ok (f j) := by
    intro d wd hd
    classical
    refine ⟨fun j => if h : 0 ≤ j ∧ j < m.cols then (rd wd hd j h.1 h.2).choose else none, fun j h0 h1 => ?_⟩
    simp only
    rw [dif_pos ⟨h0, h1⟩]
    exact (rd wd hd j h0 h1).choose_spec
  unfold Mat.columnsStandard
  refine ⟨fun me sd wm wsd hm hs => ?_, fun sd wsd hs => ?_, fun me wm hm => ?_, fun me sd h => ?_, ?_⟩
  · obtain ⟨fm, hfm⟩ := val wm hm
    obtain ⟨fs, hfs⟩ := val wsd hs
    rw [if_neg (by simp [hm, hs])]
    obtain ⟨res, e, s, c⟩ := standard_loop w (fun j => do
      let a ← read me.mem j
      let s ← read sd.mem j
      pure (scaleCell vsqrt isVar (some a) s)) (fun j => scaleCell vsqrt isVar (some (fm j)) (fs j)) (fun j h0 h1 => by
        rw [(hfm j h0 h1).1, Outcome.ok_bind, (hfs j h0 h1).1, Outcome.ok_bind]; rfl)
    refine ⟨res, ?_, s, fun i j x a t hx ha ht => ?_⟩
    · rw [← e]
      simp only
      congr 1; funext d j
      cases read me.mem j <;> try rfl
      cases read sd.mem j <;> rfl
    · obtain ⟨⟨-, -, h0, h1⟩, -⟩ := get_inv hx
      rw [(hfm j h0 h1).2] at ha; rw [(hfs j h0 h1).2] at ht
      cases ha; cases ht
      rw [c i j x hx]; rfl
  · obtain ⟨fs, hfs⟩ := val wsd hs
    rw [if_neg (by simp [hs])]
    obtain ⟨res, e, s, c⟩ := standard_loop w (fun j => do
      let s ← read sd.mem j
      pure (scaleCell vsqrt isVar none s)) (fun j => scaleCell vsqrt isVar none (fs j)) (fun j h0 h1 => by
        rw [(hfs j h0 h1).1, Outcome.ok_bind]; rfl)
    refine ⟨res, ?_, s, fun i j x t hx ht => ?_⟩
    · rw [← e]
      simp only
      congr 1; funext d j
      cases read sd.mem j <;> rfl
    · obtain ⟨⟨-, -, h0, h1⟩, -⟩ := get_inv hx
      rw [(hfs j h0 h1).2] at ht
      cases ht
      rw [c i j x hx]; rfl
  · obtain ⟨fm, hfm⟩ := val wm hm
    rw [if_neg (by simp [hm])]
    obtain ⟨res, e, s, c⟩ := standard_loop w (fun j => do
      let a ← read me.mem j
      pure (fun x => vsub x a)) (fun j x => vsub x (fm j)) (fun j h0 h1 => by
        rw [(hfm j h0 h1).1, Outcome.ok_bind]; rfl)
    refine ⟨res, ?_, s, fun i j x a hx ha => ?_⟩
    · rw [← e]
      simp only
      congr 1; funext d j
      cases read me.mem j <;> rfl
    · obtain ⟨⟨-, -, h0, h1⟩, -⟩ := get_inv hx
      rw [(hfm j h0 h1).2] at ha
      cases ha
      rw [c i j x hx]
  · rw [if_pos]
    rcases h with ⟨x, hx, hn⟩ | ⟨x, hx, hn⟩
    · rw [Option.mem_def] at hx; rw [hx]; simp [hn]
    · rw [Option.mem_def] at hx; rw [hx]; simp [hn]
  · rfl

section Real

theorem mean_affine (l : List ℝ) (hl : l ≠ []) (a s : ℝ) : mean (l.map (fun x => (x - a) / s)) = (mean l - a) / s := by
  unfold mean
  have hn : (l.length : ℝ) ≠ 0 := by
    rw [Nat.cast_ne_zero]; exact fun hc => hl (List.length_eq_zero_iff.1 hc)
  have : (l.map (fun x => (x - a) / s)).sum = (l.sum - l.length * a) / s := by
    clear hl hn
    induction l with
    | nil => simp
    | cons x t ih => simp only [List.map_cons, List.sum_cons, List.length_cons, ih]; push_cast; ring
  rw [this, List.length_map]
  field_simp

theorem sqSum_affine (l : List ℝ) (hl : l ≠ []) (a s : ℝ) : sqSum (l.map (fun x => (x - a) / s)) = sqSum l / s ^ 2 := by
  unfold sqSum
  rw [mean_affine l hl, List.map_map]
  generalize mean l = c
  induction l with
  | nil => simp
  | cons x t ih =>
    by_cases ht : t = []
    · subst ht; simp; ring
    · simp only [List.map_cons, List.sum_cons, Function.comp_apply] at ih ⊢
      have := ih ht
      rw [this]; ring

open Classical in
/-- Standardizing with the column means and variances that `ColumnsMeansVariances` reports gives columns with mean 0 and
variance 1 (same divisor), for columns without NaN that are not constant. -/
theorem C66_standardized (m sm sv : Mat (Val ℝ)) (w : m.Wf) (wm : sm.Wf) (wv : sv.Wf) (h2 : 2 ≤ m.rows) (sample : Bool)
    (hm : sm.length = m.cols) (hv : sv.length = m.cols) (hfin : ∀ i j, m.get i j ≠ .ok none)
    (hvar : ∀ j xs, IsColumn m j xs → 0 ≤ j ∧ j < m.cols → sqSum (numbers xs) ≠ 0) :
    ∃ rm rv res, m.columnsMeansVariances sm sv sample false = .ok (rm, rv) ∧
      m.columnsStandard rsqrt (some rm) (some rv) true = .ok res ∧ SameShape m res ∧
      ∀ (j : Nat), (j : Int) < m.cols → ∃ zs, IsColumn res j (zs.map some) ∧ mean zs = 0 ∧
        perCount sample (sqSum zs) zs.length = some 1 := by
  have nonan : ∀ j xs, IsColumn m j xs → none ∉ xs := by
    intro j xs hx hc
    obtain ⟨k, hk⟩ := List.getElem?_of_mem hc
    exact hfin k j (hx.cell k none hk)
  obtain ⟨rm, rv, e1, s1, s2, c⟩ := (C66_columns_variances m sm sv w wm wv h2 sample false
    (fun j xs hx _ => by simpa using nonan j xs hx)).2.1 hm hv
  have l1 : rm.length = m.cols := by unfold Mat.length at *; rw [s1.rows, s1.cols]; exact hm
  have l2 : rv.length = m.cols := by unfold Mat.length at *; rw [s2.rows, s2.cols]; exact hv
  obtain ⟨res, e2, s, cr⟩ := (C66_standardize rsqrt m w true).1 rm rv (s1.wf wm) (s2.wf wv) l1 l2
  refine ⟨rm, rv, res, e1, e2, s, fun j hj => ?_⟩
  obtain ⟨xs, hx⟩ := exists_isColumn w (j := (j : Int)) (by omega) hj
  obtain ⟨cm, cv⟩ := c j xs hj hx
  have hn := nonan j xs hx
  have hl := hx.len
  have hlen : (numbers xs).length = xs.length := numbers_length hn
  have hne : numbers xs ≠ [] := fun hc => by rw [hc] at hlen; simp at hlen; omega
  have hsq := hvar j xs hx ⟨by omega, hj⟩
  have hpos : 0 < sqSum (numbers xs) := lt_of_le_of_ne (sqSum_nonneg _) (Ne.symm hsq)
  set n : ℝ := if sample then ((numbers xs).length : ℝ) - 1 else (numbers xs).length with hnd
  have hn0 : 0 < n := by
    have : (2 : ℝ) ≤ ((numbers xs).length : ℝ) := by
      rw [hlen]; have : 2 ≤ xs.length := by omega
      exact_mod_cast this
    rw [hnd]; split_ifs <;> linarith
  set v : ℝ := sqSum (numbers xs) / n with hvd
  have hv0 : 0 < v := div_pos hpos hn0
  have hstat : (numberStats sample xs).1 = some v := by
    unfold numberStats perCount
    simp only
    rw [if_neg (by rw [← hnd]; exact hn0.ne'), ← hnd]
  set zs := (numbers xs).map (fun x => (x - mean (numbers xs)) / Real.sqrt v) with hz
  have hs0 : Real.sqrt v ≠ 0 := (Real.sqrt_pos.2 hv0).ne'
  refine ⟨zs, ⟨by rw [hz]; simp only [List.length_map]; rw [hlen, s.rows]; exact hl, fun k z hk => ?_⟩, ?_, ?_⟩
  · rw [hz, List.map_map, List.getElem?_map, Option.map_eq_some_iff] at hk
    obtain ⟨x, hk, rfl⟩ := hk
    have hxk : xs[k]? = some (some x) := by
      conv_lhs => rw [eq_map_some hn]
      rw [List.getElem?_map, hk]; rfl
    rw [cr k j (some x) _ _ (hx.cell k _ hxk) cm cv, hstat]
    rw [if_neg (by simp [hv0.ne'])]
    simp only [if_true, rsqrt, Option.bind_some, sqrtV]
    rw [if_neg (not_lt.2 hv0.le)]
    simp only [numberStats, vsub_some, vdiv_some, hs0, if_false, Function.comp_apply]
  · rw [hz, mean_affine _ hne]; simp
  · rw [hz, sqSum_affine _ hne, Real.sq_sqrt hv0.le, List.length_map]
    unfold perCount
    simp only
    rw [if_neg (by rw [← hnd]; exact hn0.ne'), ← hnd, hvd]
    congr 1
    field_simp

end Real

/-! ## Instances -/

theorem wf_mk {α : Type} (rows cols : Nat) (data : List α) (h : data.length = rows * cols) :
    Mat.Wf (⟨rows, cols, some data⟩ : Mat α) :=
  ⟨by simp, by simp, rfl, by simp only [Mat.mem, Option.getD_some, h]; push_cast; exact le_refl _⟩

/-- The columns of a matrix laid over a list of the right length. -/
theorem isColumn_mk {α : Type} (rows cols j : Nat) (data : List α) (h : data.length = rows * cols) (hj : j < cols) :
    IsColumn (⟨rows, cols, some data⟩ : Mat α) (j : Int) ((data.drop (rows * j)).take rows) := by
  have hsz : rows * j + rows ≤ data.length := by
    rw [h]; calc rows * j + rows = rows * (j + 1) := by ring
      _ ≤ _ := Nat.mul_le_mul_left _ hj
  refine ⟨by simp; omega, fun k x hk => ?_⟩
  rw [List.getElem?_take] at hk
  split_ifs at hk with hkr
  rw [List.getElem?_drop] at hk
  rw [get_iff (wf_mk rows cols data h)]
  refine ⟨⟨by omega, by show (k : Int) < rows; omega, by omega, by show (j : Int) < cols; omega⟩, ?_⟩
  show read data ((k : Int) + (rows : Int) * (j : Int)) = _
  have e : (k : Int) + (rows : Int) * (j : Int) = ((rows * j + k : Nat) : Int) := by push_cast; ring
  rw [e]
  unfold read
  rw [if_pos (by omega)]
  simp only [Int.toNat_natCast, hk]

/-- The cells of a matrix laid over a list of the right length. -/
theorem isCells_mk {α : Type} (rows cols : Nat) (data : List α) (h : data.length = rows * cols) :
    IsCells (⟨rows, cols, some data⟩ : Mat α) data := by
  refine ⟨by rw [h]; simp [Mat.length], fun k x hk => ?_⟩
  have hk' : k < data.length := by rw [List.getElem?_eq_some_iff] at hk; exact hk.1
  rw [getLin_read (wf_mk rows cols data h) (by omega) (by simp only [Mat.length]; rw [h] at hk'; exact_mod_cast hk')]
  show read data k = _
  unfold read
  rw [if_pos (by omega)]
  simp only [Int.toNat_natCast, hk]

-- C65: a matrix with NaN in it
example : (⟨2, 2, some [some 1, none, some 3, some 8]⟩ : Mat (Val ℚ)).variance true true =
    .ok (perCount true (sqSum [1, 3, 8]) 3, some (mean [(1 : ℚ), 3, 8])) :=
  (C65_variance_partial _ _ (isCells_mk 2 2 _ rfl) true).1 (by decide) (by decide)
example : perCount true (sqSum [(1 : ℚ), 3, 8]) 3 = some 13 := by decide +kernel
example : (⟨1, 2, some [none, some 6]⟩ : Mat (Val ℚ)).mean true = .ok (some 3) := by
  have := (C65_violated_mean_position (⟨1, 2, some [none, some 6]⟩ : Mat (Val ℚ)) 6 (by norm_num) (isCells_mk 1 2 _ rfl)).1
  rw [this]; norm_num
-- C66: the covariance matrix of two columns
example : ∃ res, (⟨3, 2, some [some 1, some 2, some 3, some 2, some 4, some 9]⟩ : Mat (Val ℚ)).columnsVariance
    ⟨2, 2, some [none, none, none, none]⟩ [] true = .ok res ∧ res.get 1 0 = .ok (some (7 / 2)) := by
  let m : Mat (Val ℚ) := ⟨3, 2, some [some 1, some 2, some 3, some 2, some 4, some 9]⟩
  obtain ⟨res, e, -, c⟩ := (C66_covariance_matrix m ⟨2, 2, some [none, none, none, none]⟩ (wf_mk 3 2 _ rfl) (wf_mk 2 2 _ rfl) []
    (by simp) (by decide) true (fun j hj i hc => by
      obtain ⟨hin, hr⟩ := get_inv hc
      obtain ⟨h1, h2, h3, h4⟩ := hin
      have : i < 3 := h2
      have : j < 2 := h4
      interval_cases i <;> interval_cases j <;> revert hr <;> decide)).1 rfl rfl
  refine ⟨res, e, ?_⟩
  have := c 1 0 1 0 _ _ rfl rfl (isColumn_mk 3 2 1 _ rfl (by decide)) (isColumn_mk 3 2 0 _ rfl (by decide))
  exact this.trans (by decide +kernel)

end Mx
end LDT
