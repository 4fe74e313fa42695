import Verif.Lemmas.MatrixElem
import Mathlib.Tactic.Ring
import Mathlib.Algebra.Field.Basic
/-!
# C62: element-wise arithmetic

`res` being the storage after the call: same shape, and each cell is computed from the cells at the same place.
-/
namespace LDT
namespace Mx
variable {α : Type}

/-- `res` holds `f` of the cells of `a` (and of the old cells `s` of the storage). -/
def CellsFrom (a storage res : Mat α) (f : α → α → α) : Prop :=
  SameShape storage res ∧ ∀ i j x s, a.get i j = .ok x → storage.get i j = .ok s → res.get i j = .ok (f x s)

/-- `res` holds `f` of the cells of `a` and `b` (and of the old cells `s` of the storage). -/
def CellsFrom2 (a b storage res : Mat α) (f : α → α → α → α) : Prop :=
  SameShape storage res ∧ ∀ i j x y s, a.get i j = .ok x → b.get i j = .ok y → storage.get i j = .ok s →
    res.get i j = .ok (f x y s)

/-- Two matrices of the same shape. -/
def Mat.SameSize (a b : Mat α) : Prop := b.rows = a.rows ∧ b.cols = a.cols

theorem SameSize.len {a b : Mat α} (h : a.SameSize b) : b.length = a.length := by
  unfold Mat.length; rw [h.1, h.2]

theorem cells1 {a storage : Mat α} (wa : a.Wf) (ws : storage.Wf) (h : a.SameSize storage) (f : α → α) :
    ∃ res, cellLoop a.length (a.with1 f) storage = .ok res ∧ CellsFrom a storage res (fun x _ => f x) := by
  obtain ⟨res, e, s, c⟩ := cellLoop_spec storage ws a.length (SameSize.len h) _ (fun k h0 h1 => with1_ok wa f h0 h1)
  refine ⟨res, e, s, fun i j x t hx ht => ?_⟩
  obtain ⟨hi, hr⟩ := get_inv hx
  obtain ⟨hi', _⟩ := get_inv ht
  rw [get_iff (s.wf ws)]
  refine ⟨s.inR.2 hi', ?_⟩
  rw [s.rows, h.1, c _ (InR.lin hi).1 (InR.lin hi).2]
  exact with1_eq f hr

theorem cells1In {a storage : Mat α} (wa : a.Wf) (ws : storage.Wf) (h : a.SameSize storage) (f : α → α → α) :
    ∃ res, cellLoopIn a.length (fun i s => a.with1 (fun x => f x s) i) storage = .ok res ∧ CellsFrom a storage res f := by
  obtain ⟨res, e, s, c⟩ := cellLoopIn_spec storage ws a.length (SameSize.len h) (fun i s => a.with1 (fun x => f x s) i)
    (fun k x h0 h1 => with1_ok wa _ h0 h1)
  refine ⟨res, e, s, fun i j x t hx ht => ?_⟩
  obtain ⟨hi, hr⟩ := get_inv hx
  obtain ⟨hi', hr'⟩ := get_inv ht
  rw [get_iff (s.wf ws)]
  refine ⟨s.inR.2 hi', ?_⟩
  rw [h.1] at hr'
  rw [s.rows, h.1, c _ t (InR.lin hi).1 (InR.lin hi).2 hr']
  exact with1_eq _ hr

theorem cells2 {a b storage : Mat α} (wa : a.Wf) (wb : b.Wf) (ws : storage.Wf) (hb : a.SameSize b)
    (h : a.SameSize storage) (f : α → α → α) :
    ∃ res, cellLoop a.length (a.with2 b f) storage = .ok res ∧ CellsFrom2 a b storage res (fun x y _ => f x y) := by
  obtain ⟨res, e, s, c⟩ := cellLoop_spec storage ws a.length (SameSize.len h) _
    (fun k h0 h1 => with2_ok wa wb f h0 h1 (by rw [SameSize.len hb]; exact h1))
  refine ⟨res, e, s, fun i j x y t hx hy ht => ?_⟩
  obtain ⟨hi, hr⟩ := get_inv hx
  obtain ⟨_, hr2⟩ := get_inv hy
  obtain ⟨hi', _⟩ := get_inv ht
  rw [get_iff (s.wf ws)]
  refine ⟨s.inR.2 hi', ?_⟩
  rw [hb.1] at hr2
  rw [s.rows, h.1, c _ (InR.lin hi).1 (InR.lin hi).2]
  exact with2_eq f hr hr2

theorem cells2In {a b storage : Mat α} (wa : a.Wf) (wb : b.Wf) (ws : storage.Wf) (hb : a.SameSize b)
    (h : a.SameSize storage) (f : α → α → α → α) :
    ∃ res, cellLoopIn a.length (fun i s => a.with2 b (fun x y => f x y s) i) storage = .ok res ∧
      CellsFrom2 a b storage res f := by
  obtain ⟨res, e, s, c⟩ := cellLoopIn_spec storage ws a.length (SameSize.len h)
    (fun i s => a.with2 b (fun x y => f x y s) i)
    (fun k x h0 h1 => with2_ok wa wb _ h0 h1 (by rw [SameSize.len hb]; exact h1))
  refine ⟨res, e, s, fun i j x y t hx hy ht => ?_⟩
  obtain ⟨hi, hr⟩ := get_inv hx
  obtain ⟨_, hr2⟩ := get_inv hy
  obtain ⟨hi', hr'⟩ := get_inv ht
  rw [get_iff (s.wf ws)]
  refine ⟨s.inR.2 hi', ?_⟩
  rw [hb.1] at hr2
  rw [h.1] at hr'
  rw [s.rows, h.1, c _ t (InR.lin hi).1 (InR.lin hi).2 hr']
  exact with2_eq _ hr hr2

/-- Every cell of `m` goes through `f`, in place. -/
def CellsIn (m res : Mat α) (f : α → α) : Prop :=
  SameShape m res ∧ ∀ i j x, m.get i j = .ok x → res.get i j = .ok (f x)

theorem scalarIn_spec {m : Mat α} (w : m.Wf) (f : α → α) : ∃ res, m.scalarIn f = .ok res ∧ CellsIn m res f := by
  obtain ⟨res, e, s, c⟩ := cellLoopIn_spec m w m.length rfl (fun _ x => .ok (f x)) (fun k x _ _ => ⟨_, rfl⟩)
  refine ⟨res, e, s, fun i j x hx => ?_⟩
  obtain ⟨hi, hr⟩ := get_inv hx
  rw [get_iff (s.wf w)]
  refine ⟨s.inR.2 hi, ?_⟩
  rw [s.rows]
  exact c _ x (InR.lin hi).1 (InR.lin hi).2 hr

/-- Every cell of `m` is combined with the cell of `b` at the same place, in place. -/
def CellsIn2 (m b res : Mat α) (f : α → α → α) : Prop :=
  SameShape m res ∧ ∀ i j x y, m.get i j = .ok x → b.get i j = .ok y → res.get i j = .ok (f x y)

theorem matrixIn_lin {m b : Mat α} (w : m.Wf) (wb : b.Wf) (h : b.length = m.length) (f : α → α → α) :
    ∃ res, m.matrixIn b f = .ok res ∧ SameShape m res ∧ ∀ k x y, 0 ≤ k → k < m.length → read m.mem k = .ok x →
      read b.mem k = .ok y → read res.mem k = .ok (f x y) := by
  obtain ⟨res, e, s, c⟩ := cellLoopIn_spec m w m.length rfl (fun i x => do
    let y ← read b.mem i
    pure (f x y)) (fun k x h0 h1 => by
      obtain ⟨y, hy⟩ := wb.read_lin h0 (by rw [h]; exact h1)
      exact ⟨f x y, by rw [hy]; rfl⟩)
  refine ⟨res, e, s, fun k x y h0 h1 hx hy => ?_⟩
  rw [c k x h0 h1 hx, hy]; rfl

theorem matrixIn_spec {m b : Mat α} (w : m.Wf) (wb : b.Wf) (h : m.SameSize b) (f : α → α → α) :
    ∃ res, m.matrixIn b f = .ok res ∧ CellsIn2 m b res f := by
  obtain ⟨res, e, s, c⟩ := matrixIn_lin w wb (SameSize.len h) f
  refine ⟨res, e, s, fun i j x y hx hy => ?_⟩
  obtain ⟨hi, hr⟩ := get_inv hx
  obtain ⟨_, hr2⟩ := get_inv hy
  rw [h.1] at hr2
  rw [get_iff (s.wf w)]
  refine ⟨s.inR.2 hi, ?_⟩
  rw [s.rows]
  exact c _ x y (InR.lin hi).1 (InR.lin hi).2 hr hr2

theorem not_sameSize {a b : Mat α} (h : ¬ a.SameSize b) : (!a.sameSize b) = true := by
  rw [Bool.not_eq_true', Bool.eq_false_iff]
  intro hc; exact h ((sameSize_iff a b).1 hc)

theorem yes_sameSize {a b : Mat α} (h : a.SameSize b) : ¬ (!a.sameSize b) = true := by
  rw [(sameSize_iff a b).2 h]; simp

/-- A number is added to, subtracted from, or divides every cell; a storage of another shape is refused. -/
theorem C62_number (a storage : Mat α) (wa : a.Wf) (ws : storage.Wf) (b : α) [Add α] [Sub α] [Div α] :
    (a.SameSize storage →
      (∃ res, a.addS b storage = .ok res ∧ CellsFrom a storage res (fun x _ => x + b)) ∧
      (∃ res, a.subS b storage = .ok res ∧ CellsFrom a storage res (fun x _ => x - b)) ∧
      (∃ res, a.divS b storage = .ok res ∧ CellsFrom a storage res (fun x _ => x / b))) ∧
    (¬ a.SameSize storage → a.addS b storage = .throws ∧ a.subS b storage = .throws ∧ a.divS b storage = .throws) := by
  unfold Mat.addS Mat.subS Mat.divS
  constructor
  · intro h
    rw [if_neg (yes_sameSize h), if_neg (yes_sameSize h), if_neg (yes_sameSize h)]
    exact ⟨cells1 wa ws h _, cells1 wa ws h _, cells1 wa ws h _⟩
  · intro h
    rw [if_pos (not_sameSize h), if_pos (not_sameSize h), if_pos (not_sameSize h)]
    exact ⟨rfl, rfl, rfl⟩

/-- Scaling: `b * cell + beta * old cell` (also in the branch for `beta == 0`). -/
theorem C62_scale {K : Type} [Semiring K] [DecidableEq K] (a storage : Mat K) (wa : a.Wf) (ws : storage.Wf)
    (b beta : K) :
    (a.SameSize storage → ∃ res, a.mulS b storage beta = .ok res ∧
      CellsFrom a storage res (fun x s => x * b + beta * s)) ∧
    (¬ a.SameSize storage → a.mulS b storage beta = .throws) := by
  unfold Mat.mulS
  constructor
  · intro h
    rw [if_neg (yes_sameSize h)]
    unfold Mat.mulS0
    split_ifs with hb
    · obtain ⟨res, e, s, c⟩ := cells1 wa ws h (· * b)
      refine ⟨res, e, s, fun i j x t hx ht => ?_⟩
      rw [c i j x t hx ht, hb]; simp
    · exact cells1In wa ws h _
  · intro h; rw [if_pos (not_sameSize h)]

/-- The cells of two matrices are added, subtracted or divided; other shapes are refused. -/
theorem C62_matrices (a b storage : Mat α) (wa : a.Wf) (wb : b.Wf) (ws : storage.Wf) [Add α] [Sub α] [Div α] :
    (a.SameSize storage → a.SameSize b →
      (∃ res, a.addM b storage = .ok res ∧ CellsFrom2 a b storage res (fun x y _ => x + y)) ∧
      (∃ res, a.subM b storage = .ok res ∧ CellsFrom2 a b storage res (fun x y _ => x - y)) ∧
      (∃ res, a.divM b storage = .ok res ∧ CellsFrom2 a b storage res (fun x y _ => x / y))) ∧
    (¬ (a.SameSize storage ∧ a.SameSize b) →
      a.addM b storage = .throws ∧ a.subM b storage = .throws ∧ a.divM b storage = .throws) := by
  unfold Mat.addM Mat.subM Mat.divM
  constructor
  · intro h hb
    simp only [if_neg (yes_sameSize h), if_neg (yes_sameSize hb)]
    exact ⟨cells2 wa wb ws hb h _, cells2 wa wb ws hb h _, cells2 wa wb ws hb h _⟩
  · intro h
    by_cases h1 : a.SameSize storage
    · have h2 : ¬ a.SameSize b := fun h2 => h ⟨h1, h2⟩
      simp only [if_neg (yes_sameSize h1), if_pos (not_sameSize h2), and_self]
    · simp only [if_pos (not_sameSize h1), and_self]

/-- The Hadamard product, plus `beta` times the old storage. -/
theorem C62_hadamard {K : Type} [Semiring K] [DecidableEq K] (a b storage : Mat K) (wa : a.Wf) (wb : b.Wf)
    (ws : storage.Wf) (beta : K) :
    (a.SameSize storage → a.SameSize b → ∃ res, a.mulM b storage beta = .ok res ∧
      CellsFrom2 a b storage res (fun x y s => x * y + beta * s)) ∧
    (¬ (a.SameSize storage ∧ a.SameSize b) → a.mulM b storage beta = .throws) := by
  unfold Mat.mulM
  constructor
  · intro h hb
    rw [if_neg (yes_sameSize h), if_neg (yes_sameSize hb)]
    unfold Mat.mulM0
    split_ifs with hz
    · obtain ⟨res, e, s, c⟩ := cells2 wa wb ws hb h (· * ·)
      refine ⟨res, e, s, fun i j x y t hx hy ht => ?_⟩
      rw [c i j x y t hx hy ht, hz]; simp
    · exact cells2In wa wb ws hb h _
  · intro h
    by_cases h1 : a.SameSize storage
    · have h2 : ¬ a.SameSize b := fun h2 => h ⟨h1, h2⟩
      rw [if_neg (yes_sameSize h1), if_pos (not_sameSize h2)]
    · rw [if_pos (not_sameSize h1)]

/-- In-place arithmetic with a number. -/
theorem C62_number_in (m : Mat α) (w : m.Wf) (b : α) [Add α] [Sub α] [Mul α] [Div α] :
    (∃ res, m.addSIn b = .ok res ∧ CellsIn m res (· + b)) ∧ (∃ res, m.subSIn b = .ok res ∧ CellsIn m res (· - b)) ∧
    (∃ res, m.mulSIn b = .ok res ∧ CellsIn m res (· * b)) ∧ (∃ res, m.divSIn b = .ok res ∧ CellsIn m res (· / b)) :=
  ⟨scalarIn_spec w _, scalarIn_spec w _, scalarIn_spec w _, scalarIn_spec w _⟩

/-- In-place arithmetic with a matrix; another shape is refused. -/
theorem C62_matrices_in (m b : Mat α) (w : m.Wf) (wb : b.Wf) [Add α] [Sub α] [Mul α] [Div α] :
    (m.SameSize b →
      (∃ res, m.addMIn b = .ok res ∧ CellsIn2 m b res (· + ·)) ∧
      (∃ res, m.subMIn b = .ok res ∧ CellsIn2 m b res (· - ·)) ∧
      (∃ res, m.mulMIn b = .ok res ∧ CellsIn2 m b res (· * ·)) ∧
      (∃ res, m.divMIn b = .ok res ∧ CellsIn2 m b res (· / ·))) ∧
    (¬ m.SameSize b →
      m.addMIn b = .throws ∧ m.subMIn b = .throws ∧ m.mulMIn b = .throws ∧ m.divMIn b = .throws) := by
  unfold Mat.addMIn Mat.subMIn Mat.mulMIn Mat.divMIn
  constructor
  · intro h
    simp only [if_neg (yes_sameSize h)]
    exact ⟨matrixIn_spec w wb h _, matrixIn_spec w wb h _, matrixIn_spec w wb h _, matrixIn_spec w wb h _⟩
  · intro h
    simp only [if_pos (not_sameSize h), and_self]

/-- Adding and then subtracting the same matrix (or number) in place restores every cell. -/
theorem C62_add_subtract {K : Type} [Field K] (m b : Mat K) (w : m.Wf) (wb : b.Wf) (h : m.SameSize b) :
    ∃ r s, m.addMIn b = .ok r ∧ r.subMIn b = .ok s ∧ SameShape m s ∧ ∀ i j, s.get i j = m.get i j := by
  obtain ⟨⟨r, e, sr, cr⟩, -⟩ := (C62_matrices_in m b w wb).1 h
  have wr := sr.wf w
  obtain ⟨-, ⟨s, e', ss, cs⟩, -⟩ := (C62_matrices_in r b wr wb).1 ⟨by rw [sr.rows]; exact h.1, by rw [sr.cols]; exact h.2⟩
  have sh := sr.trans ss
  refine ⟨r, s, e, e', sh, fun i j => ?_⟩
  by_cases hij : m.InR i j
  · obtain ⟨x, hx⟩ := get0_ok w hij
    rw [← get_eq_get0 w hij] at hx
    have hb : b.InR i j := ⟨hij.1, by rw [h.1]; exact hij.2.1, hij.2.2.1, by rw [h.2]; exact hij.2.2.2⟩
    obtain ⟨y, hy⟩ := get0_ok wb hb
    rw [← get_eq_get0 wb hb] at hy
    rw [cs i j _ y (cr i j x y hx hy) hy, hx]
    exact congrArg Outcome.ok (add_sub_cancel_right x y)
  · have hs : ¬ s.InR i j := fun hc => hij (sh.inR.1 hc)
    unfold Mat.InR at hij hs
    unfold Mat.get
    rw [if_neg (by rw [(sh.wf w).data_eq]; simp), if_pos (by omega), if_neg (by rw [w.data_eq]; simp), if_pos (by omega)]

/-- `Apply`: a function is applied to every cell (`Apply` and `Apply_in`), or to pairs of cells. Only the lengths
are compared, cells being matched in memory order. -/
theorem C62_apply (a storage : Mat α) (wa : a.Wf) (ws : storage.Wf) (f : α → α) :
    (storage.length = a.length → ∃ res, a.apply f storage = .ok res ∧ SameShape storage res ∧
      ∀ k x, a.getLin k = .ok x → res.getLin k = .ok (f x)) ∧
    (storage.length ≠ a.length → a.apply f storage = .throws) ∧
    (∃ res, a.applyIn f = .ok res ∧ CellsIn a res f) := by
  unfold Mat.apply
  refine ⟨fun h => ?_, fun h => if_pos h, scalarIn_spec wa f⟩
  rw [if_neg (by omega)]
  obtain ⟨res, e, s, c⟩ := cellLoop_spec storage ws a.length h _ (fun k h0 h1 => with1_ok wa f h0 h1)
  refine ⟨res, e, s, fun k x hx => ?_⟩
  unfold Mat.getLin at hx ⊢
  split_ifs at hx with h1 h2
  rw [if_neg (by rw [(s.wf ws).data_eq]; simp), if_neg]
  · rw [c k (by omega) (by omega)]; exact with1_eq f hx
  · have : res.length = a.length := by rw [← h]; unfold Mat.length; rw [s.rows, s.cols]
    omega

theorem C62_apply_pairs (a b storage : Mat α) (wa : a.Wf) (wb : b.Wf) (ws : storage.Wf) (f : α → α → α) :
    (storage.length = a.length → b.length = a.length → ∃ res, a.apply2 b f storage = .ok res ∧ SameShape storage res ∧
      ∀ k x y, a.getLin k = .ok x → b.getLin k = .ok y → res.getLin k = .ok (f x y)) ∧
    (storage.length ≠ a.length ∨ b.length ≠ a.length → a.apply2 b f storage = .throws) ∧
    (b.length = a.length → ∃ res, a.applyIn2 b f = .ok res ∧ SameShape a res ∧
      ∀ k x y, a.getLin k = .ok x → b.getLin k = .ok y → res.getLin k = .ok (f x y)) ∧
    (b.length ≠ a.length → a.applyIn2 b f = .throws) := by
  unfold Mat.apply2 Mat.applyIn2
  refine ⟨fun h hb => ?_, fun h => ?_, fun h => ?_, fun h => if_pos h⟩
  · rw [if_neg (by omega), if_neg (by omega)]
    obtain ⟨res, e, s, c⟩ := cellLoop_spec storage ws a.length h _ (fun k h0 h1 => with2_ok wa wb f h0 h1 (by omega))
    refine ⟨res, e, s, fun k x y hx hy => ?_⟩
    unfold Mat.getLin at hx hy ⊢
    split_ifs at hx with h1 h2
    split_ifs at hy with h3 h4
    rw [if_neg (by rw [(s.wf ws).data_eq]; simp), if_neg]
    · rw [c k (by omega) (by omega)]; exact with2_eq f hx hy
    · have : res.length = a.length := by rw [← h]; unfold Mat.length; rw [s.rows, s.cols]
      omega
  · split_ifs <;> first | rfl | (exfalso; omega)
  · rw [if_neg (by omega)]
    obtain ⟨res, e, s, c⟩ := matrixIn_lin wa wb h f
    refine ⟨res, e, s, fun k x y hx hy => ?_⟩
    unfold Mat.getLin at hx hy ⊢
    split_ifs at hx with h1 h2
    split_ifs at hy with h3 h4
    rw [if_neg (by rw [(s.wf wa).data_eq]; simp), if_neg]
    · exact c k x y (by omega) (by omega) hx hy
    · have : res.length = a.length := by unfold Mat.length; rw [s.rows, s.cols]
      omega

/-- `ApplyRow_in` and `ApplyColumn_in` change one row or column and nothing else. -/
theorem C62_apply_row_column (m : Mat α) (w : m.Wf) (f : α → α) :
    (∀ r, 0 ≤ r → r < m.rows → ∃ res, m.applyRowIn r f = .ok res ∧ SameShape m res ∧
      ∀ i j x, m.get i j = .ok x → res.get i j = .ok (if i = r then f x else x)) ∧
    (∀ c, 0 ≤ c → c < m.cols → ∃ res, m.applyColumnIn c f = .ok res ∧ SameShape m res ∧
      ∀ i j x, m.get i j = .ok x → res.get i j = .ok (if j = c then f x else x)) := by
  have step : ∀ (d : Mat α), SameShape m d → ∀ i j, m.InR i j → ∀ x, d.get i j = .ok x →
      ∃ d', (do
        let x ← read d.mem (i + m.rows * j)
        let l ← write d.mem (i + m.rows * j) (f x)
        pure { d with data := some l } : Outcome (Mat α)) = .ok d' ∧ SameShape m d' ∧
        ∀ a b, m.InR a b → d'.get a b = if a = i ∧ b = j then .ok (f x) else d.get a b := by
    intro d s i j hij x hx
    have wd := s.wf w
    have hij' := s.inR.2 hij
    obtain ⟨_, hr⟩ := get_inv hx
    rw [s.rows] at hr
    obtain ⟨d', e, s', ho⟩ := set0_spec wd hij' (f x)
    have e' : (do
        let x ← read d.mem (i + m.rows * j)
        let l ← write d.mem (i + m.rows * j) (f x)
        pure { d with data := some l } : Outcome (Mat α)) = .ok d' := by
      rw [hr, Outcome.ok_bind, ← e]
      unfold Mat.set0
      rw [s.rows]
    refine ⟨d', e', s.trans s', fun a b hab => ?_⟩
    have hab' := s.inR.2 hab
    rw [get_eq_get0 (s'.wf wd) (s'.inR.2 hab'), get_eq_get0 wd hab']
    exact ho a b hab'
  constructor
  · intro r h0 h1
    unfold Mat.applyRowIn
    obtain ⟨res, e, s, c⟩ := loop_inv (a := 0) (b := m.cols) w.cols_nonneg (fun (d : Mat α) j => do
        let x ← read d.mem (r + m.rows * j)
        let l ← write d.mem (r + m.rows * j) (f x)
        pure { d with data := some l })
      (fun k (d : Mat α) => SameShape m d ∧ ∀ i j x, m.get i j = .ok x →
        d.get i j = .ok (if i = r ∧ j < k then f x else x)) (s := m)
      ⟨SameShape.refl _, fun i j x hx => by
        have := (get_inv hx).1.2.2.1
        rw [if_neg (by omega), hx]⟩
      (fun k hk0 hk1 d ⟨s, c⟩ => by
        have hrk : m.InR r k := ⟨h0, h1, hk0, hk1⟩
        obtain ⟨x, hx⟩ := get0_ok w hrk
        rw [← get_eq_get0 w hrk] at hx
        obtain ⟨d', e', s', c'⟩ := step d s r k hrk x (by rw [c r k x hx, if_neg (by omega)])
        refine ⟨d', e', s', fun i j y hy => ?_⟩
        rw [c' i j (get_inv hy).1, c i j y hy]
        by_cases hh : i = r ∧ j = k
        · rw [if_pos hh, if_pos (by omega)]
          rw [hh.1, hh.2, hx] at hy; cases hy; rfl
        · rw [if_neg hh]
          congr 2; apply propext; omega)
    exact ⟨res, e, s, fun i j x hx => by
      rw [c i j x hx]
      have := (get_inv hx).1.2.2.2
      congr 2; apply propext; omega⟩
  · intro cc h0 h1
    unfold Mat.applyColumnIn
    obtain ⟨res, e, s, c⟩ := loop_inv (a := 0) (b := m.rows) w.rows_nonneg (fun (d : Mat α) i => do
        let x ← read d.mem (m.rows * cc + i)
        let l ← write d.mem (m.rows * cc + i) (f x)
        pure { d with data := some l })
      (fun k (d : Mat α) => SameShape m d ∧ ∀ i j x, m.get i j = .ok x →
        d.get i j = .ok (if j = cc ∧ i < k then f x else x)) (s := m)
      ⟨SameShape.refl _, fun i j x hx => by
        have := (get_inv hx).1.1
        rw [if_neg (by omega), hx]⟩
      (fun k hk0 hk1 d ⟨s, c⟩ => by
        have hrk : m.InR k cc := ⟨hk0, hk1, h0, h1⟩
        obtain ⟨x, hx⟩ := get0_ok w hrk
        rw [← get_eq_get0 w hrk] at hx
        obtain ⟨d', e', s', c'⟩ := step d s k cc hrk x (by rw [c k cc x hx, if_neg (by omega)])
        refine ⟨d', by rw [add_comm (m.rows * cc) k]; exact e', s', fun i j y hy => ?_⟩
        rw [c' i j (get_inv hy).1, c i j y hy]
        by_cases hh : i = k ∧ j = cc
        · rw [if_pos hh, if_pos (by omega)]
          rw [hh.1, hh.2, hx] at hy; cases hy; rfl
        · rw [if_neg hh]
          congr 2; apply propext; omega)
    exact ⟨res, e, s, fun i j x hx => by
      rw [c i j x hx]
      have := (get_inv hx).1.2.1
      congr 2; apply propext; omega⟩

/-! Concrete instances. -/
example : (⟨2, 2, some [1, 2, 3, 4]⟩ : Mat Int).Wf ∧ (⟨2, 2, some [1, 2, 3, 4]⟩ : Mat Int).SameSize ⟨2, 2, some [0, 0, 0, 0]⟩ :=
  ⟨⟨by decide, by decide, rfl, by decide⟩, by decide, by decide⟩
example : ∃ r, (⟨2, 2, some [1, 2, 3, 4]⟩ : Mat Int).mulM ⟨2, 2, some [5, 6, 7, 8]⟩ ⟨2, 2, some [1, 1, 1, 1]⟩ 10 = .ok r ∧
    r.data = some [15, 22, 31, 42] := ⟨_, rfl, by decide +kernel⟩
example : (⟨2, 2, some [1, 2, 3, 4]⟩ : Mat Int).addM ⟨4, 1, some [5, 6, 7, 8]⟩ ⟨2, 2, some [1, 1, 1, 1]⟩ = .throws := by
  decide +kernel
example : ∃ r, (⟨2, 2, some [1, 2, 3, 4]⟩ : Mat Int).applyRowIn 1 (· * 10) = .ok r ∧ r.data = some [1, 20, 3, 40] :=
  ⟨_, rfl, by decide +kernel⟩

end Mx
end LDT
