import Verif.Spec.VarmaSearcher
import Verif.Lemmas.SurTables
import Verif.Lemmas.VarmaSim
/-! # Lemmas: one VARMA model of a search -/
namespace LDT
namespace Vm
open Op Mx Arr Score
open Dc (bind_ok)

theorem unit_of {x : Outcome Unit} {a : Unit} (h : x = .ok a) : x = .ok () := h

/-! ## Memory -/

theorem fits_ok {size off len : ℤ} (h : len ≤ 0 ∨ (0 ≤ off ∧ off + len ≤ size)) : fits size off len = .ok () := by
  unfold fits
  rw [if_neg (by omega)]

theorem fits_ub {size off len : ℤ} (h0 : 0 < len) (h : size < off + len) : fits size off len = .ub := by
  unfold fits
  rw [if_pos ⟨h0, Or.inr h⟩]

section
variable {z : Varma.Sizes} {n k : ℕ}

theorem Planned.f_nonneg (h : Planned z n k) : 0 ≤ z.maStart ∧ 0 ≤ z.numParamsEq ∧ 0 ≤ z.numParams := by
  have ha : 0 ≤ z.arLength := by unfold Varma.Sizes.arLength; omega
  have hm : 0 ≤ z.maLength := by unfold Varma.Sizes.maLength; omega
  have h1 : 0 ≤ z.maStart := by
    unfold Varma.Sizes.maStart
    rw [h.eqs, h.exo]; positivity
  have h2 : 0 ≤ z.numParamsEq := by
    unfold Varma.Sizes.numParamsEq
    rw [h.eqs]; positivity
  refine ⟨h1, h2, ?_⟩
  unfold Varma.Sizes.numParams
  rw [h.eqs]; positivity

theorem Planned.obs (h : Planned z n k) : z.obsCount - z.diffPoly.length + 1 = z.T + z.arMax := by
  unfold Varma.Sizes.T Varma.Sizes.arMaxD Varma.Sizes.diffDegree
  rw [if_neg (by have := h.diff; simpa using this)]
  omega

/-- More observations need more memory. -/
theorem estStorage_mono (h : Planned z n k) {a : ℤ} (ha : a ≤ z.obsCount) : estStorage { z with obsCount := a } ≤ estStorage z := by
  obtain ⟨-, h2, h3⟩ := h.f_nonneg
  have hT : Varma.Sizes.T { z with obsCount := a } ≤ z.T := by
    show a - z.arMaxD ≤ z.obsCount - z.arMaxD
    omega
  have hg : 0 ≤ z.eqsCount := by rw [h.eqs]; omega
  show z.numParams + 2 * (z.eqsCount * Varma.Sizes.T { z with obsCount := a }) + Varma.Sizes.T { z with obsCount := a } * z.numParamsEq + z.eqsCount * z.eqsCount +
    z.numParams * z.numParams + 4 * (z.eqsCount * z.numParamsEq) ≤ _
  unfold estStorage
  generalize Varma.Sizes.T { z with obsCount := a } = T' at hT
  have e1 := mul_le_mul_of_nonneg_left hT hg
  have e2 := mul_le_mul_of_nonneg_right hT h2
  omega

theorem estStorage_lt (h : Planned z n k) {a : ℤ} (ha : z.obsCount < a) (hn : 0 < n) : estStorage z < estStorage { z with obsCount := a } := by
  obtain ⟨-, h2, h3⟩ := h.f_nonneg
  have hT : z.T < Varma.Sizes.T { z with obsCount := a } := by
    show z.obsCount - z.arMaxD < a - z.arMaxD
    omega
  have hg : 0 < z.eqsCount := by rw [h.eqs]; omega
  show _ < z.numParams + 2 * (z.eqsCount * Varma.Sizes.T { z with obsCount := a }) + Varma.Sizes.T { z with obsCount := a } * z.numParamsEq + z.eqsCount * z.eqsCount +
    z.numParams * z.numParams + 4 * (z.eqsCount * z.numParamsEq)
  unfold estStorage
  generalize Varma.Sizes.T { z with obsCount := a } = T' at hT
  have e1 := mul_lt_mul_of_pos_left hT hg
  have e2 := mul_le_mul_of_nonneg_right hT.le h2
  omega

theorem estWork_mono (ml : ℤ → ℤ → ℤ → ℤ) (h : Planned z n k) {a : ℤ} (ha : a ≤ z.obsCount) : estWork ml { z with obsCount := a } ≤ estWork ml z := by
  obtain ⟨-, h2, h3⟩ := h.f_nonneg
  have hT : Varma.Sizes.T { z with obsCount := a } ≤ z.T := by
    show a - z.arMaxD ≤ z.obsCount - z.arMaxD
    omega
  have hg : 0 ≤ z.eqsCount := by rw [h.eqs]; omega
  unfold estWork
  refine max_le_max le_rfl (add_le_add ?_ ?_)
  · show (if z.arLength ≠ 0 ∨ z.exoCount ≠ 0 then z.numParamsEq * z.numParamsEq + z.numParamsEq * z.eqsCount * z.numParamsEq * z.eqsCount +
        z.eqsCount * Varma.Sizes.T { z with obsCount := a } + z.numParamsEq * z.eqsCount * Varma.Sizes.T { z with obsCount := a } * z.eqsCount + z.numParams +
        Varma.Sizes.T { z with obsCount := a } * z.numParamsEq + (z.numParams * z.eqsCount * z.numParamsEq + z.numParams * Varma.Sizes.T { z with obsCount := a } * z.eqsCount +
        z.numParamsEq * z.eqsCount) else 0) ≤ _
    generalize Varma.Sizes.T { z with obsCount := a } = T' at hT
    by_cases c : z.arLength ≠ 0 ∨ z.exoCount ≠ 0
    · rw [if_pos c, if_pos c]
      have e1 := mul_le_mul_of_nonneg_left hT hg
      have e2 := mul_le_mul_of_nonneg_right (mul_le_mul_of_nonneg_left hT (mul_nonneg h2 hg)) hg
      have e3 := mul_le_mul_of_nonneg_right hT h2
      have e4 := mul_le_mul_of_nonneg_right (mul_le_mul_of_nonneg_left hT h3) hg
      linarith
    · rw [if_neg c, if_neg c]
  · show (if z.hasDiff = true then z.eqsCount * (a - z.diffPoly.length + 1) else 0) ≤ (if z.hasDiff = true then z.eqsCount * (z.obsCount - z.diffPoly.length + 1) else 0)
    split
    · exact mul_le_mul_of_nonneg_left (by omega) hg
    · exact le_rfl

theorem estStorage_nonneg (h : Planned z n k) : 0 ≤ estStorage z := by
  obtain ⟨-, h2, h3⟩ := h.f_nonneg
  have hg : 0 ≤ z.eqsCount := by rw [h.eqs]; omega
  have := h.long
  unfold estStorage
  positivity

theorem estWork_nonneg (ml : ℤ → ℤ → ℤ → ℤ) (h : Planned z n k) : 0 ≤ estWork ml z := by
  obtain ⟨-, h2, h3⟩ := h.f_nonneg
  have hg : 0 ≤ z.eqsCount := by rw [h.eqs]; omega
  have hT := h.long
  unfold estWork
  refine le_max_of_le_right (add_nonneg ?_ ?_)
  · split
    · positivity
    · exact le_rfl
  · split
    · rw [h.obs]
      exact mul_nonneg hg (add_nonneg hT h.lags)
    · exact le_rfl

end

/-- The parts of the memory. -/
theorem construct_parts {u : Setup} {w : Needs} {cols : ℤ} {n k : ℕ} {M : Memory} (h : construct u w cols n k = .ok M) :
    (u.forecasts = true → 0 < u.maxHorizon) ∧ M = memory u w cols n k := by
  unfold construct at h
  obtain ⟨_, h1, h⟩ := bind_ok h
  obtain ⟨_, h2, h⟩ := bind_ok h
  refine ⟨fun hf => ?_, (Outcome.ok.inj h).symm⟩
  unfold checkHorizon at h1
  by_contra hc
  rw [if_pos ⟨hf, by omega⟩] at h1
  cases h1

theorem memory_nonneg {u : Setup} {w : Needs} {cols : ℤ} {n k : ℕ} {M : Memory} (h : construct u w cols n k = .ok M) (p : Planned u.sizes n k) :
    0 ≤ M.eStorage ∧ 0 ≤ M.pStorage ∧ 0 ≤ M.sStorage ∧ 0 ≤ M.eWork ∧
    M.pStorage + M.eStorage + M.sStorage + M.eWork + cols * n + cols * k ≤ M.work := by
  obtain ⟨hf, rfl⟩ := construct_parts h
  have hg : 0 ≤ u.sizes.eqsCount := by rw [p.eqs]; omega
  have e1 : 0 ≤ (if u.checks.estimation then estStorage u.sizes else 0) := by split; exacts [estStorage_nonneg p, le_rfl]
  have e2 : 0 ≤ (if u.checks.estimation then estWork w.ml u.sizes else 0) := by split; exacts [estWork_nonneg _ p, le_rfl]
  have e3 : 0 ≤ (if u.forecasts then u.sizes.eqsCount * (u.maxHorizon + u.sizes.arMaxD) * 2 else 0) := by
    split
    · next hc =>
      have := hf hc
      have hd : 0 ≤ u.sizes.arMaxD := by
        unfold Varma.Sizes.arMaxD Varma.Sizes.diffDegree
        have := p.lags
        split <;> omega
      positivity
    · exact le_rfl
  have e4 : 0 ≤ (if u.simulates then (u.metrics.metricsOut.length : ℤ) * u.sizes.eqsCount else 0) := by split; exacts [by positivity, le_rfl]
  refine ⟨e1, e3, e4, e2, ?_⟩
  have e5 : (if u.sizes.exoCount > 0 then cols * k else 0) = cols * k := by
    rw [p.exo]
    by_cases c : k = 0
    · subst c; simp
    · rw [if_pos (by omega)]
  show _ ≤ _ + _ + _ + max _ (max _ _) + _ + (if u.sizes.exoCount > 0 then cols * k else 0)
  rw [e5]
  have : (if u.checks.estimation then estWork w.ml u.sizes else 0) ≤ max (if u.checks.estimation then estWork w.ml u.sizes else 0)
      (max (if u.simulates then w.sim else 0) (if u.forecasts then w.forecast else 0)) := le_max_left _ _
  show (if u.forecasts then u.sizes.eqsCount * (u.maxHorizon + u.sizes.arMaxD) * 2 else 0) + (if u.checks.estimation then estStorage u.sizes else 0) +
    (if u.simulates then (u.metrics.metricsOut.length : ℤ) * u.sizes.eqsCount else 0) + (if u.checks.estimation then estWork w.ml u.sizes else 0) + cols * n + cols * k ≤ _
  linarith

/-! ## The sample -/

theorem copyRows_ok {m : Mat (Val ℝ)} (wf : m.Wf) {start n : ℤ} {idx : List ℤ} (h0 : 0 ≤ start) (h1 : 0 ≤ n) (h2 : start + n ≤ m.cols)
    (h3 : ∀ k ∈ idx, 0 ≤ k ∧ k < m.rows) : ∃ r, copyRows m start n idx = .ok r ∧ r.rows = idx.length ∧ r.cols = n ∧
      ∀ (a : ℕ) (k t : ℤ), idx[a]? = some k → 0 ≤ t → t < n → r.get a t = m.get k (start + t) := by
  have hw : (⟨idx.length, n, some (List.replicate (idx.length * n).toNat none)⟩ : Mat (Val ℝ)).Wf :=
    Mat.Wf.of_storage _ (by omega) (by omega) (by rw [List.length_replicate]; have : 0 ≤ (idx.length : ℤ) * n := by positivity
                                                  omega)
  obtain ⟨r, e, c⟩ := C35_get_sub_range m _ wf hw start n idx false false 0 0 (le_refl _) (le_refl _) h0 h1 (by simpa using h2) (by simpa using h3) (by simp) idx
    (by simp) (by simp) (by simp)
  refine ⟨r, e, c.shape.rows, c.shape.cols, fun a k t ha ht0 ht1 => ?_⟩
  have hup : (upTo start (start + n))[t.toNat]? = some (start + t) := by
    rw [getElem?_upTo, if_pos (by omega)]; congr 1; omega
  have := c.block a t.toNat k (start + t) (by simpa using ha) (by simpa using hup)
  rw [show (0 : ℤ) + (a : ℤ) = a by omega, show (0 : ℤ) + ((t.toNat : ℕ) : ℤ) = t by omega] at this
  exact this

theorem sample_of {d : DsTs ℝ} (wf : d.pData.Wf) {size : ℤ} {inner cur cols : List ℤ} {S E : ℤ} (hw : window d cols = .ok (S, E)) (h0 : 0 ≤ S) (hE : E < d.pData.cols)
    (hSE : S ≤ E) (hc : ∀ k ∈ cur, 0 ≤ k ∧ k < d.pData.rows) (hi : ∀ k ∈ inner, 0 ≤ k ∧ k < d.pData.rows)
    (hs : d.pData.cols * cur.length + d.pData.cols * inner.length ≤ size) :
    ∃ s, sample d size inner cur cols = .ok s ∧ Sampled d.pData inner cur S E s ∧ s.stop = cur.length * (E - S + 1) + inner.length * (d.pData.cols - S) := by
  obtain ⟨y, y1, y2, y3, y4⟩ := copyRows_ok wf (n := E - S + 1) h0 (by omega) (by omega) hc
  have b1 : (cur.length : ℤ) * (E - S + 1) ≤ d.pData.cols * cur.length := by
    rw [mul_comm]; exact mul_le_mul_of_nonneg_right (by omega) (by omega)
  have b2 : (inner.length : ℤ) * (d.pData.cols - S) ≤ d.pData.cols * inner.length := by
    rw [mul_comm]; exact mul_le_mul_of_nonneg_right (by omega) (by omega)
  have p1 : 0 ≤ (cur.length : ℤ) * (E - S + 1) := mul_nonneg (by omega) (by omega)
  have p2 : 0 ≤ (inner.length : ℤ) * (d.pData.cols - S) := mul_nonneg (by omega) (by omega)
  have f1 : fits size 0 (cur.length * (E - S + 1)) = .ok () := fits_ok (Or.inr (by constructor <;> linarith))
  unfold sample
  rw [hw, Outcome.ok_bind]
  dsimp only
  rw [f1, Outcome.ok_bind, y1, Outcome.ok_bind]
  by_cases c : inner.length > 0
  · have hne : inner ≠ [] := List.ne_nil_of_length_pos c
    obtain ⟨x, x1, x2, x3, x4⟩ := copyRows_ok wf (n := d.pData.cols - S) h0 (by omega) (by omega) hi
    have f2 : fits size (cur.length * (E - S + 1)) (inner.length * (d.pData.cols - S)) = .ok () := fits_ok (Or.inr ⟨p1, by linarith⟩)
    refine ⟨⟨y, some x, cur.length * (E - S + 1) + inner.length * (d.pData.cols - S)⟩, ?_, ⟨⟨y2, y3⟩, fun a k t ha h0 h1 => y4 a k t ha h0 (by omega), fun h => absurd h hne,
      fun _ => ⟨x, rfl, x2, x3, x4⟩⟩, rfl⟩
    unfold exoPart
    rw [if_pos c]
    dsimp only
    rw [f2, Outcome.ok_bind, x1, Outcome.ok_bind]
    rfl
  · have hne : inner = [] := List.length_eq_zero_iff.1 (by omega)
    refine ⟨⟨y, none, cur.length * (E - S + 1)⟩, ?_, ⟨⟨y2, y3⟩, fun a k t ha h0 h1 => y4 a k t ha h0 (by omega), fun _ => rfl, fun h => absurd hne h⟩, ?_⟩
    · unfold exoPart
      rw [if_neg c]
      rfl
    · subst hne; simp

theorem sampled_exo {m : Mat (Val ℝ)} {inner cur : List ℤ} {S E : ℤ} {s : Sample} (h : Sampled m inner cur S E s) : s.exo = inner.length := by
  unfold Sample.exo
  by_cases c : inner = []
  · rw [h.noExo c, c]; rfl
  · obtain ⟨x, e, hx, -⟩ := h.x c
    rw [e]; exact hx

/-! ## Checks -/

theorem checkBefore_iff {u : Setup} {s : Sample} : (checkBefore u s = .ok () ↔ Enough u s) ∧ (¬ Enough u s → checkBefore u s = .throws) := by
  unfold checkBefore Enough
  by_cases a : u.checks.minObs > 0 ∧ u.checks.minObs > s.y.cols
  · rw [if_pos a]
    exact ⟨⟨fun h => (by cases h), fun h => absurd (h.1 a.1) (by omega)⟩, fun _ => rfl⟩
  rw [if_neg a]
  by_cases b : u.checks.minDof > 0 ∧ u.checks.minDof > s.y.cols - s.exo
  · rw [if_pos b]
    exact ⟨⟨fun h => (by cases h), fun h => absurd (h.2 b.1) (by omega)⟩, fun _ => rfl⟩
  rw [if_neg b]
  have : (0 < u.checks.minObs → u.checks.minObs ≤ s.y.cols) ∧ (0 < u.checks.minDof → u.checks.minDof ≤ s.y.cols - s.exo) := ⟨fun _ => by omega, fun _ => by omega⟩
  exact ⟨⟨fun _ => this, fun _ => rfl⟩, fun h => absurd this h⟩

theorem notBeyond_of {x l : Dbl ℝ} (h : ¬ l.lt x = true) : NotBeyond x l := by
  rintro a b rfl rfl
  by_contra hc
  exact h (by show decide (b < a) = true; simpa using hc)

theorem checkAfter_ok {u : Setup} {e : Fitted} {a : Unit} (h : checkAfter u e = .ok a) : NotBeyond e.aic u.checks.maxAic ∧ NotBeyond e.sic u.checks.maxSic := by
  unfold checkAfter at h
  by_cases c : u.checks.maxAic.lt e.aic = true
  · rw [if_pos c] at h; cases h
  rw [if_neg c] at h
  by_cases c' : u.checks.maxSic.lt e.sic = true
  · rw [if_pos c'] at h; cases h
  exact ⟨notBeyond_of c, notBeyond_of c'⟩

theorem checkAfter_throws {u : Setup} {e : Fitted} (h : u.checks.maxAic.lt e.aic = true ∨ u.checks.maxSic.lt e.sic = true) : checkAfter u e = .throws := by
  unfold checkAfter
  by_cases c : u.checks.maxAic.lt e.aic = true
  · rw [if_pos c]
  rw [if_neg c, if_pos (h.resolve_left c)]

section
variable {start : ℤ} {lower upper : Mat (Dbl ℝ)} {f : Vs.Cols}

/-- What is needed to compare one forecast. -/
def CellReads (start : ℤ) (lower upper : Mat (Dbl ℝ)) (f : Vs.Cols) (t h : ℤ) : Prop :=
  (∃ c, Mx.read f (h + start - 1) = .ok c) ∧ (∃ l, lower.get0 (h - 1) t = .ok l) ∧ ∃ r, upper.get0 (h - 1) t = .ok r

/-- One forecast is within its bounds. -/
def CellIn (start : ℤ) (lower upper : Mat (Dbl ℝ)) (f : Vs.Cols) (i : ℕ) (t h : ℤ) : Prop :=
  ∀ c l r, Mx.read f (h + start - 1) = .ok c → lower.get0 (h - 1) t = .ok l → upper.get0 (h - 1) t = .ok r → (c i).lt l = false ∧ r.lt (c i) = false

theorem boundCell_iff {i : ℕ} {t h : ℤ} : (boundCell start lower upper f i t h = .ok () ↔ CellReads start lower upper f t h ∧ CellIn start lower upper f i t h) ∧
    (CellReads start lower upper f t h → ¬ CellIn start lower upper f i t h → boundCell start lower upper f i t h = .throws) := by
  refine ⟨⟨fun e => ?_, fun e => ?_⟩, fun e hn => ?_⟩
  · unfold boundCell at e
    obtain ⟨c, h1, e⟩ := bind_ok e
    obtain ⟨l, h2, e⟩ := bind_ok e
    obtain ⟨r, h3, e⟩ := bind_ok e
    refine ⟨⟨⟨c, h1⟩, ⟨l, h2⟩, r, h3⟩, ?_⟩
    intro c' l' r' k1 k2 k3
    rw [h1] at k1; rw [h2] at k2; rw [h3] at k3
    cases k1; cases k2; cases k3
    by_cases a : (c i).lt l = true
    · rw [if_pos a] at e; cases e
    rw [if_neg a] at e
    by_cases b : r.lt (c i) = true
    · rw [if_pos b] at e; cases e
    exact ⟨by simpa using a, by simpa using b⟩
  · obtain ⟨⟨⟨c, h1⟩, ⟨l, h2⟩, r, h3⟩, hin⟩ := e
    obtain ⟨a, b⟩ := hin c l r h1 h2 h3
    unfold boundCell
    rw [h1, Outcome.ok_bind, h2, Outcome.ok_bind, h3, Outcome.ok_bind, if_neg (by rw [a]; simp), if_neg (by rw [b]; simp)]
  · obtain ⟨⟨c, h1⟩, ⟨l, h2⟩, r, h3⟩ := e
    unfold boundCell
    rw [h1, Outcome.ok_bind, h2, Outcome.ok_bind, h3, Outcome.ok_bind]
    by_cases a : (c i).lt l = true
    · rw [if_pos a]
    rw [if_neg a]
    by_cases b : r.lt (c i) = true
    · rw [if_pos b]
    exfalso
    refine hn fun c' l' r' k1 k2 k3 => ?_
    rw [h1] at k1; rw [h2] at k2; rw [h3] at k3
    cases k1; cases k2; cases k3
    exact ⟨by simpa using a, by simpa using b⟩

theorem boundRow_iff {i : ℕ} {t : ℤ} : ∀ hs : List ℤ,
    (boundRow start lower upper f i t hs = .ok () ↔ (∀ h ∈ hs, CellReads start lower upper f t h) ∧ ∀ h ∈ hs, CellIn start lower upper f i t h) ∧
    ((∀ h ∈ hs, CellReads start lower upper f t h) → ¬ (∀ h ∈ hs, CellIn start lower upper f i t h) → boundRow start lower upper f i t hs = .throws)
  | [] => by
    refine ⟨⟨fun _ => ⟨by simp, by simp⟩, fun _ => rfl⟩, fun _ h => absurd (by simp) h⟩
  | h :: hs => by
    obtain ⟨a1, a2⟩ := boundCell_iff (start := start) (lower := lower) (upper := upper) (f := f) (i := i) (t := t) (h := h)
    obtain ⟨b1, b2⟩ := boundRow_iff (i := i) (t := t) hs
    refine ⟨⟨fun e => ?_, fun e => ?_⟩, fun e hn => ?_⟩
    · rw [boundRow] at e
      obtain ⟨_, k1, e⟩ := bind_ok e
      obtain ⟨p1, p2⟩ := a1.1 k1
      obtain ⟨q1, q2⟩ := b1.1 e
      exact ⟨List.forall_mem_cons.2 ⟨p1, q1⟩, List.forall_mem_cons.2 ⟨p2, q2⟩⟩
    · rw [boundRow, a1.2 ⟨e.1 h List.mem_cons_self, e.2 h List.mem_cons_self⟩, Outcome.ok_bind]
      exact b1.2 ⟨fun x hx => e.1 x (List.mem_cons_of_mem _ hx), fun x hx => e.2 x (List.mem_cons_of_mem _ hx)⟩
    · rw [boundRow]
      by_cases c : CellIn start lower upper f i t h
      · rw [a1.2 ⟨e h List.mem_cons_self, c⟩, Outcome.ok_bind]
        exact b2 (fun x hx => e x (List.mem_cons_of_mem _ hx)) fun hh => hn (List.forall_mem_cons.2 ⟨c, hh⟩)
      · rw [a2 (e h List.mem_cons_self) c]
        rfl

end

theorem boundRows_iff {u : Setup} {lower upper : Mat (Dbl ℝ)} {f : Vs.Cols} : ∀ (ts : List ℤ) (k : ℕ),
    (boundRows u lower upper f ts k = .ok () ↔
      (∀ (i : ℕ) (t : ℤ), ts[i]? = some t → t < (u.targets : ℤ) → ∀ h ∈ u.metrics.horizons, CellReads u.sizes.arMaxD lower upper f t h) ∧
      ∀ (i : ℕ) (t : ℤ), ts[i]? = some t → t < (u.targets : ℤ) → ∀ h ∈ u.metrics.horizons, CellIn u.sizes.arMaxD lower upper f (k + i) t h) ∧
    ((∀ (i : ℕ) (t : ℤ), ts[i]? = some t → t < (u.targets : ℤ) → ∀ h ∈ u.metrics.horizons, CellReads u.sizes.arMaxD lower upper f t h) →
      ¬ (∀ (i : ℕ) (t : ℤ), ts[i]? = some t → t < (u.targets : ℤ) → ∀ h ∈ u.metrics.horizons, CellIn u.sizes.arMaxD lower upper f (k + i) t h) →
      boundRows u lower upper f ts k = .throws)
  | [], k => by
    refine ⟨⟨fun _ => ⟨by simp, by simp⟩, fun _ => rfl⟩, fun _ h => absurd (by simp) h⟩
  | x :: ts, k => by
    obtain ⟨b1, b2⟩ := boundRows_iff (u := u) (lower := lower) (upper := upper) (f := f) ts (k + 1)
    obtain ⟨a1, a2⟩ := boundRow_iff (start := u.sizes.arMaxD) (lower := lower) (upper := upper) (f := f) (i := k) (t := x) u.metrics.horizons
    have join : ∀ {P : ℕ → ℤ → ℤ → Prop}, (∀ (i : ℕ) (t : ℤ), (x :: ts)[i]? = some t → t < (u.targets : ℤ) → ∀ h ∈ u.metrics.horizons, P i t h) ↔
        (x < (u.targets : ℤ) → ∀ h ∈ u.metrics.horizons, P 0 x h) ∧
        ∀ (i : ℕ) (t : ℤ), ts[i]? = some t → t < (u.targets : ℤ) → ∀ h ∈ u.metrics.horizons, P (i + 1) t h := by
      intro P
      refine ⟨fun hh => ⟨hh 0 x rfl, fun i t ht => hh (i + 1) t (by simpa using ht)⟩, fun hh i t ht => ?_⟩
      cases i with
      | zero => cases ht; exact hh.1
      | succ i => exact hh.2 i t (by simpa using ht)
    have e2 : (∀ (i : ℕ) (t : ℤ), ts[i]? = some t → t < (u.targets : ℤ) → ∀ h ∈ u.metrics.horizons, CellIn u.sizes.arMaxD lower upper f (k + 1 + i) t h) ↔
        ∀ (i : ℕ) (t : ℤ), ts[i]? = some t → t < (u.targets : ℤ) → ∀ h ∈ u.metrics.horizons, CellIn u.sizes.arMaxD lower upper f (k + (i + 1)) t h := by
      refine forall_congr' fun i => ?_
      rw [show k + 1 + i = k + (i + 1) by omega]
    rw [join (P := fun i t h => CellReads u.sizes.arMaxD lower upper f t h), join (P := fun i t h => CellIn u.sizes.arMaxD lower upper f (k + i) t h), ← e2]
    rw [boundRows]
    by_cases c : x < (u.targets : ℤ)
    · rw [if_pos c]
      refine ⟨⟨fun e => ?_, fun e => ?_⟩, fun e hn => ?_⟩
      · obtain ⟨_, k1, e⟩ := bind_ok e
        obtain ⟨p1, p2⟩ := a1.1 k1
        obtain ⟨q1, q2⟩ := b1.1 e
        exact ⟨⟨fun _ => p1, q1⟩, fun _ => p2, q2⟩
      · rw [a1.2 ⟨e.1.1 c, e.2.1 c⟩, Outcome.ok_bind]
        exact b1.2 ⟨e.1.2, e.2.2⟩
      · by_cases hc : ∀ h ∈ u.metrics.horizons, CellIn u.sizes.arMaxD lower upper f k x h
        · rw [a1.2 ⟨e.1 c, hc⟩, Outcome.ok_bind]
          exact b2 e.2 fun hh => hn ⟨fun _ => hc, hh⟩
        · rw [a2 (e.1 c) hc]
          rfl
    · rw [if_neg c, Outcome.ok_bind]
      refine ⟨⟨fun e => ⟨⟨fun h => absurd h c, (b1.1 e).1⟩, fun h => absurd h c, (b1.1 e).2⟩, fun e => b1.2 ⟨e.1.2, e.2.2⟩⟩, fun e hn => ?_⟩
      exact b2 e.2 fun hh => hn ⟨fun h => absurd h c, hh⟩

/-- The bounds. -/
theorem bounds_iff {u : Setup} {lower upper : Mat (Dbl ℝ)} {f : Vs.Cols} {cur : List ℤ} :
    (boundRows u lower upper f cur 0 = .ok () ↔ Readable u lower upper f cur ∧ InBounds u lower upper f cur) ∧
    (Readable u lower upper f cur → ¬ InBounds u lower upper f cur → boundRows u lower upper f cur 0 = .throws) := by
  have := boundRows_iff (u := u) (lower := lower) (upper := upper) (f := f) cur 0
  simp only [Nat.zero_add] at this
  exact this

theorem anyNaN_false {n : ℕ} {f : Vs.Cols} (h : anyNaN n f = false) : ∀ c ∈ f, ∀ i < n, c i ≠ .nan := by
  intro c hc i hi hn
  have : anyNaN n f = true := by
    unfold anyNaN
    refine List.any_eq_true.2 ⟨c, hc, List.any_eq_true.2 ⟨i, List.mem_range.2 hi, ?_⟩⟩
    simpa using hn
  rw [h] at this
  cases this

theorem anyNaN_true {n : ℕ} {f : Vs.Cols} {c : ℕ → Dbl ℝ} (hc : c ∈ f) {i : ℕ} (hi : i < n) (hn : c i = .nan) : anyNaN n f = true := by
  unfold anyNaN
  refine List.any_eq_true.2 ⟨c, hc, List.any_eq_true.2 ⟨i, List.mem_range.2 hi, ?_⟩⟩
  simpa using hn

/-! ## The tables -/

theorem columnAt_ok {f : Vs.Cols} {j : ℤ} {c : ℕ → Dbl ℝ} (h : columnAt f j = .ok c) : f[j.toNat]? = some c := by
  unfold columnAt at h
  by_cases a : j < 0
  · rw [if_pos a] at h; cases h
  rw [if_neg a] at h
  cases hc : f[j.toNat]? with
  | none => rw [hc] at h; cases h
  | some v => rw [hc] at h; rw [Outcome.ok.inj (show Outcome.ok v = .ok c from h)]

theorem setForecast_ok {start : ℤ} {f : Vs.Cols × Vs.Cols} {s s' : Su.SsTables} {p : ℕ × ℕ} (h : setForecast start f s p = .ok s') :
    ∃ m v, f.1[(p.2 + start).toNat]? = some m ∧ f.2[(p.2 + start).toNat]? = some v ∧ s'.metric = s.metric ∧
      (∀ i t, s'.mean i t = if i = p.2 ∧ t = p.1 then Srch.toVal (m t) else s.mean i t) ∧
      ∀ i t, s'.variance i t = if i = p.2 ∧ t = p.1 then Srch.toVal (v t) else s.variance i t := by
  unfold setForecast at h
  obtain ⟨m, h1, h⟩ := bind_ok h
  obtain ⟨v, h2, h⟩ := bind_ok h
  obtain rfl := Outcome.ok.inj h
  exact ⟨m, v, columnAt_ok h1, columnAt_ok h2, rfl, fun _ _ => rfl, fun _ _ => rfl⟩

theorem forecastLoop_ok {start : ℤ} {f : Vs.Cols × Vs.Cols} : ∀ (l : List (ℕ × ℕ)) (s s' : Su.SsTables), l.foldlM (setForecast start f) s = .ok s' →
    s'.metric = s.metric ∧ (∀ i t, (t, i) ∉ l → s'.mean i t = s.mean i t ∧ s'.variance i t = s.variance i t) ∧
    ∀ i t, (t, i) ∈ l → ∃ m v, f.1[((i : ℤ) + start).toNat]? = some m ∧ f.2[((i : ℤ) + start).toNat]? = some v ∧
      s'.mean i t = Srch.toVal (m t) ∧ s'.variance i t = Srch.toVal (v t)
  | [], s, s', h => by
    rw [List.foldlM_nil] at h
    obtain rfl := Outcome.ok.inj h
    exact ⟨rfl, fun _ _ _ => ⟨rfl, rfl⟩, fun i t ht => by simp at ht⟩
  | p :: l, s, s', h => by
    rw [List.foldlM_cons] at h
    obtain ⟨s1, h1, h⟩ := bind_ok h
    obtain ⟨m, v, a1, a2, a3, a4, a5⟩ := setForecast_ok h1
    obtain ⟨b1, b2, b3⟩ := forecastLoop_ok l s1 s' h
    refine ⟨b1.trans a3, fun i t ht => ?_, fun i t ht => ?_⟩
    · obtain ⟨c1, c2⟩ := b2 i t fun hh => ht (List.mem_cons_of_mem _ hh)
      have hne : ¬ (i = p.2 ∧ t = p.1) := fun hh => ht (by rw [hh.1, hh.2]; exact List.mem_cons_self)
      rw [c1, c2, a4, a5, if_neg hne, if_neg hne]
      exact ⟨rfl, rfl⟩
    · by_cases hl : (t, i) ∈ l
      · exact b3 i t hl
      · obtain ⟨c1, c2⟩ := b2 i t hl
        have hp : p = (t, i) := ((List.mem_cons.1 ht).resolve_right hl).symm
        subst hp
        refine ⟨m, v, a1, a2, ?_, ?_⟩
        · rw [c1, a4, if_pos ⟨rfl, rfl⟩]
        · rw [c2, a5, if_pos ⟨rfl, rfl⟩]

theorem mem_targetHorizons {T len t i : ℕ} : (t, i) ∈ targetHorizons T len ↔ t < T ∧ i < len := by
  unfold targetHorizons
  rw [List.mem_flatMap]
  constructor
  · rintro ⟨a, ha, hb⟩
    obtain ⟨b, hb, e⟩ := List.mem_map.1 hb
    cases e
    exact ⟨List.mem_range.1 ha, List.mem_range.1 hb⟩
  · rintro ⟨h1, h2⟩
    exact ⟨t, List.mem_range.2 h1, List.mem_map.2 ⟨i, List.mem_range.2 h2, rfl⟩⟩

end Vm
end LDT
