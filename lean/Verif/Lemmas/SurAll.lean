import Verif.Lemmas.SurAlg
/-!
# The layout, the determinant, the details
-/
namespace LDT
namespace Su
open Mx Matrix Ls
open Co (part)
open Arr (Val)

section
variable {K : Type} [Field K] [LinearOrder K] {N m k q : Nat}

theorem layout_room (storage : List K) (hs : (k : Int) * m + (k : Int) * m + ((k : Int) * m) * ((k : Int) * m) +
    (N : Int) * m + (N : Int) * m + (m : Int) * m ≤ storage.length) :
    Room (layout (N : Int) m k storage) N m k ∧ Sized (layout (N : Int) m k storage).gamma (m * k) 1 ∧
      Sized (layout (N : Int) m k storage).gammaVar (m * k) (m * k) := by
  have a1 : (0 : Int) ≤ (k : Int) * m := by positivity
  have a2 : (0 : Int) ≤ ((k : Int) * m) * ((k : Int) * m) := by positivity
  have a3 : (0 : Int) ≤ (N : Int) * m := by positivity
  have a4 : (0 : Int) ≤ (m : Int) * m := by positivity
  have c1 : (k : Int) * m = ((m * k : Nat) : Int) := by push_cast; ring
  have hg : Sized (layout (N : Int) m k storage).gamma (m * k) 1 :=
    sized_part' storage _ _ _ _ _ _ c1 rfl rfl le_rfl (by omega)
  have hb : Sized (layout (N : Int) m k storage).beta k m :=
    sized_part' storage _ _ _ _ _ _ rfl rfl rfl (by omega) (by omega)
  have hv : Sized (layout (N : Int) m k storage).gammaVar (m * k) (m * k) :=
    sized_part' storage _ _ _ _ _ _ c1 c1 rfl (by omega) (by omega)
  have h1 : Sized (layout (N : Int) m k storage).yhat N m :=
    sized_part' storage _ _ _ _ _ _ rfl rfl rfl (by omega) (by omega)
  have h2 : Sized (layout (N : Int) m k storage).resid N m :=
    sized_part' storage _ _ _ _ _ _ rfl rfl rfl (by omega) (by omega)
  have h3 : Sized (layout (N : Int) m k storage).residVar m m :=
    sized_part' storage _ _ _ _ _ _ rfl rfl rfl (by omega) (by omega)
  have hgm := mem_of_sized hg
  rw [mul_one] at hgm
  exact ⟨⟨hgm, hb, mem_of_sized hv, h1, h2, h3⟩, hg, hv⟩

theorem square_eq {n : Nat} {A : Mat K} {M : Matrix (Fin n) (Fin n) K} (h : IsM A M) :
    ∃ e : Fin A.rows.toNat ≃ Fin n, square A = M.submatrix e e := by
  obtain ⟨e, sq⟩ := square_isM h
  exact ⟨(Fin.castOrderIso e).toEquiv, by funext i j; rw [sq]; rfl⟩

theorem posDef_submatrix {ι κ : Type} [Fintype ι] [Fintype κ] (e : ι ≃ κ) (M : Matrix κ κ K) :
    PosDef (M.submatrix e e) ↔ PosDef M := by
  have w : ∀ v : κ → K, weighted (M.submatrix e e) (v ∘ e) = weighted M v := by
    intro v
    unfold weighted
    rw [← Equiv.sum_comp e]
    refine Finset.sum_congr rfl fun i _ => ?_
    rw [← Equiv.sum_comp e]
    rfl
  constructor
  · rintro ⟨h1, h2⟩
    refine ⟨fun i j => ?_, fun v hv => ?_⟩
    · have := h1 (e.symm i) (e.symm j)
      simpa using this
    · rw [← w]
      apply h2
      intro h0
      apply hv
      funext i
      have := congrFun h0 (e.symm i)
      simpa using this
  · rintro ⟨h1, h2⟩
    refine ⟨fun i j => h1 _ _, fun v hv => ?_⟩
    have hv' : v = (v ∘ e.symm) ∘ e := by funext i; simp
    rw [hv', w]
    apply h2
    intro h0
    apply hv
    funext i
    have := congrFun h0 (e i)
    simpa using this

theorem logLDet_spec {s : Mat K} {S : Matrix (Fin m) (Fin m) K} (hs : IsM s S) (pm : 0 < m) (work : List K)
    (hw : (m : Int) * m ≤ work.length) :
    (m = 1 ∨ PosDef S → logLDet s m work = .ok S.det) ∧
    (m ≠ 1 → ¬ PosDef S → logLDet s m work = .throws) := by
  obtain ⟨c, e1, i1, -⟩ := copyTo00_isM hs (sized_part work 0 m m le_rfl (by omega))
  have sz : Sized (⟨(m : Int), (m : Int), some (List.replicate ((m : Int) * m).toNat (0 : K))⟩ : Mat K) m m := by
    refine ⟨⟨by simp, by simp, rfl, ?_⟩, rfl, rfl⟩
    simp only [Mat.mem, Option.getD_some, List.length_replicate]
    exact Int.self_le_toNat _
  obtain ⟨w, e2, i2, -⟩ := copyTo00_isM i1 sz
  obtain ⟨e, sq⟩ := square_eq i2
  have hsz := i2.wf.size
  rw [i2.rows, i2.cols] at hsz
  have g : ¬ (w.rows < 1 ∨ (w.mem.length : Int) < w.rows * w.rows) := by rw [i2.rows]; omega
  have start : logLDet s m work = (do
      let d ← detPd0 w
      checked d) := by
    unfold logLDet
    rw [e1]
    simp only [Outcome.ok_bind, e2]
  have det : (square w).det = S.det := by rw [sq]; exact det_submatrix_equiv_self e S
  have pd : PosDef (square w) ↔ PosDef S := by rw [sq]; exact posDef_submatrix e S
  by_cases h1 : m = 1
  · refine ⟨fun _ => ?_, fun h => absurd h1 h⟩
    subst h1
    have g0 : w.get0 0 0 = .ok S.det := by
      rw [det_fin_one]
      have := i2.read 0 0 (0 + w.rows * 0) (by simp)
      exact this
    rw [start]
    unfold detPd0
    rw [if_pos (by rw [i2.cols]; rfl), g0]
    rfl
  · have hc : ¬ w.cols = 1 := by rw [i2.cols]; exact_mod_cast h1
    constructor
    · intro h
      have hp : PosDef S := by rcases h with h | h; · exact absurd h h1
                               · exact h
      rw [start]
      unfold detPd0
      rw [if_neg hc, if_neg g, if_pos (pd.2 hp), det]
      rfl
    · intro _ hn
      rw [start]
      unfold detPd0
      rw [if_neg hc, if_neg g, if_neg (fun h => hn (pd.1 h))]
      rfl

/-- All cells of a matrix of anything. -/
structure Holds {β : Type} (A : Mat β) (f : Fin k → Fin m → β) : Prop where
  wf : A.Wf
  rows : A.rows = k
  cols : A.cols = m
  val : ∀ (l : Fin k) (j : Fin m), A.get (l : Nat) (j : Nat) = .ok (f l j)

theorem Holds.read {β : Type} {A : Mat β} {f : Fin k → Fin m → β} (h : Holds A f) (l : Fin k) (j : Fin m) :
    Mx.read A.mem (((l : Nat) + k * (j : Nat) : Nat) : Int) = .ok (f l j) := by
  have := h.val l j
  rw [get_iff h.wf, h.rows] at this
  push_cast
  exact this.2

/-- A loop over all cells. -/
theorem cellLoop_holds {β : Type} (A : Mat β) (w : A.Wf) (hr : A.rows = k) (hc : A.cols = m) (n : Int) (hn : n = (k : Int) * m)
    (g : Int → Outcome β) (f : Fin k → Fin m → β)
    (hg : ∀ (l : Fin k) (j : Fin m), g (((l : Nat) + k * (j : Nat) : Nat) : Int) = .ok (f l j)) :
    ∃ res, cellLoop n g A = .ok res ∧ Holds res f ∧ SameShape A res := by
  have hl : A.length = n := by unfold Mat.length; rw [hr, hc, hn]
  obtain ⟨res, e, s, c⟩ := cellLoop_spec A w n hl g (by
    intro t h0 h1
    rw [hn] at h1
    have hk : 0 < k := by
      rcases Nat.eq_zero_or_pos k with h | h
      · subst h; simp at h1; omega
      · exact h
    have ht : t.toNat < m * k := by
      zify; rw [Int.toNat_of_nonneg h0, mul_comm]; exact h1
    have := hg (Fin.modNat ⟨t.toNat, ht⟩) (Fin.divNat ⟨t.toNat, ht⟩)
    rw [← fin_split, Fin.val_mk, Int.toNat_of_nonneg h0] at this
    exact ⟨_, this⟩)
  refine ⟨res, e, ⟨s.wf w, by rw [s.rows, hr], by rw [s.cols, hc], fun l j => ?_⟩, s⟩
  rw [get_iff (s.wf w)]
  have hl := l.2; have hj := j.2
  refine ⟨⟨by omega, by rw [s.rows, hr]; omega, by omega, by rw [s.cols, hc]; omega⟩, ?_⟩
  rw [s.rows, hr]
  have := c (((l : Nat) + k * (j : Nat) : Nat) : Int) (by omega) (by rw [hn]; exact_mod_cast lin_lt l j)
  rw [hg] at this
  push_cast at this
  exact this

/-- Room for the details. -/
structure DRoom (std : Mat K) (d : Det K) (m k : Nat) : Prop where
  place : Sized std k m
  std : d.std.Wf ∧ d.std.rows = k ∧ d.std.cols = m
  t : d.t.Wf ∧ d.t.rows = k ∧ d.t.cols = m
  prob : d.prob.Wf ∧ d.prob.rows = k ∧ d.prob.cols = m

/-- The details for given coefficients and variances. -/
structure Details (f : Fns K) (N : Nat) (B : Matrix (Fin k) (Fin m) K) (V : Fin k → Fin m → K) (d : Det K) : Prop where
  std : Holds d.std (fun l j => f.sqrt (V l j))
  t : Holds d.t (fun l j => quotient (B l j) (f.sqrt (V l j)))
  prob : Holds d.prob (fun l j => pvalue f N (quotient (B l j) (f.sqrt (V l j))))

theorem Details.room {f : Fns K} {B : Matrix (Fin k) (Fin m) K} {V : Fin k → Fin m → K} {d : Det K} {std : Mat K}
    (h : Details f N B V d) (hs : Sized std k m) : DRoom std d m k :=
  ⟨hs, ⟨h.std.wf, h.std.rows, h.std.cols⟩, ⟨h.t.wf, h.t.rows, h.t.cols⟩, ⟨h.prob.wf, h.prob.rows, h.prob.cols⟩⟩

theorem probs_of_variances (f : Fns K) {y x : Mat K} (hy : y.rows = N) (R : Option (Mat K)) (work : List K) (e : Est K)
    {B : Matrix (Fin k) (Fin m) K} (hb : IsM e.beta B) {std : Mat K} {d : Det K} (hd : DRoom std d m k) (v : Mat K)
    (hv : variances y x R work e std = .ok v) {V : Matrix (Fin k) (Fin m) K} (iv : IsM v V) :
    ∃ d', probs f y x R work e std d = .ok d' ∧ Details f N B V d' := by
  have hvl : v.length = (k : Int) * m := by unfold Mat.length; rw [iv.rows, iv.cols]
  have hbl : e.beta.length = (k : Int) * m := by unfold Mat.length; rw [hb.rows, hb.cols]
  obtain ⟨s, e1, h1, s1⟩ := cellLoop_holds d.std hd.std.1 hd.std.2.1 hd.std.2.2 v.length hvl
    (fun i => do
      let a ← Mx.read v.mem i
      pure (f.sqrt a)) (fun l j => f.sqrt (V l j)) (by
      intro l j
      beta_reduce
      rw [iv.read l j _ (by push_cast; rfl)]; rfl)
  obtain ⟨t, e2, h2, s2⟩ := cellLoop_holds d.t hd.t.1 hd.t.2.1 hd.t.2.2 e.beta.length hbl
    (fun i => do
      let b ← Mx.read e.beta.mem i
      let s ← Mx.read s.mem i
      pure (quotient b s)) (fun l j => quotient (B l j) (f.sqrt (V l j))) (by
      intro l j
      beta_reduce
      rw [hb.read l j _ (by push_cast; rfl), h1.read l j]; rfl)
  have htl : t.length = (k : Int) * m := by unfold Mat.length; rw [h2.rows, h2.cols]
  obtain ⟨p, e3, h3, s3⟩ := cellLoop_holds d.prob hd.prob.1 hd.prob.2.1 hd.prob.2.2 t.length htl
    (fun i => do
      let a ← Mx.read t.mem i
      pure (pvalue f y.rows a)) (fun l j => pvalue f N (quotient (B l j) (f.sqrt (V l j)))) (by
      intro l j
      beta_reduce
      rw [h2.read l j, hy]; rfl)
  refine ⟨⟨s, t, p⟩, ?_, h1, h2, h3⟩
  unfold probs
  simp only [hv, Outcome.ok_bind, e1, e2, e3]; rfl

theorem diag_isM {A S : Mat K} {V : Matrix (Fin (m * k)) (Fin (m * k)) K} (h : IsM A V) (hs : Sized S k m) :
    ∃ v, A.getDiag S = .ok v ∧ IsM v (fun l j => V (number j l) (number j l) : Matrix (Fin k) (Fin m) K) := by
  obtain ⟨v, e, s, c⟩ := getDiag_cells h hs (by rw [mul_comm])
  refine ⟨v, e, isM_of_cells (hs.same s) fun l j => ?_⟩
  exact c (number j l)

theorem variances_un {y x : Mat K} (work : List K) (e : Est K) {V : Matrix (Fin (m * k)) (Fin (m * k)) K}
    (hv : IsM e.gammaVar V) {std : Mat K} (hs : Sized std k m) :
    ∃ v, variances y x none work e std = .ok v ∧
      IsM v (fun l j => V (number j l) (number j l) : Matrix (Fin k) (Fin m) K) :=
  diag_isM hv hs

theorem variances_re {y x R : Mat K} (hy : y.cols = m) (hx : x.cols = k) (pm : 0 < m) (pk : 0 < k) (pq : 0 < q) (work : List K)
    (hw : ((k : Int) * m) * q + ((k : Int) * m) * ((k : Int) * m) ≤ work.length) (e : Est K)
    {Rm : Matrix (Fin (m * k)) (Fin q) K} (hR : IsM R Rm) {V : Matrix (Fin q) (Fin q) K} (hv : IsM e.gammaVar V)
    {g : Matrix (Fin q) (Fin 1) K} (hg : IsM e.gamma g) {std : Mat K} (hs : Sized std k m) :
    ∃ v, variances y x (some R) work e std = .ok v ∧
      IsM v (fun l j => (Rm * V * Rmᵀ) (number j l) (number j l) : Matrix (Fin k) (Fin m) K) := by
  have pmk : 0 < m * k := Nat.mul_pos pm pk
  have a1 : (0 : Int) ≤ ((k : Int) * m) * q := by positivity
  have a2 : (0 : Int) ≤ ((k : Int) * m) * ((k : Int) * m) := by positivity
  have c1 : (k : Int) * m = ((m * k : Nat) : Int) := by push_cast; ring
  have hgl : e.gamma.length = (q : Int) := by unfold Mat.length; rw [hg.rows, hg.cols]; simp
  obtain ⟨rg, e1, i1, -⟩ := dot0_isM hR hv (sized_part' work 0 ((k : Int) * m) (q : Int) (((k : Int) * m) * q) (m * k) q c1 rfl rfl
    le_rfl (by omega)) pmk pq
  obtain ⟨rgr, e2, i2, -⟩ := dotTr0_isM i1 hR (sized_part' work (((k : Int) * m) * q) ((k : Int) * m) ((k : Int) * m)
    (((k : Int) * m) * ((k : Int) * m)) (m * k) (m * k) c1 c1 rfl (by omega) (by omega)) pmk pmk
  obtain ⟨v, e3, i3⟩ := diag_isM i2 hs
  refine ⟨v, ?_, i3⟩
  unfold variances
  simp only [hy, hx, hgl]
  rw [dot_eq (by rw [hR.cols, hv.rows]) (by rw [hR.rows]; exact c1.symm) (by rw [hv.cols]), e1]
  simp only [Outcome.ok_bind]
  have : rg.dotTr R ⟨(k : Int) * m, (k : Int) * m, some (part work (((k : Int) * m) * q) (((k : Int) * m) * ((k : Int) * m)))⟩ 1 0 =
      dotTr0 rg R ⟨(k : Int) * m, (k : Int) * m, some (part work (((k : Int) * m) * q) (((k : Int) * m) * ((k : Int) * m)))⟩ := by
    unfold Mat.dotTr dotTr0
    rw [if_neg (by rw [i1.cols, hR.cols]; simp), if_neg]
    rw [i1.rows, hR.rows]
    simp only [not_or, ne_eq, not_not]
    exact ⟨c1.symm, c1.symm⟩
  rw [this, e2]
  simp only [Outcome.ok_bind, e3]

theorem detPlaces_room (storage : List K) (hs : detStart N m k + 3 * ((k : Int) * m) ≤ storage.length) :
    DRoom (stdPlace (N : Int) m k storage) (detPlaces (N : Int) m k storage) m k := by
  have a1 : (0 : Int) ≤ (k : Int) * m := by positivity
  have a0 : (0 : Int) ≤ detStart N m k := by unfold detStart; positivity
  have sz : ∀ p : Int, 0 ≤ p → p + (k : Int) * m ≤ storage.length → (k : Int) * m ≤ ((part storage p ((k : Int) * m)).length : Int) := by
    intro p h0 h1
    have := (sized_part storage p k m h0 h1).wf.size
    simpa [Mat.mem] using this
  refine ⟨sized_part storage _ k m a0 (by omega), ⟨⟨by simp [detPlaces], by simp [detPlaces], rfl, ?_⟩, rfl, rfl⟩,
    ⟨⟨by simp [detPlaces], by simp [detPlaces], rfl, ?_⟩, rfl, rfl⟩, ⟨⟨by simp [detPlaces], by simp [detPlaces], rfl, ?_⟩, rfl, rfl⟩⟩
  · simp only [detPlaces, Mat.mem, Option.getD_some, List.length_map]
    exact sz _ a0 (by omega)
  · simp only [detPlaces, Mat.mem, Option.getD_some, List.length_map]
    exact sz _ (by omega) (by omega)
  · simp only [detPlaces, Mat.mem, Option.getD_some, List.length_map]
    exact sz _ (by omega) (by omega)

end
end Su
end LDT
