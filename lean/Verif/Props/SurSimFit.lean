import Verif.Props.SurSim
/-! # C125: the samples and the models of the iterations -/
namespace LDT
namespace Su
open Mx Op Ls Score
open Dc (bind_ok)
open Co (part)
open Arr (Val)
open Matrix

/-- `Y` consists of the cells of the rows `I` of the table, from column `q` on. -/
def RowsOf (data : Mat ℝ) (I : List ℤ) (q : ℕ) {w : ℕ} (Y : Matrix (Fin I.length) (Fin w) ℝ) : Prop :=
  ∀ (i : Fin I.length) (j : Fin w), data.get (I.get i) ((q + (j : ℕ) : ℕ) : ℤ) = .ok (Y i j)

theorem rowsOf_exist {data : Mat ℝ} (wd : data.Wf) {I : List ℤ} (hI : ∀ r ∈ I, 0 ≤ r ∧ r < data.rows) (q w : ℕ) (hc : ((q + w : ℕ) : ℤ) ≤ data.cols) :
    ∃ Y : Matrix (Fin I.length) (Fin w) ℝ, RowsOf data I q Y :=
  ⟨fun i j => data.val (I.get i) ((q + (j : ℕ) : ℕ) : ℤ), fun i j => get_val wd
    ⟨(hI _ (List.get_mem _ _)).1, (hI _ (List.get_mem _ _)).2, by omega, by have := j.2; push_cast at *; omega⟩⟩

theorem getR_mem {T : Mat ℝ} {n : ℕ} (hr : T.rows = n) {i j : ℕ} {v : ℝ} (h : T.get i j = .ok v) : T.mem[i + n * j]? = some v := by
  unfold Mat.get at h
  split_ifs at h
  unfold Mat.get0 Mx.read at h
  rw [hr] at h
  have e : (i : ℤ) + (n : ℤ) * (j : ℤ) = ((i + n * j : ℕ) : ℤ) := by push_cast; ring
  rw [e, if_pos (by omega), Int.toNat_natCast] at h
  cases hv : T.mem[i + n * j]? with
  | none => rw [hv] at h; cases h
  | some w => rw [hv] at h; rw [Outcome.ok.inj h]

/-- The cells of a sample in memory. -/
theorem sample_cells {data T : Mat ℝ} {I : List ℤ} {m k : ℕ} (hT : Split.RowsAre T data I) (hc : data.cols = m + k)
    {Y : Matrix (Fin I.length) (Fin m) ℝ} {X : Matrix (Fin I.length) (Fin k) ℝ} (hY : RowsOf data I 0 Y) (hX : RowsOf data I m X) :
    (∀ (i : Fin I.length) (j : Fin m), T.mem[(i : ℕ) + I.length * (j : ℕ)]? = some (Y i j)) ∧
    (∀ (i : Fin I.length) (l : Fin k), T.mem[(i : ℕ) + I.length * (m + (l : ℕ))]? = some (X i l)) ∧ I.length * (m + k) ≤ T.mem.length := by
  obtain ⟨h1, h2, h3⟩ := hT
  have a1 : ∀ (i : Fin I.length) (j : Fin m), T.mem[(i : ℕ) + I.length * (j : ℕ)]? = some (Y i j) := fun i j => by
    refine getR_mem h1 ?_
    rw [h3 i (I.get i) (by rw [List.getElem?_eq_getElem i.2]; rfl) _ (by omega) (by have := j.2; omega)]
    have := hY i j
    rwa [zero_add] at this
  have a2 : ∀ (i : Fin I.length) (l : Fin k), T.mem[(i : ℕ) + I.length * (m + (l : ℕ))]? = some (X i l) := fun i l => by
    refine getR_mem h1 ?_
    rw [h3 i (I.get i) (by rw [List.getElem?_eq_getElem i.2]; rfl) _ (by omega) (by have := l.2; push_cast; omega)]
    exact hX i l
  refine ⟨a1, a2, ?_⟩
  by_contra hlt
  push Not at hlt
  have hn : 0 < I.length := by
    rcases Nat.eq_zero_or_pos I.length with h | h
    · rw [h, zero_mul] at hlt; omega
    · exact h
  have hq : T.mem.length / I.length < m + k := Nat.div_lt_of_lt_mul hlt
  have hi : T.mem.length % I.length < I.length := Nat.mod_lt _ hn
  have hpe : T.mem.length % I.length + I.length * (T.mem.length / I.length) = T.mem.length := by rw [Nat.mod_add_div]
  have : T.mem[T.mem.length]? ≠ none := by
    by_cases hj : T.mem.length / I.length < m
    · have := a1 ⟨_, hi⟩ ⟨_, hj⟩
      simp only at this
      rw [hpe] at this
      rw [this]; simp
    · have := a2 ⟨_, hi⟩ ⟨T.mem.length / I.length - m, by omega⟩
      simp only at this
      rw [show m + (T.mem.length / I.length - m) = T.mem.length / I.length by omega, hpe] at this
      rw [this]; simp
  exact this (List.getElem?_eq_none (le_refl _))

theorem lt_block {a b c i j : ℕ} (hi : i < a) (hj : j < b) (hb : b ≤ c) : i + a * j < a * c := by
  calc i + a * j < a + a * j := by omega
    _ = a * (j + 1) := by ring
    _ ≤ a * c := Nat.mul_le_mul_left _ (by omega)

/-- The training table of an iteration. -/
theorem train_sample {data : Mat ℝ} {s : Split.Samples ℝ} {I : List ℤ} {m k : ℕ} (hT : Split.RowsAre s.s0 data I) (hc : data.cols = m + k)
    {Y : Matrix (Fin I.length) (Fin m) ℝ} {X : Matrix (Fin I.length) (Fin k) ℝ} (hY : RowsOf data I 0 Y) (hX : RowsOf data I m X) :
    ∃ (kept : List ℤ) (hk : kept.length = I.length), (⟨s.n0, s.cols, some ((part s.store 0 (s.n0 * s.cols)).map some)⟩ : Mat (Val ℝ)).Wf ∧
      Sample false (⟨s.n0, s.cols, some ((part s.store 0 (s.n0 * s.cols)).map some)⟩ : Mat (Val ℝ)) kept
        (fun i j => Y (Fin.cast hk i) j) (fun i l => X (Fin.cast hk i) l) := by
  obtain ⟨a1, a2, a3⟩ := sample_cells hT hc hY hX
  have hn : s.n0 = I.length := hT.1
  have hcs : s.cols = ((m + k : ℕ) : ℤ) := by have := hT.2.1; rw [show s.cols = data.cols from this, hc]; push_cast; rfl
  have hmem : s.s0.mem = s.store := rfl
  rw [hmem] at a1 a2 a3
  rw [hn, hcs]
  have hprod : ((I.length : ℤ) * ((m + k : ℕ) : ℤ)) = ((I.length * (m + k) : ℕ) : ℤ) := by push_cast; ring
  rw [hprod]
  have hkl : (upTo 0 (I.length : ℤ)).length = I.length := by rw [length_upTo]; omega
  have hlen : (part s.store 0 ((I.length * (m + k) : ℕ) : ℤ)).length = I.length * (m + k) := by
    unfold part
    rw [Int.toNat_natCast]
    simp only [Int.toNat_zero, List.drop_zero, List.length_take]
    omega
  have hget : ∀ (i j : ℕ) (v : ℝ), i < I.length → j < m + k → s.store[i + I.length * j]? = some v →
      (⟨I.length, ((m + k : ℕ) : ℤ), some ((part s.store 0 ((I.length * (m + k) : ℕ) : ℤ)).map some)⟩ : Mat (Val ℝ)).get i j = .ok (some v) := by
    intro i j v hi hj hv
    unfold Mat.get
    rw [if_neg (by simp), if_neg (by dsimp only; omega)]
    unfold Mat.get0 Mx.read
    dsimp only
    have e : (i : ℤ) + (I.length : ℤ) * (j : ℤ) = ((i + I.length * j : ℕ) : ℤ) := by push_cast; ring
    rw [e, if_pos (by omega), Int.toNat_natCast]
    have hp : (part s.store 0 ((I.length * (m + k) : ℕ) : ℤ))[i + I.length * j]? = some v := by
      have := part_mem s.store 0 (I.length * (m + k)) (i + I.length * j) (lt_block hi hj (le_refl _))
      rw [zero_add, hv] at this
      exact this
    have hm' : (⟨I.length, ((m + k : ℕ) : ℤ), some ((part s.store 0 ((I.length * (m + k) : ℕ) : ℤ)).map some)⟩ : Mat (Val ℝ)).mem =
      (part s.store 0 ((I.length * (m + k) : ℕ) : ℤ)).map some := rfl
    rw [hm', List.getElem?_map, hp]
    rfl
  have hkept : ∀ i : Fin (upTo 0 (I.length : ℤ)).length, (upTo 0 (I.length : ℤ)).get i = ((i : ℕ) : ℤ) := fun i => by
    have h := getElem?_upTo 0 (I.length : ℤ) i
    rw [List.getElem?_eq_getElem i.2] at h
    rw [if_pos (by have := i.2; omega), zero_add] at h
    exact Option.some.inj h
  refine ⟨upTo 0 (I.length : ℤ), hkl, ⟨by dsimp only; omega, by dsimp only; omega, rfl, ?_⟩, ⟨by push_cast; rfl, ?_, fun i j => ?_, fun i l => ?_⟩⟩
  · show ((I.length : ℤ) * ((m + k : ℕ) : ℤ)) ≤ (((part s.store 0 ((I.length * (m + k) : ℕ) : ℤ)).map some).length : ℤ)
    rw [List.length_map, hlen, hprod]
  · unfold UsedRows
    rw [if_neg (by simp)]
  · rw [hkept]
    exact hget i j _ (by have := i.2; omega) (by have := j.2; omega) (a1 (Fin.cast hkl i) j)
  · rw [hkept]
    exact hget i (m + (l : ℕ)) _ (by have := i.2; omega) (by have := l.2; omega) (a2 (Fin.cast hkl i) l)

/-- The test sample of an iteration. -/
theorem test_sample {data T : Mat ℝ} {I : List ℤ} {m k : ℕ} (hT : Split.RowsAre T data I) (hc : data.cols = m + k)
    {Y : Matrix (Fin I.length) (Fin m) ℝ} {X : Matrix (Fin I.length) (Fin k) ℝ} (hY : RowsOf data I 0 Y) (hX : RowsOf data I m X) :
    IsM (⟨T.rows, m, some (part T.mem 0 (T.rows * m))⟩ : Mat ℝ) Y ∧ IsM (⟨T.rows, k, some (part T.mem (m * T.rows) (T.rows * k))⟩ : Mat ℝ) X := by
  obtain ⟨a1, a2, a3⟩ := sample_cells hT hc hY hX
  rw [hT.1]
  constructor
  · have := isM_block (N := I.length) (c := m) (l := T.mem) (q := 0) (M := Y) (by
      have : I.length * m ≤ I.length * (m + k) := Nat.mul_le_mul_left _ (by omega)
      omega) (fun i j => by rw [zero_add]; exact a1 i j)
    exact this
  · have := isM_block (N := I.length) (c := k) (l := T.mem) (q := m * I.length) (M := X) (by
      have : m * I.length + I.length * k = I.length * (m + k) := by ring
      omega) (fun i l => by
      rw [show m * I.length + ((i : ℕ) + I.length * (l : ℕ)) = (i : ℕ) + I.length * (m + (l : ℕ)) by ring]
      exact a2 i l)
    push_cast at this
    exact this

/-- An object made for `N` rows serves all smaller tables: neither sample is larger. -/
theorem trainSize_mono {rows N : ℤ} {ratio : ℝ} {fix : ℤ} (h0 : 0 < Split.trainSize rows ratio fix) (h1 : Split.trainSize rows ratio fix < rows) (hN : rows ≤ N) :
    Split.trainSize rows ratio fix ≤ Split.trainSize N ratio fix ∧
    rows - Split.trainSize rows ratio fix ≤ N - Split.trainSize N ratio fix := by
  unfold Split.trainSize at *
  by_cases hf : fix > 0
  · simp only [if_pos hf] at *; omega
  simp only [if_neg hf] at *
  have hr0 : (0 : ℝ) < rows := by exact_mod_cast (by omega : 0 < rows)
  have hNr : (rows : ℝ) ≤ N := by exact_mod_cast hN
  have hpos : 0 ≤ (rows : ℝ) * ratio := by
    by_contra hneg
    unfold Split.round at h0
    rw [if_neg hneg] at h0
    have : 0 ≤ ⌊-((rows : ℝ) * ratio) + 1 / 2⌋ := Int.floor_nonneg.2 (by push Not at hneg; linarith)
    omega
  have hr : 0 ≤ ratio := by
    by_contra hneg
    push Not at hneg
    have := mul_neg_of_pos_of_neg hr0 hneg
    linarith
  have hposN : 0 ≤ (N : ℝ) * ratio := mul_nonneg (by linarith) hr
  unfold Split.round at *
  rw [if_pos hpos] at h0 h1 ⊢
  rw [if_pos hposN]
  have hr1 : ratio ≤ 1 := by
    have hlt : (rows : ℝ) * ratio + 1 / 2 < rows := by
      have := Int.lt_floor_add_one ((rows : ℝ) * ratio + 1 / 2)
      have h2 : (⌊(rows : ℝ) * ratio + 1 / 2⌋ : ℝ) + 1 ≤ rows := by exact_mod_cast h1
      linarith
    by_contra hgt
    push Not at hgt
    nlinarith
  constructor
  · exact Int.floor_le_floor (by nlinarith)
  · have hle : ⌊(N : ℝ) * ratio + 1 / 2⌋ ≤ ⌊(rows : ℝ) * ratio + 1 / 2⌋ + (N - rows) := by
      have e : ⌊(rows : ℝ) * ratio + 1 / 2⌋ + (N - rows) = ⌊(rows : ℝ) * ratio + 1 / 2 + ((N - rows : ℤ) : ℝ)⌋ := by rw [Int.floor_add_intCast]
      rw [e]
      refine Int.floor_le_floor ?_
      push_cast
      nlinarith
    omega

/-- **C125.** The work array: the splits, the storage and work of the model and the errors lie one after another in it, for every table with at most the
rows for which the object was made. -/
theorem C125_memory (u : SimSetup) {N m k rows : ℤ} (h0 : 0 < Split.trainSize rows u.ratio u.fix) (h1 : Split.trainSize rows u.ratio u.fix < rows)
    (hN : rows ≤ N) (hm : 0 ≤ m) (hk : 0 ≤ k) : (simBlocks u N m k rows).sum ≤ simWork u N m k ∧ rows * (m + k) ≤ N * (m + k) := by
  obtain ⟨-, h⟩ := trainSize_mono h0 h1 hN
  unfold simBlocks simWork
  simp only [List.sum_cons, List.sum_nil]
  have := mul_le_mul_of_nonneg_right h hm
  exact ⟨by linarith, mul_le_mul_of_nonneg_right hN (by omega)⟩

section
variable {lu : List ℝ → List ℝ} {f : Fns ℝ} {crps : Dbl ℝ → Dbl ℝ → Outcome (Dbl ℝ)} {u : SimSetup} {N : ℤ} {m k : ℕ} {other : Outcome ExtRes}
  {data : Mat ℝ} {maxIteration : ℤ} {maxProb : ℝ} {splitStorage storage work : List ℝ}

/-- A request for the CRPS makes the simulation compute variances. -/
theorem doVar_of {u : SimSetup} (h : Sco.crps ∈ u.metrics) : u.doVar = true := by
  unfold SimSetup.doVar
  rw [List.any_eq_true]
  exact ⟨_, h, rfl⟩

/-- **C125.** One iteration without restrictions: whatever the order `std::shuffle` leaves, the table is split into two samples. The iteration is dropped if
the system of the training sample cannot be estimated or its condition number is greater than the limit. Otherwise the observations of the test
sample are compared with the projections from its regressors by the least squares coefficients of the training sample. -/
theorem C125_iteration (wd : data.Wf) (hc : data.cols = m + k) (hm : 0 < m) (hk : 0 < k) (hN : data.rows ≤ N)
    (h0 : 0 < Split.trainSize data.rows u.ratio u.fix) (h1 : Split.trainSize data.rows u.ratio u.fix < data.rows)
    (hsp : data.rows * data.cols ≤ splitStorage.length)
    (hs : extStorage u.model (Split.trainSize N u.ratio u.fix) m k (N - Split.trainSize N u.ratio u.fix) ≤ storage.length)
    (hw : extWork u.model (Split.trainSize N u.ratio u.fix) m k (N - Split.trainSize N u.ratio u.fix) ≤ work.length)
    (hr : u.restricted = false) (hi : u.maxIter = 0) {order : List ℤ} (ho : order.Perm (upTo 0 data.rows)) :
    ∃ st s I0 I1, Split.calculate data splitStorage u.ratio u.fix = .ok st ∧ Split.shuffle st data order = .ok s ∧
      (I0 ++ I1).Perm (upTo 0 data.rows) ∧ (I0.length : ℤ) = Split.trainSize data.rows u.ratio u.fix ∧
      ∃ (Y : Matrix (Fin I0.length) (Fin m) ℝ) (X : Matrix (Fin I0.length) (Fin k) ℝ) (Y' : Matrix (Fin I1.length) (Fin m) ℝ)
        (Z : Matrix (Fin I1.length) (Fin k) ℝ), RowsOf data I0 0 Y ∧ RowsOf data I0 m X ∧ RowsOf data I1 0 Y' ∧ RowsOf data I1 m Z ∧
      (¬ Estimable false Y X → simFit lu f u N m k other none maxProb storage work s = .throws) ∧
      (Estimable false Y X → ∃ B G a b, (∀ B', LeastSquares Y X B' ↔ B' = B) ∧ G * (Xᵀ * X) = 1 ∧ GreatestColumn (Xᵀ * X) a ∧ GreatestColumn G b ∧
        (u.maxCond.lt (.num (a * b)) = true → simFit lu f u N m k other none maxProb storage work s = .throws) ∧
        (u.maxCond.lt (.num (a * b)) = false → ∃ p, simFit lu f u N m k other none maxProb storage work s = .ok p ∧
          (simForecast u p).rows = I1.length ∧ ∀ (i : Fin I1.length) (j : Fin m),
            (simForecast u p).y i j = backD (lambda u.lambdas j) (.num (Y' i j)) ∧
            (simForecast u p).mean i j = backD (lambda u.lambdas j) (.num (∑ l, Z i l * B l j)) ∧
            (Sco.crps ∈ u.metrics → (simForecast u p).std i j = backD (lambda u.lambdas j)
              (sqrtD (.num (cov (left Y X B) j j * (1 + ∑ l, ∑ l', Z i l * G l l' * Z i l'))))))) := by
  obtain ⟨-, hsplit⟩ := Split.C30_split_is_partition data wd splitStorage hsp u.ratio u.fix order ho
  obtain ⟨st, s, I0, I1, e1, e2, hp, hl0, R0, R1⟩ := hsplit h0 h1
  have hin : ∀ r ∈ I0 ++ I1, 0 ≤ r ∧ r < data.rows := fun r hrr => mem_upTo.1 (hp.mem_iff.1 hrr)
  have hin0 : ∀ r ∈ I0, 0 ≤ r ∧ r < data.rows := fun r hrr => hin r (List.mem_append_left _ hrr)
  have hin1 : ∀ r ∈ I1, 0 ≤ r ∧ r < data.rows := fun r hrr => hin r (List.mem_append_right _ hrr)
  have hll : (I0.length : ℤ) + I1.length = data.rows := by
    have := hp.length_eq
    rw [List.length_append, length_upTo] at this
    have := wd.rows_nonneg
    omega
  obtain ⟨Y, hY⟩ := rowsOf_exist wd hin0 0 m (by push_cast; omega)
  obtain ⟨X, hX⟩ := rowsOf_exist wd hin0 m k (by push_cast; omega)
  obtain ⟨Y', hY'⟩ := rowsOf_exist wd hin1 0 m (by push_cast; omega)
  obtain ⟨Z, hZ⟩ := rowsOf_exist wd hin1 m k (by push_cast; omega)
  refine ⟨st, s, I0, I1, e1, e2, hp, hl0, Y, X, Y', Z, hY, hX, hY', hZ, ?_⟩
  obtain ⟨kept, hkl, hwf, hsam⟩ := train_sample R0 hc hY hX
  obtain ⟨ty, tz⟩ := test_sample R1 hc hY' hZ
  obtain ⟨mo1, mo2⟩ := trainSize_mono h0 h1 hN
  have hn0 : s.n0 = I0.length := R0.1
  have hn1 : s.s1.rows = I1.length := R1.1
  have hmade : Made u.model (Split.trainSize N u.ratio u.fix) m k (N - Split.trainSize N u.ratio u.fix)
      (⟨s.n0, s.cols, some ((part s.store 0 (s.n0 * s.cols)).map some)⟩ : Mat (Val ℝ)) m k
      (some ⟨s.s1.rows, k, some (part s.s1.mem (m * s.s1.rows) (s.s1.rows * k))⟩) storage work :=
    ⟨hwf, by show 0 < s.n0; omega, by show s.n0 ≤ _; omega, hm, hk, le_refl _, le_refl _, by show s.s1.rows ≤ _; omega, hs, hw⟩
  obtain ⟨c1, c2⟩ := C123_estimate lu f (other := other) (maxProb := maxProb) (checks := none) hmade hr hi hsam (Z := Z) tz
  have hEst : Estimable u.model.details (fun i j => Y (Fin.cast hkl i) j) (fun i l => X (Fin.cast hkl i) l) ↔ Estimable false Y X := by
    show Estimable false _ _ ↔ _
    clear c1 c2 hsam hwf hmade
    obtain ⟨kept, rfl⟩ : ∃ q, q = kept := ⟨kept, rfl⟩
    revert hkl
    generalize kept.length = n
    rintro rfl
    rfl
  have hobs : EnoughObs none kept.length k := fun c hc => by cases hc
  have hacc : ∀ a b c d, Accepted none a b c d := fun a b c d e hc => by cases hc
  refine ⟨fun hne => ?_, fun hes => ?_⟩
  · unfold simFit
    dsimp only
    rw [c1 (fun hh => hne (hEst.1 hh.2))]
    rfl
  · obtain ⟨B, G, a, b, d1, d2, d3, d4, -, d5⟩ := c2 hobs (hEst.2 hes)
    obtain ⟨r, e3, hheld, hcn, -⟩ := d5 (hacc _ _ _ _)
    have hproj := hheld.projected
    have h1pos : ¬ I1.length = 0 := by omega
    rw [if_neg h1pos] at hproj
    obtain ⟨p, q1, q2, q3⟩ := hproj
    have castAll : (∀ B', LeastSquares Y X B' ↔ B' = B) ∧ G * (Xᵀ * X) = 1 ∧ GreatestColumn (Xᵀ * X) a ∧
        ∀ j, cov (left (fun i j => Y (Fin.cast hkl i) j) (fun i l => X (Fin.cast hkl i) l) B) j j = cov (left Y X B) j j := by
      clear c1 c2 hsam hwf hmade e3 hheld d5 d4 hEst hobs q1 q2 q3
      revert hkl d1 d2 d3
      generalize kept.length = n
      rintro rfl d1 d2 d3
      exact ⟨d1, d2, d3, fun j => rfl⟩
    obtain ⟨g1, g2, g3, g4⟩ := castAll
    have hfit : simFit lu f u N m k other none maxProb storage work s = if u.maxCond.lt (.num (a * b)) = true then .throws
        else .ok ⟨⟨s.s1.rows, m, some (part s.s1.mem 0 (s.s1.rows * m))⟩, p.means, p.variances⟩ := by
      unfold simFit
      dsimp only
      rw [e3, Outcome.ok_bind, hcn, q1]
    have dval : ∀ {A : Mat ℝ} {i j : ℕ} {v : ℝ}, A.get i j = .ok v → A.val i j = v := fun {A i j v} hv => by
      unfold Mat.get at hv
      split_ifs at hv
      unfold Mat.get0 Mx.read at hv
      split_ifs at hv
      unfold Mat.val
      cases hq : A.mem[((i : ℤ) + A.rows * (j : ℤ)).toNat]? with
      | none => rw [hq] at hv; cases hv
      | some w => rw [hq] at hv; rw [← Outcome.ok.inj hv]; rfl
    refine ⟨B, G, a, b, g1, g2, g3, d4, fun hh => by rw [hfit, if_pos hh], fun hh => ⟨_, by rw [hfit, if_neg (by rw [hh]; simp)], ?_, fun i j => ?_⟩⟩
    · show s.s1.rows.toNat = _
      rw [hn1, Int.toNat_natCast]
    · refine ⟨?_, ?_, fun hv => ?_⟩
      · show backD _ (.num (Mat.val _ _ _)) = _
        rw [ty.val i j]
      · show backD _ (.num (Mat.val _ _ _)) = _
        rw [dval (q2 i j)]
      · show (if u.doVar then backD _ (sqrtD (.num (Mat.val _ _ _))) else .nan) = _
        rw [if_pos (doVar_of hv), dval (q3 (doVar_of hv) i j), g4]

theorem cov_diag_nonneg {n m : ℕ} (E : Matrix (Fin n) (Fin m) ℝ) (j : Fin m) : 0 ≤ cov E j j := by
  unfold cov
  exact div_nonneg (Finset.sum_nonneg fun i _ => mul_self_nonneg _) (Nat.cast_nonneg _)

theorem quad_nonneg {n k : ℕ} {X : Matrix (Fin n) (Fin k) ℝ} {G : Matrix (Fin k) (Fin k) ℝ} (h : G * (Xᵀ * X) = 1) (z : Fin k → ℝ) :
    0 ≤ ∑ l, ∑ l', z l * G l l' * z l' := by
  have hs : (Xᵀ * X)ᵀ = Xᵀ * X := by rw [transpose_mul, transpose_transpose]
  have h' : (Xᵀ * X) * G = 1 := mul_eq_one_comm.1 h
  have hG : Gᵀ = G := by
    have e : Gᵀ * (Xᵀ * X) = 1 := by rw [← hs, ← transpose_mul, h', transpose_one]
    calc Gᵀ = Gᵀ * ((Xᵀ * X) * G) := by rw [h', Matrix.mul_one]
      _ = G := by rw [← Matrix.mul_assoc, e, Matrix.one_mul]
  have e : G = (X * G)ᵀ * (X * G) := by
    rw [transpose_mul, hG, Matrix.mul_assoc, ← Matrix.mul_assoc Xᵀ, ← Matrix.mul_assoc, h, Matrix.one_mul]
  have key : ∑ l, ∑ l', z l * G l l' * z l' = ∑ i, (∑ l, (X * G) i l * z l) ^ 2 := by
    have e2 : ∀ l l', G l l' = ∑ i, (X * G) i l * (X * G) i l' := fun l l' => by
      conv_lhs => rw [e]
      rw [mul_apply]
      rfl
    have e3 : ∀ i, (∑ l, (X * G) i l * z l) ^ 2 = ∑ l, ∑ l', z l * ((X * G) i l * (X * G) i l') * z l' := fun i => by
      rw [sq, Finset.sum_mul_sum]
      refine Finset.sum_congr rfl fun l _ => Finset.sum_congr rfl fun l' _ => by ring
    simp only [e3]
    have e4 : ∀ l l', z l * G l l' * z l' = ∑ i, z l * ((X * G) i l * (X * G) i l') * z l' := fun l l' => by
      rw [e2, Finset.mul_sum, Finset.sum_mul]
    simp only [e4]
    rw [Finset.sum_comm (s := (Finset.univ : Finset (Fin n)))]
    refine Finset.sum_congr rfl fun l _ => ?_
    rw [Finset.sum_comm]
  rw [key]
  exact Finset.sum_nonneg fun i _ => sq_nonneg _

theorem sqrtD_num {v : ℝ} (h : 0 ≤ v) : sqrtD (.num v) = .num (Real.sqrt v) := by
  show (if v < 0 then Dbl.nan else .num (Real.sqrt v)) = _
  rw [if_neg (not_lt.2 h)]

theorem forall₂_exists {α β : Type} {p : α → β → Prop} {q : β → Prop} : ∀ (g : List α), (∀ x ∈ g, ∃ y, p x y ∧ q y) →
    ∃ T, List.Forall₂ p g T ∧ ∀ y ∈ T, q y
  | [], _ => ⟨[], .nil, fun y hy => by cases hy⟩
  | x :: g, h => by
    obtain ⟨y, h1, h2⟩ := h x List.mem_cons_self
    obtain ⟨T, h3, h4⟩ := forall₂_exists g (fun x hx => h x (List.mem_cons_of_mem _ hx))
    refine ⟨y :: T, .cons h1 h3, fun y' hy => ?_⟩
    rcases List.mem_cons.1 hy with rfl | hy
    · exact h2
    · exact h4 _ hy

/-- `t` compares the rows of a test sample with what the least squares coefficients of the other rows project for them; the standard deviations are those
of the projection (with the error of the observation). The condition number is not above `maxCond`. -/
def OutOfSample (data : Mat ℝ) (n0 : ℤ) (m k : ℕ) (maxCond : Dbl ℝ) (t : Numbers) : Prop :=
  ∃ I0 I1 : List ℤ, (I0 ++ I1).Perm (upTo 0 data.rows) ∧ (I0.length : ℤ) = n0 ∧ t.rows = I1.length ∧
    ∃ (Y : Matrix (Fin I0.length) (Fin m) ℝ) (X : Matrix (Fin I0.length) (Fin k) ℝ) (Y' : Matrix (Fin I1.length) (Fin m) ℝ)
      (Z : Matrix (Fin I1.length) (Fin k) ℝ) (B : Matrix (Fin k) (Fin m) ℝ) (G : Matrix (Fin k) (Fin k) ℝ),
      RowsOf data I0 0 Y ∧ RowsOf data I0 m X ∧ RowsOf data I1 0 Y' ∧ RowsOf data I1 m Z ∧
      (∀ B', LeastSquares Y X B' ↔ B' = B) ∧ G * (Xᵀ * X) = 1 ∧
      (∃ a b, GreatestColumn (Xᵀ * X) a ∧ GreatestColumn G b ∧ maxCond.lt (.num (a * b)) = false) ∧
      ∀ (i : Fin I1.length) (j : Fin m), t.y i j = Y' i j ∧ t.mean i j = ∑ l, Z i l * B l j ∧
        t.std i j = Real.sqrt (cov (left Y X B) j j * (1 + ∑ l, ∑ l', Z i l * G l l' * Z i l'))

/-- **C125.** Without transformations and restrictions, everything that is scored is out of sample: each valid iteration contributes the rows that are not in
its training sample, with the projections of the least squares coefficients of its training sample. -/
theorem C125_out_of_sample (wd : data.Wf) (hc : data.cols = m + k) (hm : 0 < m) (hk : 0 < k) (hN : data.rows ≤ N)
    (h0 : 0 < Split.trainSize data.rows u.ratio u.fix) (h1 : Split.trainSize data.rows u.ratio u.fix < data.rows)
    (hsp : data.rows * data.cols ≤ splitStorage.length)
    (hs : extStorage u.model (Split.trainSize N u.ratio u.fix) m k (N - Split.trainSize N u.ratio u.fix) ≤ storage.length)
    (hw : extWork u.model (Split.trainSize N u.ratio u.fix) m k (N - Split.trainSize N u.ratio u.fix) ≤ work.length)
    (hr : u.restricted = false) (hi : u.maxIter = 0) (hl : u.lambdas = none) {orders : ℕ → List ℤ} (ho : ∀ i, (orders i).Perm (upTo 0 data.rows)) {g}
    (hg : Simulated lu f u N m k other data none maxIteration maxProb splitStorage storage work orders g) :
    ∃ T, List.Forall₂ (fun F t => Forecast.Is F m (Sco.crps ∈ u.metrics) t) g T ∧
      ∀ t ∈ T, OutOfSample data (Split.trainSize data.rows u.ratio u.fix) m k u.maxCond t := by
  refine forall₂_exists g fun F hF => ?_
  obtain ⟨st, e1, hran⟩ := hg
  obtain ⟨i, -, s, p, e2, e3, rfl, -⟩ := hran.mem F hF
  obtain ⟨st', s', I0, I1, k1, k2, hp, hl0, Y, X, Y', Z, hY, hX, hY', hZ, hno, hyes⟩ :=
    C125_iteration (lu := lu) (f := f) (u := u) (N := N) (other := other) (maxProb := maxProb) wd hc hm hk hN h0 h1 hsp hs hw hr hi (ho i)
  rw [e1] at k1
  obtain rfl := Outcome.ok.inj k1
  rw [e2] at k2
  obtain rfl := Outcome.ok.inj k2
  by_cases hes : Estimable false Y X
  swap
  · rw [hno hes] at e3; cases e3
  obtain ⟨B, G, a, b, b1, b2, b3, b4, b5, b6⟩ := hyes hes
  by_cases hcn : u.maxCond.lt (.num (a * b)) = true
  · rw [b5 hcn] at e3; cases e3
  obtain ⟨p', e4, hrows, hval⟩ := b6 (by simpa using hcn)
  rw [e3] at e4
  obtain rfl := Outcome.ok.inj e4
  have hlam : ∀ j, lambda u.lambdas j = none := fun j => by rw [hl]; rfl
  refine ⟨⟨I1.length, fun i j => if h : i < I1.length ∧ j < m then Y' ⟨i, h.1⟩ ⟨j, h.2⟩ else 0,
    fun i j => if h : i < I1.length ∧ j < m then ∑ l, Z ⟨i, h.1⟩ l * B l ⟨j, h.2⟩ else 0,
    fun i j => if h : i < I1.length ∧ j < m then
      Real.sqrt (cov (left Y X B) ⟨j, h.2⟩ ⟨j, h.2⟩ * (1 + ∑ l, ∑ l', Z ⟨i, h.1⟩ l * G l l' * Z ⟨i, h.1⟩ l')) else 0⟩,
    ⟨hrows, fun i hi j hj => ?_⟩, I0, I1, hp, hl0, rfl, Y, X, Y', Z, B, G, hY, hX, hY', hZ, b1, b2, ⟨a, b, b3, b4, by simpa using hcn⟩, fun i j => ?_⟩
  · obtain ⟨c1, c2, c3⟩ := hval ⟨i, hi⟩ ⟨j, hj⟩
    dsimp only at c1 c2 c3 ⊢
    rw [hlam, backD_none] at c1 c2 c3
    rw [dif_pos ⟨hi, hj⟩, dif_pos ⟨hi, hj⟩, dif_pos ⟨hi, hj⟩]
    refine ⟨c1, c2, fun hv => ?_⟩
    rw [c3 hv, sqrtD_num]
    exact mul_nonneg (cov_diag_nonneg _ _) (by have := quad_nonneg b2 (fun l => Z ⟨i, hi⟩ l); linarith)
  · dsimp only
    rw [dif_pos ⟨i.2, j.2⟩, dif_pos ⟨i.2, j.2⟩, dif_pos ⟨i.2, j.2⟩]
    exact ⟨rfl, rfl, rfl⟩

/-- **C125**, the deviations after a Box-Cox transformation: they are sent through the inverse transformation like the observations. With a logarithm the
deviation `σ` of the transformed variable becomes `exp σ`: at least one, even when the projection is certain, and the same for small and large means. -/
theorem C125_boxcox_violated (p : SimFit) (hv : u.doVar = true) {l : List (Val ℝ)} (hl : u.lambdas = some l) {i j : ℕ} (hj : l[j]? = some (some 0)) {σ : ℝ}
    (hσ : 0 ≤ σ) (h : p.variances.val i j = σ ^ 2) : (simForecast u p).std i j = .num (Real.exp σ) ∧ 1 ≤ Real.exp σ := by
  refine ⟨?_, Real.one_le_exp hσ⟩
  show (if u.doVar then backD _ (sqrtD (.num (Mat.val _ _ _))) else .nan) = _
  rw [if_pos hv, h, sqrtD_num (sq_nonneg _), Real.sqrt_sq hσ]
  have : lambda u.lambdas j = some 0 := by
    rw [hl]
    show l.getD j none = _
    rw [List.getD_eq_getElem?_getD, hj]
    rfl
  rw [this]
  show (if (0 : ℝ) ≠ 0 then _ else Dbl.num (Real.exp σ)) = _
  rw [if_neg (by simp)]

/-- If each iteration gives a forecast without NaN, all of them are valid. -/
theorem ran_all {u : SimSetup} {m : ℕ} {A : Type} {draw : ℕ → Outcome A} {fit : A → Outcome SimFit} : ∀ (l : List ℕ),
    (∀ i ∈ l, ∃ a p, draw i = .ok a ∧ fit a = .ok p ∧ ¬ (simForecast u p).broken m) → ∃ g, Ran u m draw fit l g ∧ g.length = l.length
  | [], _ => ⟨[], .nil, rfl⟩
  | i :: l, h => by
    obtain ⟨a, p, h1, h2, h3⟩ := h i List.mem_cons_self
    obtain ⟨g, k1, k2⟩ := ran_all l fun i hi => h i (List.mem_cons_of_mem _ hi)
    exact ⟨_, .good h1 h2 h3 k1, by rw [List.length_cons, List.length_cons, k2]⟩

/-- **C125.** Without transformations and restrictions, when there is no limit for the condition number and every training sample can be estimated, every
iteration is valid (whatever the orders), and there is a result if the metrics are there. -/
theorem C125_all_valid (wd : data.Wf) (hc : data.cols = m + k) (hm : 0 < m) (hk : 0 < k) (hN : data.rows ≤ N)
    (h0 : 0 < Split.trainSize data.rows u.ratio u.fix) (h1 : Split.trainSize data.rows u.ratio u.fix < data.rows)
    (hsp : data.rows * data.cols ≤ splitStorage.length)
    (hs : extStorage u.model (Split.trainSize N u.ratio u.fix) m k (N - Split.trainSize N u.ratio u.fix) ≤ storage.length)
    (hw : extWork u.model (Split.trainSize N u.ratio u.fix) m k (N - Split.trainSize N u.ratio u.fix) ≤ work.length)
    (hr : u.restricted = false) (hi : u.maxIter = 0) (hl : u.lambdas = none) (hcn : u.maxCond = .pinf) (hin : 0 ≤ u.maxInvalid)
    (he : ∀ e ∈ u.metrics, Implemented e) (hcr : Sco.crps ∈ u.metrics → ∀ a b, b.lt (.num 0) = false → ∃ v, crps a b = .ok v) (hit : 0 < maxIteration)
    (hes : ∀ I : List ℤ, (I.length : ℤ) = Split.trainSize data.rows u.ratio u.fix → (∀ r ∈ I, 0 ≤ r ∧ r < data.rows) → I.Nodup →
      ∀ (Y : Matrix (Fin I.length) (Fin m) ℝ) (X : Matrix (Fin I.length) (Fin k) ℝ), RowsOf data I 0 Y → RowsOf data I m X → Estimable false Y X)
    {orders : ℕ → List ℤ} (ho : ∀ i, (orders i).Perm (upTo 0 data.rows)) :
    ∃ r g, simulate lu f crps u N m k other data none maxIteration maxProb splitStorage storage work orders = .ok r ∧
      Simulated lu f u N m k other data none maxIteration maxProb splitStorage storage work orders g ∧ (g.length : ℤ) = maxIteration ∧
      (r.valid : ℤ) = maxIteration := by
  have hlam : ∀ j, lambda u.lambdas j = none := fun j => by rw [hl]; rfl
  have hst : ∃ st, Split.calculate data splitStorage u.ratio u.fix = .ok st := by
    unfold Split.calculate
    dsimp only
    rw [if_neg (by omega)]
    exact ⟨_, rfl⟩
  obtain ⟨st, e1⟩ := hst
  have hall : ∀ i ∈ List.range maxIteration.toNat, ∃ a p, Split.shuffle st data (orders i) = .ok a ∧
      simFit lu f u N m k other none maxProb storage work a = .ok p ∧ ¬ (simForecast u p).broken m := fun i _ => by
    obtain ⟨st', s, I0, I1, k1, k2, hp, hl0, Y, X, Y', Z, hY, hX, hY', hZ, -, hyes⟩ :=
      C125_iteration (lu := lu) (f := f) (u := u) (N := N) (other := other) (maxProb := maxProb) wd hc hm hk hN h0 h1 hsp hs hw hr hi (ho i)
    rw [e1] at k1
    obtain rfl := Outcome.ok.inj k1
    have hnd : (I0 ++ I1).Nodup := hp.nodup_iff.2 ((upTo_sorted 0 data.rows).imp ne_of_lt)
    obtain ⟨B, G, a, b, -, -, -, -, -, b6⟩ := hyes (hes I0 hl0 (fun r hr => mem_upTo.1 (hp.mem_iff.1 (List.mem_append_left _ hr)))
      (List.Nodup.of_append_left hnd) Y X hY hX)
    obtain ⟨p, e4, hrows, hval⟩ := b6 (by rw [hcn]; rfl)
    refine ⟨s, p, k2, e4, ?_⟩
    rintro ⟨a, ha, j, hj, hb⟩
    rw [hrows] at ha
    obtain ⟨c1, c2, -⟩ := hval ⟨a, ha⟩ ⟨j, hj⟩
    dsimp only at c1 c2
    rw [hlam, backD_none] at c1 c2
    unfold Forecast.err at hb
    rw [c1, c2] at hb
    cases hb
  obtain ⟨g, hran, hlen⟩ := ran_all _ hall
  rw [List.length_range] at hlen
  have hg : Simulated lu f u N m k other data none maxIteration maxProb splitStorage storage work orders g := ⟨st, e1, hran⟩
  obtain ⟨-, hok⟩ := C125_fails_iff (crps := crps) hg he (fun hm a b hb => hcr hm a b (hb hl)) (fun l h => by rw [hl] at h; cases h) hit
  obtain ⟨r, hrr⟩ := hok (by omega)
  obtain ⟨-, g', hg', hv, -⟩ := C125_valid hrr
  obtain rfl := hg.unique hg'
  exact ⟨r, g, hrr, hg, by omega, by rw [hv]; omega⟩

/-- A concrete case: two observations 0 and 1 and a constant. Whichever is the training sample, the other is missed by one. -/
example (n : ℤ) (hn : 0 < n) (orders : ℕ → List ℤ) (ho : ∀ i, (orders i).Perm (upTo 0 2)) : ∃ r,
    simulate lu f crps ⟨0, 1, [.mae], false, 0, .pinf, 0, none⟩ 2 1 1 other ⟨2, 2, some [0, 1, 1, 1]⟩ none n maxProb (List.replicate 4 0)
      (List.replicate 100 0) (List.replicate 100 0) orders = .ok r ∧ (r.valid : ℤ) = n ∧ cell r.results 0 0 = some (.num 1) := by
  have hwd : (⟨2, 2, some [0, 1, 1, 1]⟩ : Mat ℝ).Wf := ⟨by norm_num, by norm_num, rfl, by norm_num [Mat.mem]⟩
  have hts : ∀ r : ℤ, Split.trainSize r (0 : ℝ) 1 = 1 := fun r => by unfold Split.trainSize; rw [if_pos (by norm_num)]
  have hes : extStorage (SimSetup.model ⟨0, 1, [.mae], false, 0, .pinf, 0, none⟩) 1 1 1 (2 - 1) ≤ 100 := by decide
  have hew : extWork (SimSetup.model ⟨0, 1, [.mae], false, 0, .pinf, 0, none⟩) 1 1 1 (2 - 1) ≤ 100 := by decide
  have cellY : ∀ r : ℤ, 0 ≤ r → r < 2 → (⟨2, 2, some [0, 1, 1, 1]⟩ : Mat ℝ).get r 0 = .ok (r : ℝ) := fun r h0 h1 => by
    obtain rfl | rfl : r = 0 ∨ r = 1 := by omega
    · rw [show ((0 : ℤ) : ℝ) = 0 by norm_num]; rfl
    · rw [show ((1 : ℤ) : ℝ) = 1 by norm_num]; rfl
  have cellX : ∀ r : ℤ, 0 ≤ r → r < 2 → (⟨2, 2, some [0, 1, 1, 1]⟩ : Mat ℝ).get r 1 = .ok (1 : ℝ) := fun r h0 h1 => by
    obtain rfl | rfl : r = 0 ∨ r = 1 := by omega
    · rfl
    · rfl
  obtain ⟨r, g, h1, h2, h3, h4⟩ := C125_all_valid (lu := lu) (f := f) (crps := crps) (other := other) (maxProb := maxProb)
    (u := ⟨0, 1, [.mae], false, 0, .pinf, 0, none⟩) (N := 2) (m := 1) (k := 1) (data := ⟨2, 2, some [0, 1, 1, 1]⟩)
    (splitStorage := List.replicate 4 0) (storage := List.replicate 100 0) (work := List.replicate 100 0) (maxIteration := n)
    hwd rfl (by norm_num) (by norm_num) (le_refl _) (by rw [hts]; norm_num) (by rw [hts]; norm_num) (by norm_num) (by rw [hts]; simpa using hes)
    (by rw [hts]; simpa using hew) rfl rfl rfl rfl (le_refl _) (by simp [Implemented]) (by simp) hn
    (fun I hI hin _ Y X hY hX => by
      rw [hts] at hI
      refine ⟨by omega, ?_, Or.inl rfl, fun hh => by cases hh⟩
      intro c hc
      have h := hc ⟨0, by omega⟩
      have e := hX ⟨0, by omega⟩ 0
      have hr := hin (I.get ⟨0, by omega⟩) (List.get_mem _ _)
      have e' := cellX _ hr.1 hr.2
      rw [show ((1 + ((0 : Fin 1) : ℕ) : ℕ) : ℤ) = 1 from rfl, e'] at e
      rw [Fin.sum_univ_one, ← Outcome.ok.inj e, one_mul] at h
      funext l
      rw [Subsingleton.elim l 0, h]
      rfl) ho
  refine ⟨r, h1, h4, ?_⟩
  obtain ⟨T, hT, hO⟩ := C125_out_of_sample (lu := lu) (f := f) (other := other) (maxProb := maxProb)
    (u := ⟨0, 1, [.mae], false, 0, .pinf, 0, none⟩) (N := 2) (m := 1) (k := 1) (data := ⟨2, 2, some [0, 1, 1, 1]⟩)
    (splitStorage := List.replicate 4 0) (storage := List.replicate 100 0) (work := List.replicate 100 0) (maxIteration := n)
    hwd rfl (by norm_num) (by norm_num) (le_refl _) (by rw [hts]; norm_num) (by rw [hts]; norm_num) (by norm_num) (by rw [hts]; simpa using hes)
    (by rw [hts]; simpa using hew) rfl rfl rfl ho h2
  have hone : ∀ t ∈ T, t.rows = 1 ∧ |t.y 0 0 - t.mean 0 0| = 1 := fun t ht => by
    obtain ⟨I0, I1, p1, p2, p3, Y, X, Y', Z, B, G, q1, q2, q3, q4, q5, -, -, q7⟩ := hO t ht
    rw [hts] at p2
    have hl1 : I1.length = 1 := by
      have := p1.length_eq
      rw [List.length_append, length_upTo] at this
      dsimp only at this
      omega
    obtain ⟨a, rfl⟩ : ∃ a, I0 = [a] := List.length_eq_one_iff.1 (by omega)
    obtain ⟨b, rfl⟩ : ∃ b, I1 = [b] := List.length_eq_one_iff.1 hl1
    have hab : (a = 0 ∧ b = 1) ∨ (a = 1 ∧ b = 0) := by
      have h0 : (0 : ℤ) ∈ [a] ++ [b] := p1.mem_iff.2 (mem_upTo.2 ⟨by norm_num, by norm_num⟩)
      have h1 : (1 : ℤ) ∈ [a] ++ [b] := p1.mem_iff.2 (mem_upTo.2 ⟨by norm_num, by norm_num⟩)
      simp only [List.cons_append, List.nil_append, List.mem_cons, List.not_mem_nil, or_false] at h0 h1
      omega
    have ha : 0 ≤ a ∧ a < 2 := by omega
    have hb : 0 ≤ b ∧ b < 2 := by omega
    have y0 : Y 0 0 = a := Outcome.ok.inj ((q1 0 0).symm.trans (cellY a ha.1 ha.2))
    have x0 : X 0 0 = 1 := Outcome.ok.inj ((q2 0 0).symm.trans (cellX a ha.1 ha.2))
    have y1 : Y' 0 0 = b := Outcome.ok.inj ((q3 0 0).symm.trans (cellY b hb.1 hb.2))
    have z1 : Z 0 0 = 1 := Outcome.ok.inj ((q4 0 0).symm.trans (cellX b hb.1 hb.2))
    have hB : (fun _ _ => (a : ℝ) : Matrix (Fin 1) (Fin 1) ℝ) = B := (q5 _).1 fun j c => by
      have : ∀ i : Fin 1, Y i j = a := fun i => by rw [Subsingleton.elim i 0, Subsingleton.elim j 0, y0]
      have hx : ∀ i l : Fin 1, X i l = 1 := fun i l => by rw [Subsingleton.elim i 0, Subsingleton.elim l 0, x0]
      have hz : squares (misfit X (fun i => Y i j) (fun l => (fun _ _ => (a : ℝ) : Matrix (Fin 1) (Fin 1) ℝ) l j)) = 0 := by
        unfold squares misfit
        refine Finset.sum_eq_zero fun i _ => ?_
        dsimp only
        rw [Finset.sum_eq_single (0 : Fin 1) (fun b _ hb => absurd (Subsingleton.elim b 0) hb) (fun h => absurd (Finset.mem_univ _) h), this, hx]
        norm_num
      rw [hz]
      unfold squares
      exact Finset.sum_nonneg fun i _ => by first | exact sq_nonneg _ | exact mul_self_nonneg _
    obtain ⟨r1, r2, -⟩ := q7 0 0
    have r1 : t.y 0 0 = Y' 0 0 := r1
    have r2 : t.mean 0 0 = ∑ l, Z 0 l * B l 0 := r2
    rw [r1, r2, Fin.sum_univ_one, y1, z1, ← hB]
    refine ⟨p3, ?_⟩
    rcases hab with ⟨rfl, rfl⟩ | ⟨rfl, rfl⟩ <;> norm_num
  have hpos : 0 < (T.map (·.rows)).sum := by
    have hlen := hT.length_eq
    have : T.map (·.rows) = T.map fun _ => 1 := List.map_congr_left fun t ht => (hone t ht).1
    rw [this, List.map_const', List.sum_replicate]
    simp only [smul_eq_mul, mul_one]
    omega
  have hsc := C125_scores h1 h2 (e := .mae) (T := T) (hT.imp fun F t h => ⟨h.1, fun a ha j hj => ⟨(h.2 a ha j hj).1, (h.2 a ha j hj).2.1, fun hh => by cases hh⟩⟩)
    hpos (i := 0) (j := 0) rfl (by simp [Implemented]) (by norm_num) (c := fun _ _ => 0) (fun hh => by cases hh) (fun hh => by rcases hh with hh | hh <;> cases hh)
  rw [hsc]
  congr 2
  show meanLoss _ _ T 0 = 1
  unfold meanLoss
  have e1 : (T.map fun t => ∑ a ∈ Finset.range t.rows, loss (fun _ _ => 0) .mae (t.y a 0) (t.mean a 0) (t.std a 0)) = T.map fun t => (t.rows : ℝ) :=
    List.map_congr_left fun t ht => by
      obtain ⟨h1, h2⟩ := hone t ht
      rw [h1, Finset.sum_range_one, Nat.cast_one]
      exact h2
  rw [e1]
  refine div_self ?_
  have hcast : (T.map fun t => (t.rows : ℝ)).sum = (((T.map (·.rows)).sum : ℕ) : ℝ) := by
    rw [Nat.cast_list_sum, List.map_map]; rfl
  rw [hcast]
  exact_mod_cast hpos.ne'

end

end Su
end LDT
