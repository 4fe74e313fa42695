import Verif.Lemmas.MatrixAlg
/-!
# C60, C61: products of matrices

`m.val i j` is the number in cell `(i, j)`.  The library routines `?gemm`, `?syrk`, `?symm` are trusted to follow
the BLAS contract written down in `Model/MatrixAlg.lean`; the theorems are about what LDT asks them to do.
-/
namespace LDT
namespace Mx
variable {α : Type} [CommRing α] [DecidableEq α]

/-! ## C60: general products -/

theorem withMem_ok (S : Mat α) {o : Outcome (List α)} {l : List α} (h : o = .ok l) :
    S.withMem o = .ok { S with data := some l } := by
  unfold Mat.withMem; rw [h]; rfl

/-- `alpha A B + beta C`, for all shapes that fit (non-empty); all others are rejected. -/
theorem C60_dot (A B S : Mat α) (wa : A.Wf) (wb : B.Wf) (ws : S.Wf) (alpha beta : α) :
    (A.cols = B.rows → S.rows = A.rows → S.cols = B.cols → 0 < A.rows → 0 < A.cols →
      ∃ res, A.dot B S alpha beta = .ok res ∧ SameShape S res ∧
        ∀ i j, S.InR i j → res.val i j =
          alpha * (∑ k ∈ Finset.range A.cols.toNat, A.val i k * B.val k j) + beta * S.val i j) ∧
    (A.cols ≠ B.rows ∨ S.rows ≠ A.rows ∨ S.cols ≠ B.cols → A.dot B S alpha beta = .throws) := by
  constructor
  · intro h1 h2 h3 p1 p2
    obtain ⟨l, e, s, h⟩ := gemm_spec false false A B S wa wb ws A.cols wa.cols_nonneg ⟨h2.symm, rfl⟩
      ⟨h1.symm, h3.symm⟩ (by omega) (by omega) (by omega) alpha beta
    refine ⟨_, ?_, s, h⟩
    unfold Mat.dot
    rw [if_neg (by omega), if_neg (by omega)]
    apply withMem_ok
    rw [h1, ← h2] at e; rw [← h2, ← h3, h1]; exact e
  · intro h
    unfold Mat.dot
    split_ifs <;> first | rfl | (exfalso; omega)

/-- `alpha A B' + beta C`. -/
theorem C60_dotTr (A B S : Mat α) (wa : A.Wf) (wb : B.Wf) (ws : S.Wf) (alpha beta : α) :
    (A.cols = B.cols → S.rows = A.rows → S.cols = B.rows → 0 < A.rows → 0 < B.rows →
      ∃ res, A.dotTr B S alpha beta = .ok res ∧ SameShape S res ∧
        ∀ i j, S.InR i j → res.val i j =
          alpha * (∑ k ∈ Finset.range A.cols.toNat, A.val i k * B.val j k) + beta * S.val i j) ∧
    (A.cols ≠ B.cols ∨ S.rows ≠ A.rows ∨ S.cols ≠ B.rows → A.dotTr B S alpha beta = .throws) := by
  constructor
  · intro h1 h2 h3 p1 p2
    obtain ⟨l, e, s, h⟩ := gemm_spec false true A B S wa wb ws A.cols wa.cols_nonneg ⟨h2.symm, rfl⟩
      ⟨h3.symm, h1.symm⟩ (by omega) (by omega) (by omega) alpha beta
    refine ⟨_, ?_, s, h⟩
    unfold Mat.dotTr
    rw [if_neg (by omega), if_neg (by omega)]
    apply withMem_ok
    rw [← h3, ← h2] at e; rw [← h2, ← h3]; exact e
  · intro h
    unfold Mat.dotTr
    split_ifs <;> first | rfl | (exfalso; omega)

/-- `alpha A' B + beta C`. -/
theorem C60_trDot (A B S : Mat α) (wa : A.Wf) (wb : B.Wf) (ws : S.Wf) (alpha beta : α) :
    (A.rows = B.rows → S.rows = A.cols → S.cols = B.cols → 0 < A.rows → 0 < A.cols →
      ∃ res, A.trDot B S alpha beta = .ok res ∧ SameShape S res ∧
        ∀ i j, S.InR i j → res.val i j =
          alpha * (∑ k ∈ Finset.range A.rows.toNat, A.val k i * B.val k j) + beta * S.val i j) ∧
    (A.rows ≠ B.rows ∨ S.rows ≠ A.cols ∨ S.cols ≠ B.cols → A.trDot B S alpha beta = .throws) := by
  constructor
  · intro h1 h2 h3 p1 p2
    obtain ⟨l, e, s, h⟩ := gemm_spec true false A B S wa wb ws A.rows wa.rows_nonneg ⟨rfl, h2.symm⟩
      ⟨h1.symm, h3.symm⟩ (by omega) (by omega) (by omega) alpha beta
    refine ⟨_, ?_, s, h⟩
    unfold Mat.trDot
    rw [if_neg (by omega), if_neg (by omega)]
    apply withMem_ok
    rw [← h2, ← h3]; rw [← h1] at e; exact e
  · intro h
    unfold Mat.trDot
    split_ifs <;> first | rfl | (exfalso; omega)

/-- `alpha A' B' + beta C`. -/
theorem C60_trDotTr (A B S : Mat α) (wa : A.Wf) (wb : B.Wf) (ws : S.Wf) (alpha beta : α) :
    (A.rows = B.cols → S.rows = A.cols → S.cols = B.rows → 0 < A.rows → 0 < A.cols → 0 < B.rows →
      ∃ res, A.trDotTr B S alpha beta = .ok res ∧ SameShape S res ∧
        ∀ i j, S.InR i j → res.val i j =
          alpha * (∑ k ∈ Finset.range A.rows.toNat, A.val k i * B.val j k) + beta * S.val i j) ∧
    (A.rows ≠ B.cols ∨ S.rows ≠ A.cols ∨ S.cols ≠ B.rows → A.trDotTr B S alpha beta = .throws) := by
  constructor
  · intro h1 h2 h3 p1 p2 p3
    obtain ⟨l, e, s, h⟩ := gemm_spec true true A B S wa wb ws A.rows wa.rows_nonneg ⟨rfl, h2.symm⟩
      ⟨h3.symm, h1.symm⟩ (by omega) (by omega) (by omega) alpha beta
    refine ⟨_, ?_, s, h⟩
    unfold Mat.trDotTr
    rw [if_neg (by omega), if_neg (by omega)]
    apply withMem_ok
    rw [← h2, ← h3]; rw [← h3] at e; exact e
  · intro h
    unfold Mat.trDotTr
    split_ifs <;> first | rfl | (exfalso; omega)

example : ∃ res, (⟨2, 2, some [1, 2, 3, 4]⟩ : Mat Int).trDotTr ⟨3, 2, some [1, 0, 2, 5, 1, 0]⟩
    ⟨2, 3, some [1, 1, 1, 1, 1, 1]⟩ 1 1 = .ok res ∧ res.val 1 0 = 24 ∧ res.val 0 2 = 3 :=
  ⟨_, rfl, by decide +kernel, by decide +kernel⟩

/-! ## C61: products with structure -/

theorem finish_spec (sl : Bool) (S M : Mat α) (ws : S.Wf) (hsq : S.cols = S.rows) (hs : SameShape S M)
    (T : Int → Int → α) (hT : ∀ i j, T i j = T j i) (h : ∀ i j, S.InR i j → M.val i j = if i ≤ j then T i j else S.val i j) :
    ∃ res, finishLower sl S.rows (.ok M) = .ok res ∧ SameShape S res ∧
      ∀ i j, S.InR i j → res.val i j = if i ≤ j ∨ sl = true then T i j else S.val i j := by
  cases sl with
  | false => exact ⟨M, rfl, hs, fun i j hij => by rw [h i j hij]; simp⟩
  | true =>
    obtain ⟨res, e, s, v⟩ := copyLower_spec M (hs.wf ws) (by rw [hs.cols, hs.rows, hsq])
    refine ⟨res, ?_, hs.trans s, ?_⟩
    · show copyLower S.rows M = _
      rw [← hs.rows]; exact e
    · intro i j hij
      rw [v i j (hs.inR.2 hij)]
      simp only [or_true, if_true]
      have hji : S.InR j i := ⟨hij.2.2.1, by rw [← hsq]; exact hij.2.2.2, hij.1, by rw [hsq]; exact hij.2.1⟩
      split_ifs with hx
      · rw [h i j hij, if_pos hx]
      · rw [h j i hji, if_pos (by omega), hT]

/-- `alpha A A' + beta C` with a symmetric `C`: the whole matrix when the lower part is asked for, else its upper
triangle with the lower one untouched. -/
theorem C61_dotAAt (A S : Mat α) (wa : A.Wf) (ws : S.Wf) (sl : Bool) (alpha beta : α)
    (hsym : ∀ i j, S.val i j = S.val j i) :
    (S.rows = A.rows → S.cols = A.rows → 0 < A.rows →
      ∃ res, A.dotAAt S sl alpha beta = .ok res ∧ SameShape S res ∧
        ∀ i j, S.InR i j → res.val i j =
          if i ≤ j ∨ sl = true then alpha * (∑ k ∈ Finset.range A.cols.toNat, A.val i k * A.val j k) + beta * S.val i j
          else S.val i j) ∧
    (S.rows ≠ A.rows ∨ S.cols ≠ A.rows → A.dotAAt S sl alpha beta = .throws) := by
  constructor
  · intro h1 h2 p
    obtain ⟨l, e, s, h⟩ := syrkU_spec false A S wa ws A.cols wa.cols_nonneg (by omega) ⟨h1.symm, rfl⟩ (by omega)
      (by omega) alpha beta
    obtain ⟨res, e2, s2, v2⟩ := finish_spec sl S _ ws (by omega) s
      (fun i j => alpha * (∑ k ∈ Finset.range A.cols.toNat, A.val i k * A.val j k) + beta * S.val i j)
      (fun i j => by
        simp only [hsym i j]; congr 2; exact Finset.sum_congr rfl (fun k _ => mul_comm _ _)) h
    refine ⟨res, ?_, s2, v2⟩
    unfold Mat.dotAAt
    rw [if_neg (by omega), ← h1, withMem_ok S (by rw [← h1] at e; exact e)]
    exact e2
  · intro h
    unfold Mat.dotAAt
    rw [if_pos h]

/-- `alpha A' A + beta C` with a symmetric `C`. -/
theorem C61_dotAtA (A S : Mat α) (wa : A.Wf) (ws : S.Wf) (sl : Bool) (alpha beta : α)
    (hsym : ∀ i j, S.val i j = S.val j i) :
    (S.rows = A.cols → S.cols = A.cols → 0 < A.rows → 0 < A.cols →
      ∃ res, A.dotAtA S sl alpha beta = .ok res ∧ SameShape S res ∧
        ∀ i j, S.InR i j → res.val i j =
          if i ≤ j ∨ sl = true then alpha * (∑ k ∈ Finset.range A.rows.toNat, A.val k i * A.val k j) + beta * S.val i j
          else S.val i j) ∧
    (S.rows ≠ A.cols ∨ S.cols ≠ A.cols → A.dotAtA S sl alpha beta = .throws) := by
  constructor
  · intro h1 h2 p p2
    obtain ⟨l, e, s, h⟩ := syrkU_spec true A S wa ws A.rows wa.rows_nonneg (by omega) ⟨rfl, h1.symm⟩ (by omega)
      (by omega) alpha beta
    obtain ⟨res, e2, s2, v2⟩ := finish_spec sl S _ ws (by omega) s
      (fun i j => alpha * (∑ k ∈ Finset.range A.rows.toNat, A.val k i * A.val k j) + beta * S.val i j)
      (fun i j => by
        simp only [hsym i j]; congr 2; exact Finset.sum_congr rfl (fun k _ => mul_comm _ _)) h
    refine ⟨res, ?_, s2, v2⟩
    unfold Mat.dotAtA
    rw [if_neg (by omega), ← h1, withMem_ok S e]
    exact e2
  · intro h
    unfold Mat.dotAtA
    rw [if_pos h]

/-- `alpha A B + beta C` with a symmetric `A` of which the named triangle is stored. -/
theorem C61_symDot (A B S : Mat α) (wa : A.Wf) (wb : B.Wf) (ws : S.Wf) (up : Bool) (alpha beta : α)
    (A' : Int → Int → α) (hsym : ∀ i j, A' i j = A' j i)
    (hst : ∀ i j, A.InR i j → (if up then i ≤ j else j ≤ i) → A.val i j = A' i j) :
    (A.rows = A.cols → A.cols = B.rows → S.rows = A.rows → S.cols = B.cols → 0 < A.rows →
      ∃ res, A.symDot B S up alpha beta = .ok res ∧ SameShape S res ∧
        ∀ i j, S.InR i j → res.val i j =
          alpha * (∑ k ∈ Finset.range A.rows.toNat, A' i k * B.val k j) + beta * S.val i j) ∧
    (A.rows ≠ A.cols ∨ A.cols ≠ B.rows ∨ S.rows ≠ A.rows ∨ S.cols ≠ B.cols → A.symDot B S up alpha beta = .throws) := by
  constructor
  · intro h1 h2 h3 h4 p
    have hA' : ∀ i l, A.InR i l → symVal up A i l = A' i l := by
      intro i l h
      have h' : A.InR l i := ⟨h.2.2.1, by rw [h1]; exact h.2.2.2, h.1, by rw [← h1]; exact h.2.1⟩
      unfold symVal
      cases up with
      | true =>
        simp only [if_true] at hst ⊢
        split_ifs with hx
        · exact hst i l h hx
        · rw [hst l i h' (by omega), hsym]
      | false =>
        simp only [Bool.false_eq_true, if_false] at hst ⊢
        split_ifs with hx
        · exact hst i l h hx
        · rw [hst l i h' (by omega), hsym]
    obtain ⟨l, e, s, h⟩ := blasFill_spec S ws (fun _ => S.rows) (fun _ _ _ => ⟨ws.rows_nonneg, le_refl _⟩) alpha beta
      (fun i j => symSum true up S.rows S.cols A.mem A.rows B.mem B.rows i j)
      (fun i j => ∑ k ∈ Finset.range A.rows.toNat, A' i k * B.val k j)
      (by
        intro i j hj0 hj1 hi0 hi1
        unfold symSum
        rw [if_pos rfl, h3]
        refine dotSum_spec wa.rows_nonneg (xv := fun k => A' i k) (yv := fun k => B.val k j) (fun k h0 hk => ?_) (fun k h0 hk => ?_)
        · have hin : A.InR i k := ⟨hi0, by omega, h0, by omega⟩
          rw [symGet_spec up A wa h1 hin, hA' i k hin]
        · exact get0_val wb ⟨h0, by omega, hj0, by omega⟩)
    refine ⟨_, ?_, s, fun i j hij => by rw [h i j hij, if_pos hij.2.1]⟩
    unfold Mat.symDot
    rw [if_neg (by omega), if_neg (by omega), if_neg (by omega)]
    apply withMem_ok
    unfold symm ldOk
    rw [if_neg (by simp; omega), ← h3, ← h4]
    rw [← h2, ← h1, ← h3] at e
    rw [← h1, ← h3]; exact e
  · intro h
    unfold Mat.symDot
    split_ifs <;> first | rfl | (exfalso; omega)

/-- `alpha A B + beta C` with a fully stored symmetric `B` (whatever the triangle flag says). -/
theorem C61_dotSym_partial (A B S : Mat α) (wa : A.Wf) (wb : B.Wf) (ws : S.Wf) (up : Bool) (alpha beta : α)
    (hsym : ∀ i j, B.InR i j → B.val i j = B.val j i) :
    (B.rows = B.cols → A.cols = B.rows → S.rows = A.rows → S.cols = B.cols → 0 < A.rows → 0 < B.rows →
      ∃ res, A.dotSym B S up alpha beta = .ok res ∧ SameShape S res ∧
        ∀ i j, S.InR i j → res.val i j =
          alpha * (∑ k ∈ Finset.range A.cols.toNat, A.val i k * B.val k j) + beta * S.val i j) ∧
    (B.rows ≠ B.cols ∨ A.cols ≠ B.rows ∨ S.rows ≠ A.rows ∨ S.cols ≠ B.cols → A.dotSym B S up alpha beta = .throws) := by
  constructor
  · intro h1 h2 h3 h4 p p2
    have hB' : ∀ i l, B.InR i l → symVal (!up) B i l = B.val i l := by
      intro i l h
      unfold symVal
      split_ifs <;> first | rfl | exact (hsym i l h).symm
    obtain ⟨l, e, s, h⟩ := blasFill_spec S ws (fun _ => S.rows) (fun _ _ _ => ⟨ws.rows_nonneg, le_refl _⟩) alpha beta
      (fun i j => symSum false (!up) S.rows S.cols B.mem B.rows A.mem A.rows i j)
      (fun i j => ∑ k ∈ Finset.range A.cols.toNat, A.val i k * B.val k j)
      (by
        intro i j hj0 hj1 hi0 hi1
        unfold symSum
        rw [if_neg (by simp), show S.cols = A.cols by omega]
        refine dotSum_spec wa.cols_nonneg (xv := fun k => A.val i k) (yv := fun k => B.val k j) (fun k h0 hk => ?_) (fun k h0 hk => ?_)
        · exact get0_val wa ⟨hi0, by omega, h0, by omega⟩
        · have hin : B.InR k j := ⟨h0, by omega, hj0, by omega⟩
          rw [symGet_spec (!up) B wb h1 hin, hB' k j hin])
    refine ⟨_, ?_, s, fun i j hij => by rw [h i j hij, if_pos hij.2.1]⟩
    unfold Mat.dotSym
    rw [if_neg (by omega), if_neg (by omega), if_neg (by omega)]
    apply withMem_ok
    unfold symm ldOk
    rw [if_neg (by simp; omega)]
    rw [h1, ← h4, ← h3] at e
    exact e
  · intro h
    unfold Mat.dotSym
    split_ifs <;> first | rfl | (exfalso; omega)

/-- The triangle flag of `DotSym` is inverted: with `upperTriangular = true` and a matrix stored in its upper
triangle only, the (unset) lower triangle is used. -/
theorem C61_violated_dotSym_flag :
    ∃ res, (⟨1, 2, some [1, 1]⟩ : Mat Int).dotSym ⟨2, 2, some [1, 0, 5, 2]⟩ ⟨1, 2, some [0, 0]⟩ true 1 0 = .ok res ∧
      res.data = some [1, 2] := ⟨_, rfl, by decide +kernel⟩

/-- What `C61_violated_dotSym_flag` should give, computed by the left-hand variant on the transposed problem. -/
example : ∃ res, (⟨2, 2, some [1, 0, 5, 2]⟩ : Mat Int).symDot ⟨2, 1, some [1, 1]⟩ ⟨2, 1, some [0, 0]⟩ true 1 0 = .ok res ∧
      res.data = some [6, 7] := ⟨_, rfl, by decide +kernel⟩

omit [DecidableEq α] in
theorem fillCells_spec (S : Mat α) (ws : S.Wf) (T : Int → Int → Outcome α) (Tv : Int → Int → α)
    (hT : ∀ i j, S.InR i j → T i j = .ok (Tv i j)) (n m : Int) (hn : n = S.rows) (hm : m = S.cols) :
    (∃ res, (upTo 0 n).foldlM (fun (s : Mat α) i => (upTo 0 m).foldlM (fun (s : Mat α) j => do
      let v ← T i j
      s.set0 i j v) s) S = .ok res ∧ SameShape S res ∧ ∀ i j, S.InR i j → res.val i j = Tv i j) ∧
    (∃ res, (upTo 0 m).foldlM (fun (s : Mat α) j => (upTo 0 n).foldlM (fun (s : Mat α) i => do
      let v ← T i j
      s.set0 i j v) s) S = .ok res ∧ SameShape S res ∧ ∀ i j, S.InR i j → res.val i j = Tv i j) := by
  subst hn; subst hm
  have key : ∀ ps : List (Int × Int), (∀ i j, S.InR i j ↔ (i, j) ∈ ps) →
      ∃ res, ps.foldlM (fun (d : Mat α) p => do let v ← T p.1 p.2; d.set0 p.1 p.2 v) S = .ok res ∧ SameShape S res ∧
        ∀ i j, S.InR i j → res.val i j = Tv i j := by
    intro ps hps
    obtain ⟨res, e, s, v, _⟩ := fold_set (fun p : Int × Int => p) (fun p => T p.1 p.2) ps S ws
      (fun p hp => (hps p.1 p.2).2 hp) (fun p hp => ⟨_, hT _ _ ((hps p.1 p.2).2 hp)⟩)
      (fun p _ q _ h => by have h : p = q := h; rw [h])
    refine ⟨res, e, s, fun i j hij => ?_⟩
    have := v (i, j) ((hps i j).1 hij)
    simp only [hT i j hij] at this
    rw [get0_val (s.wf ws) (s.inR.2 hij)] at this
    exact Outcome.ok.inj this
  constructor
  · obtain ⟨res, e, s, v⟩ := key ((upTo 0 S.rows).flatMap fun i => (upTo 0 S.cols).map fun j => (i, j)) (by
      intro i j
      simp only [List.mem_flatMap, List.mem_map, mem_upTo, Prod.mk.injEq, Mat.InR]
      constructor
      · rintro ⟨h1, h2, h3, h4⟩; exact ⟨i, ⟨h1, h2⟩, j, ⟨h3, h4⟩, rfl, rfl⟩
      · rintro ⟨a, ⟨h1, h2⟩, b, ⟨h3, h4⟩, rfl, rfl⟩; exact ⟨h1, h2, h3, h4⟩)
    refine ⟨res, ?_, s, v⟩
    rw [foldlM_nested (fun (d : Mat α) (i j : Int) => do let v ← T i j; d.set0 i j v)]
    exact e
  · obtain ⟨res, e, s, v⟩ := key (((upTo 0 S.cols).flatMap fun j => (upTo 0 S.rows).map fun i => (j, i)).map Prod.swap) (by
      intro i j
      simp only [List.mem_map, List.mem_flatMap, mem_upTo, Mat.InR]
      constructor
      · rintro ⟨h1, h2, h3, h4⟩; exact ⟨(j, i), ⟨j, ⟨h3, h4⟩, i, ⟨h1, h2⟩, rfl⟩, rfl⟩
      · rintro ⟨p, ⟨a, ⟨h1, h2⟩, b, ⟨h3, h4⟩, rfl⟩, h5⟩
        simp only [Prod.swap_prod_mk, Prod.mk.injEq] at h5
        obtain ⟨rfl, rfl⟩ := h5
        exact ⟨h3, h4, h1, h2⟩)
    refine ⟨res, ?_, s, v⟩
    rw [List.foldlM_map] at e
    rw [foldlM_nested (fun (d : Mat α) (j i : Int) => do let v ← T i j; d.set0 i j v)]
    exact e

omit [DecidableEq α] in
/-- A diagonal matrix (given as a vector) times a matrix. -/
theorem C61_diagDot (d B S : Mat α) (wd : d.Wf) (wb : B.Wf) (ws : S.Wf) :
    (B.rows = d.length → S.rows = d.length → S.cols = B.cols →
      ∃ res, d.diagDot B S = .ok res ∧ SameShape S res ∧
        ∀ i j x, S.InR i j → d.getLin i = .ok x → res.val i j = x * B.val i j) ∧
    (B.rows ≠ d.length ∨ S.rows ≠ d.length ∨ S.cols ≠ B.cols → d.diagDot B S = .throws) := by
  constructor
  · intro h1 h2 h3
    have hsz := wd.size
    obtain ⟨⟨res, e, s, v⟩, _⟩ := fillCells_spec S ws (fun i j => mulO (read d.mem i) (B.get0 i j))
      (fun i j => Poly.coef d.mem i.toNat * B.val i j) (by
        intro i j hij
        unfold mulO
        rw [Poly.read_coef hij.1 (by have := hij.2.1; unfold Mat.length at h2; omega), Outcome.ok_bind,
          get0_val wb ⟨hij.1, by have := hij.2.1; omega, hij.2.2.1, by have := hij.2.2.2; omega⟩]; rfl)
      d.length B.cols h2.symm h3.symm
    refine ⟨res, ?_, s, ?_⟩
    · unfold Mat.diagDot
      rw [if_neg (by omega), if_neg (by omega)]; exact e
    · intro i j x hij hx
      rw [v i j hij]
      unfold Mat.getLin at hx
      rw [if_neg (by rw [wd.data_eq]; simp), if_neg (by have := hij.1; have := hij.2.1; omega),
        Poly.read_coef hij.1 (by have := hij.2.1; unfold Mat.length at h2; omega)] at hx
      rw [Outcome.ok.inj hx]
  · intro h
    unfold Mat.diagDot
    split_ifs <;> first | rfl | (exfalso; omega)

omit [DecidableEq α] in
/-- A matrix times a diagonal matrix (given as a vector); holds for square matrices only (see below). -/
theorem C61_dotDiag_partial (A d S : Mat α) (wa : A.Wf) (wd : d.Wf) (ws : S.Wf) :
    (A.cols = d.length → S.rows = A.rows → S.cols = d.length → A.rows = A.cols →
      ∃ res, A.dotDiag d S = .ok res ∧ SameShape S res ∧
        ∀ i j x, S.InR i j → d.getLin j = .ok x → res.val i j = x * A.val i j) ∧
    (A.cols ≠ d.length ∨ S.rows ≠ A.rows ∨ S.cols ≠ d.length → A.dotDiag d S = .throws) := by
  constructor
  · intro h1 h2 h3 hsq
    have hsz := wd.size
    obtain ⟨_, ⟨res, e, s, v⟩⟩ := fillCells_spec S ws (fun i j => mulO (read d.mem j) (A.get0 i j))
      (fun i j => Poly.coef d.mem j.toNat * A.val i j) (by
        intro i j hij
        unfold mulO
        rw [Poly.read_coef hij.2.2.1 (by have := hij.2.2.2; unfold Mat.length at h3; omega), Outcome.ok_bind,
          get0_val wa ⟨hij.1, by have := hij.2.1; omega, hij.2.2.1, by have := hij.2.2.2; omega⟩]; rfl)
      A.rows A.rows h2.symm (by omega)
    refine ⟨res, ?_, s, ?_⟩
    · unfold Mat.dotDiag
      rw [if_neg (by omega), if_neg (by omega)]; exact e
    · intro i j x hij hx
      rw [v i j hij]
      unfold Mat.getLin at hx
      rw [if_neg (by rw [wd.data_eq]; simp), if_neg (by have := hij.2.2.1; have := hij.2.2.2; omega),
        Poly.read_coef hij.2.2.1 (by have := hij.2.2.2; unfold Mat.length at h3; omega)] at hx
      rw [Outcome.ok.inj hx]
  · intro h
    unfold Mat.dotDiag
    split_ifs <;> first | rfl | (exfalso; omega)

/-- With more columns than rows the last columns of the product are not computed. -/
theorem C61_violated_dotDiag_wide :
    ∃ res, (⟨1, 2, some [3, 4]⟩ : Mat Int).dotDiag ⟨2, 1, some [10, 100]⟩ ⟨1, 2, some [7, 7]⟩ = .ok res ∧
      res.data = some [30, 7] := ⟨_, rfl, by decide +kernel⟩

/-- With more rows than columns the vector, the matrix and the result are accessed outside their memory. -/
theorem C61_violated_dotDiag_tall :
    (⟨2, 1, some [3, 4]⟩ : Mat Int).dotDiag ⟨1, 1, some [10]⟩ ⟨2, 1, some [7, 7]⟩ = .ub := by decide +kernel

example : ∃ res, (⟨2, 1, some [10, 100]⟩ : Mat Int).diagDot ⟨2, 1, some [3, 4]⟩ ⟨2, 1, some [7, 7]⟩ = .ok res ∧
      res.data = some [30, 400] := ⟨_, rfl, by decide +kernel⟩
example : ∃ res, (⟨2, 1, some [3, 4]⟩ : Mat Int).dotAAt ⟨2, 2, some [0, 0, 0, 0]⟩ true 1 0 = .ok res ∧
      res.data = some [9, 12, 12, 16] := ⟨_, rfl, by decide +kernel⟩

end Mx
end LDT
