import Verif.Lemmas.DataSplit
import Mathlib.Algebra.Order.Floor.Semiring
import Mathlib.Tactic.Linarith
import Mathlib.Tactic.NormNum
import Mathlib.Data.Rat.Floor
import Verif.Props.Sort
/-! # C30, C31: splitting the data -/
namespace LDT
namespace Split
open Mx

variable {α : Type}

/-! ## Specification -/

/-- `m` consists of the rows `I` of `data`, in that order. -/
def RowsAre (m data : Mat α) (I : List Int) : Prop :=
  m.rows = I.length ∧ m.cols = data.cols ∧
  ∀ (a : Nat) k, I[a]? = some k → ∀ j, 0 ≤ j → j < data.cols → m.get a j = data.get k j

/-- The two samples hold every row of the data exactly once, `n0` rows are in the first. -/
def IsSplit (data s0 s1 : Mat α) (n0 : Int) (I0 I1 : List Int) : Prop :=
  (I0 ++ I1).Perm (upTo 0 data.rows) ∧ (I0.length : Int) = n0 ∧ RowsAre s0 data I0 ∧ RowsAre s1 data I1

/-! ## Proofs -/

theorem Filled.isSplit {data : Mat α} {len : Nat} {n0 n1 : Int} {s : Samples α} {I0 I1 : List Int} (wd : data.Wf)
    (h : Filled data len n0 n1 s I0 I1) (h0 : (I0.length : Int) = n0) (h1 : (I1.length : Int) = n1)
    (hp : (I0 ++ I1).Perm (upTo 0 data.rows)) : IsSplit data s.s0 s.s1 n0 I0 I1 := by
  have hin : ∀ k, k ∈ I0 ++ I1 → 0 ≤ k ∧ k < data.rows := fun k hk => mem_upTo.1 (hp.mem_iff.1 hk)
  refine ⟨hp, h0, ⟨by rw [h0]; exact h.e0, h.cols, ?_⟩, ⟨by rw [h1]; exact h.e1, h.cols, ?_⟩⟩
  · intro a k hk j hj0 hj1
    have hi := hin k (List.mem_append_left _ (mem_of_some hk))
    have hl := lt_length_of_some hk
    rw [get_eq_get0 (h.wf0 wd) ⟨by omega, by simp only [Samples.s0, h.e0]; omega, hj0, by simpa [Samples.s0, h.cols] using hj1⟩,
      get_eq_get0 wd ⟨hi.1, hi.2, hj0, hj1⟩]
    exact h.c0 a k hk (by omega) j hj0 hj1
  · intro a k hk j hj0 hj1
    have hi := hin k (List.mem_append_right _ (mem_of_some hk))
    have hl := lt_length_of_some hk
    rw [get_eq_get0 (h.wf1 wd) ⟨by omega, by simp only [Samples.s1, h.e1]; omega, hj0, by simpa [Samples.s1, h.cols] using hj1⟩,
      get_eq_get0 wd ⟨hi.1, hi.2, hj0, hj1⟩]
    exact h.c1 a k hk (by omega) j hj0 hj1

theorem upTo_succ (n : Nat) : upTo 0 ((n : Int) + 1) = upTo 0 n ++ [(n : Int)] := by
  unfold upTo
  rw [show ((n : Int) + 1 - 0).toNat = n + 1 by omega, show ((n : Int) - 0).toNat = n by omega, List.range_succ]
  simp

theorem read_some {l : List α} {k : Nat} {v : α} (h : l[k]? = some v) : Mx.read l k = .ok v :=
  read_eq_ok.2 ⟨by omega, by simpa using h⟩

theorem loop0 {data : Mat α} {len : Nat} {n0 n1 : Int} (wd : data.Wf) (w : List Int) (s : Samples α)
    (h : Filled data len n0 n1 s [] []) (hin : ∀ k ∈ w, 0 ≤ k ∧ k < data.rows) (n : Nat) (hn : (n : Int) ≤ n0)
    (hw : n ≤ w.length) :
    ∃ s', (upTo 0 n).foldlM (fun (s : Samples α) i => do
        let v ← read w i
        s.put0 i data v) s = .ok s' ∧ Filled data len n0 n1 s' (w.take n) [] := by
  induction n with
  | zero => exact ⟨s, rfl, by simpa using h⟩
  | succ n ih =>
    obtain ⟨s1, e1, f1⟩ := ih (by omega) (by omega)
    have hlt : n < w.length := by omega
    have hl : (w.take n).length = n := by simp; omega
    obtain ⟨s2, e2, f2⟩ := put0_step wd f1 (by omega) w[n] (hin _ (List.getElem_mem hlt)).1
      (hin _ (List.getElem_mem hlt)).2
    refine ⟨s2, ?_, ?_⟩
    · rw [Nat.cast_succ, upTo_succ, List.foldlM_append, e1, Outcome.ok_bind, List.foldlM_cons,
        read_some (List.getElem?_eq_getElem hlt), Outcome.ok_bind]
      rw [hl] at e2
      rw [e2]; rfl
    · rw [List.take_add_one, List.getElem?_eq_getElem hlt]; exact f2

theorem loop1 {data : Mat α} {len : Nat} {n0 n1 : Int} (wd : data.Wf) (w : List Int) (s : Samples α) (m : Nat)
    (hm : (m : Int) = n0)
    (h : Filled data len n0 n1 s (w.take m) []) (hin : ∀ k ∈ w, 0 ≤ k ∧ k < data.rows) (n : Nat) (hn : (n : Int) ≤ n1)
    (hw : m + n ≤ w.length) :
    ∃ s', (upTo 0 n).foldlM (fun (s : Samples α) i => do
        let v ← read w (s.n0 + i)
        s.put1 i data v) s = .ok s' ∧ Filled data len n0 n1 s' (w.take m) ((w.drop m).take n) := by
  induction n with
  | zero => exact ⟨s, rfl, by simpa using h⟩
  | succ n ih =>
    obtain ⟨s1, e1, f1⟩ := ih (by omega) (by omega)
    have hlt : m + n < w.length := by omega
    have hl : ((w.drop m).take n).length = n := by simp; omega
    obtain ⟨s2, e2, f2⟩ := put1_step wd f1 (by omega) w[m + n] (hin _ (List.getElem_mem hlt)).1
      (hin _ (List.getElem_mem hlt)).2
    refine ⟨s2, ?_, ?_⟩
    · rw [Nat.cast_succ, upTo_succ, List.foldlM_append, e1, Outcome.ok_bind, List.foldlM_cons, f1.e0, ← hm,
        ← Nat.cast_add, read_some (List.getElem?_eq_getElem hlt), Outcome.ok_bind]
      rw [hl] at e2
      rw [e2]; rfl
    · rw [List.take_add_one, List.getElem?_drop, List.getElem?_eq_getElem hlt]; exact f2

section
variable {K : Type} [Field K] [LinearOrder K] [IsStrictOrderedRing K] [FloorRing K]

/-- **C30**: a training size outside `1 … rows - 1` is rejected; otherwise, whatever the shuffle, every row is
in exactly one of the two samples and the training sample has the requested size. -/
theorem C30_split_is_partition (data : Mat α) (wd : data.Wf) (storage : List α)
    (hs : data.rows * data.cols ≤ storage.length) (ratio : K) (fix : Int) (workI : List Int)
    (hw : workI.Perm (upTo 0 data.rows)) :
    (trainSize data.rows ratio fix ≤ 0 ∨ data.rows ≤ trainSize data.rows ratio fix →
      calculate data storage ratio fix = .throws) ∧
    (0 < trainSize data.rows ratio fix → trainSize data.rows ratio fix < data.rows →
      ∃ s s' I0 I1, calculate data storage ratio fix = .ok s ∧ shuffle s data workI = .ok s' ∧
        IsSplit data s'.s0 s'.s1 (trainSize data.rows ratio fix) I0 I1) := by
  constructor
  · intro h
    unfold calculate
    simp only
    rw [if_pos (by omega)]
  · intro h0 h1
    refine ⟨⟨storage, trainSize data.rows ratio fix, data.rows - trainSize data.rows ratio fix, data.cols⟩, ?_⟩
    generalize hn : trainSize data.rows ratio fix = n0 at *
    have hin : ∀ k ∈ workI, 0 ≤ k ∧ k < data.rows := fun k hk => mem_upTo.1 (hw.mem_iff.1 hk)
    have hlen : (workI.length : Int) = data.rows := by
      rw [hw.length_eq, length_upTo]; have := wd.rows_nonneg; omega
    obtain ⟨s1, e1, f1⟩ := loop0 wd workI _ (Filled.start data storage n0 (by omega) (by omega) hs) hin n0.toNat
      (by omega) (by omega)
    rw [Int.toNat_of_nonneg (by omega)] at e1
    obtain ⟨s2, e2, f2⟩ := loop1 wd workI s1 n0.toNat (by omega) f1 hin (data.rows - n0).toNat (by omega) (by omega)
    rw [Int.toNat_of_nonneg (by omega)] at e2
    refine ⟨s2, _, _, ?_, ?_, f2.isSplit wd ?_ ?_ ?_⟩
    · unfold calculate
      simp only [hn]
      rw [if_neg (by omega)]
    · unfold shuffle
      simp only
      rw [e1, Outcome.ok_bind, f1.e1]
      exact e2
    · simp; omega
    · simp; omega
    · rw [List.take_of_length_le (l := workI.drop _) (by simp; omega), List.take_append_drop]; exact hw

/-- **C30**: the training size is the fixed size when one is given, and otherwise within one half of
`ratio · rows`. -/
theorem C30_train_size (rows : Int) (ratio : K) (fix : Int) :
    (0 < fix → trainSize rows ratio fix = fix) ∧
    (fix ≤ 0 → |(trainSize rows ratio fix : K) - rows * ratio| ≤ 1 / 2) := by
  constructor
  · intro h; unfold trainSize; rw [if_pos h]
  · intro h
    unfold trainSize round
    rw [if_neg (by omega)]
    generalize (rows : K) * ratio = x
    rw [abs_le]
    split_ifs
    · have a := Int.floor_le (x + 1 / 2)
      have b := Int.lt_floor_add_one (x + 1 / 2)
      constructor <;> linarith
    · have a := Int.floor_le (-x + 1 / 2)
      have b := Int.lt_floor_add_one (-x + 1 / 2)
      push_cast
      constructor <;> linarith

end

example : (do
    let s ← calculate (K := Rat) (⟨4, 2, some [0, 1, 2, 3, 10, 11, 12, 13]⟩ : Mat Nat) (List.replicate 8 0) (1 / 2) 0
    let s' ← shuffle s ⟨4, 2, some [0, 1, 2, 3, 10, 11, 12, 13]⟩ [2, 0, 3, 1]
    let a ← s'.s0.get 0 1
    let b ← s'.s1.get 1 0
    pure (a, b)) = Outcome.ok (12, 1) := by decide +kernel

/-! ## C31: the stratified split -/

section Discrete
variable {K : Type} [Field K] [LinearOrder K] [FloorRing K]

/-- The class of row `i`: its first column, converted to an integer. -/
def HasClass (data : Mat K) (i c : Int) : Prop := ∃ y, data.get i 0 = .ok y ∧ trunc y = c

/-- The class as a function (0 outside the memory). -/
def lab (mem : List K) (i : Int) : Int := trunc ((mem[i.toNat]?).getD 0)

theorem lab_of_read {mem : List K} {i : Int} {y : K} (h : Mx.read mem i = .ok y) : lab mem i = trunc y := by
  unfold lab; rw [(read_eq_ok.1 h).2]; rfl

theorem countAt_ok {cs cs' : List Int} {j : Int} (h : countAt cs j = .ok cs') :
    0 ≤ j ∧ j < cs.length ∧ cs'.length = cs.length ∧
    ∀ (c : Nat) x, cs[c]? = some x → cs'[c]? = some (x + if (c : Int) = j then 1 else 0) := by
  unfold countAt at h
  split_ifs at h with h0
  split at h
  · rename_i x hx
    have hl := lt_length_of_some hx
    have := Outcome.ok.inj h
    subst this
    refine ⟨h0, by omega, by simp, ?_⟩
    intro c y hy
    rw [List.getElem?_set]
    by_cases e1 : j.toNat = c
    · subst e1
      rw [hx] at hy
      rw [if_pos rfl, if_pos hl, if_pos (by omega), Option.some.inj hy]
    · rw [if_neg e1, if_neg (by omega), hy]
      simp
  · exact absurd h (by simp)

theorem countAt_in {cs : List Int} {j : Int} (h0 : 0 ≤ j) (h1 : j < cs.length) : ∃ cs', countAt cs j = .ok cs' := by
  unfold countAt
  rw [if_pos h0, List.getElem?_eq_getElem (by omega)]
  exact ⟨_, rfl⟩

theorem pushAt_ok {cs cs' : List (List Int)} {j i : Int} (h : pushAt cs j i = .ok cs') :
    0 ≤ j ∧ j < cs.length ∧ cs'.length = cs.length ∧
    ∀ (c : Nat) x, cs[c]? = some x → cs'[c]? = some (x ++ if (c : Int) = j then [i] else []) := by
  unfold pushAt at h
  split_ifs at h with h0
  split at h
  · rename_i x hx
    have hl := lt_length_of_some hx
    have := Outcome.ok.inj h
    subst this
    refine ⟨h0, by omega, by simp, ?_⟩
    intro c y hy
    rw [List.getElem?_set]
    by_cases e1 : j.toNat = c
    · subst e1
      rw [hx] at hy
      rw [if_pos rfl, if_pos hl, if_pos (by omega), Option.some.inj hy]
    · rw [if_neg e1, if_neg (by omega), hy]
      simp
  · exact absurd h (by simp)

theorem pushAt_in {cs : List (List Int)} {j i : Int} (h0 : 0 ≤ j) (h1 : j < cs.length) :
    ∃ cs', pushAt cs j i = .ok cs' := by
  unfold pushAt
  rw [if_pos h0, List.getElem?_eq_getElem (by omega)]
  exact ⟨_, rfl⟩

theorem countFold_ok (mem : List K) (l : List Int) : ∀ (cs cs' : List Int),
    l.foldlM (fun cs i => do let y ← Mx.read mem i; countAt cs (trunc y)) cs = .ok cs' →
    cs'.length = cs.length ∧ (∀ i ∈ l, (∃ y, Mx.read mem i = .ok y) ∧ 0 ≤ lab mem i ∧ lab mem i < cs.length) ∧
    ∀ (c : Nat) x, cs[c]? = some x → cs'[c]? = some (x + ((l.filter (fun i => decide (lab mem i = c))).length : Int)) := by
  induction l with
  | nil => intro cs cs' h; have := Outcome.ok.inj h; subst this; simp
  | cons i l ih =>
    intro cs cs' h
    rw [List.foldlM_cons] at h
    cases hr : Mx.read mem i with
    | ok y =>
      rw [hr, Outcome.ok_bind] at h
      cases hc : countAt cs (trunc y) with
      | ok cs1 =>
        rw [hc, Outcome.ok_bind] at h
        obtain ⟨a1, a2, a3, a4⟩ := countAt_ok hc
        obtain ⟨b1, b2, b3⟩ := ih cs1 cs' h
        have hlab := lab_of_read hr
        refine ⟨by omega, ?_, ?_⟩
        · intro k hk
          rcases List.mem_cons.1 hk with rfl | hk
          · exact ⟨⟨y, hr⟩, by rw [hlab]; exact a1, by rw [hlab]; exact a2⟩
          · rw [a3] at b2; exact b2 k hk
        · intro c x hx
          rw [b3 c _ (a4 c x hx), List.filter_cons, hlab]
          by_cases e : (c : Int) = trunc y
          · rw [if_pos e, if_pos (by simp [e])]; simp; ring
          · rw [if_neg e, if_neg (by simp; omega)]; simp
      | throws => rw [hc] at h; simp at h
      | ub => rw [hc] at h; simp at h
      | diverges => rw [hc] at h; simp at h
    | throws => rw [hr] at h; simp at h
    | ub => rw [hr] at h; simp at h
    | diverges => rw [hr] at h; simp at h

theorem countFold_in (mem : List K) (l : List Int) : ∀ (cs : List Int),
    (∀ i ∈ l, (∃ y, Mx.read mem i = .ok y) ∧ 0 ≤ lab mem i ∧ lab mem i < cs.length) →
    ∃ cs', l.foldlM (fun cs i => do let y ← Mx.read mem i; countAt cs (trunc y)) cs = .ok cs' := by
  induction l with
  | nil => intro cs _; exact ⟨cs, rfl⟩
  | cons i l ih =>
    intro cs h
    obtain ⟨⟨y, hy⟩, h0, h1⟩ := h i (by simp)
    rw [lab_of_read hy] at h0 h1
    obtain ⟨cs1, hc⟩ := countAt_in h0 h1
    have a3 := (countAt_ok hc).2.2.1
    obtain ⟨cs', e⟩ := ih cs1 (fun k hk => by rw [a3]; exact h k (by simp [hk]))
    exact ⟨cs', by rw [List.foldlM_cons, hy, Outcome.ok_bind, hc, Outcome.ok_bind, e]⟩

theorem pushFold_ok (mem : List K) (l : List Int) : ∀ (cs cs' : List (List Int)),
    l.foldlM (fun cs i => do let y ← Mx.read mem i; pushAt cs (trunc y) i) cs = .ok cs' →
    cs'.length = cs.length ∧
    ∀ (c : Nat) x, cs[c]? = some x → cs'[c]? = some (x ++ (l.filter (fun i => decide (lab mem i = c)))) := by
  induction l with
  | nil => intro cs cs' h; have := Outcome.ok.inj h; subst this; simp
  | cons i l ih =>
    intro cs cs' h
    rw [List.foldlM_cons] at h
    cases hr : Mx.read mem i with
    | ok y =>
      rw [hr, Outcome.ok_bind] at h
      cases hc : pushAt cs (trunc y) i with
      | ok cs1 =>
        rw [hc, Outcome.ok_bind] at h
        obtain ⟨a1, a2, a3, a4⟩ := pushAt_ok hc
        obtain ⟨b1, b3⟩ := ih cs1 cs' h
        have hlab := lab_of_read hr
        refine ⟨by omega, ?_⟩
        intro c x hx
        rw [b3 c _ (a4 c x hx), List.filter_cons, hlab]
        by_cases e : (c : Int) = trunc y
        · rw [if_pos e, if_pos (by simp [e])]; simp
        · rw [if_neg e, if_neg (by simp; omega)]; simp
      | throws => rw [hc] at h; simp at h
      | ub => rw [hc] at h; simp at h
      | diverges => rw [hc] at h; simp at h
    | throws => rw [hr] at h; simp at h
    | ub => rw [hr] at h; simp at h
    | diverges => rw [hr] at h; simp at h

theorem pushFold_in (mem : List K) (l : List Int) : ∀ (cs : List (List Int)),
    (∀ i ∈ l, (∃ y, Mx.read mem i = .ok y) ∧ 0 ≤ lab mem i ∧ lab mem i < cs.length) →
    ∃ cs', l.foldlM (fun cs i => do let y ← Mx.read mem i; pushAt cs (trunc y) i) cs = .ok cs' := by
  induction l with
  | nil => intro cs _; exact ⟨cs, rfl⟩
  | cons i l ih =>
    intro cs h
    obtain ⟨⟨y, hy⟩, h0, h1⟩ := h i (by simp)
    rw [lab_of_read hy] at h0 h1
    obtain ⟨cs1, hc⟩ := pushAt_in (i := i) h0 h1
    have a3 := (pushAt_ok hc).2.2.1
    obtain ⟨cs', e⟩ := ih cs1 (fun k hk => by rw [a3]; exact h k (by simp [hk]))
    exact ⟨cs', by rw [List.foldlM_cons, hy, Outcome.ok_bind, hc, Outcome.ok_bind, e]⟩

/-- The rows of class `c`. -/
def rowsOf (data : Mat K) (c : Nat) : List Int := (upTo 0 data.rows).filter (fun i => decide (lab data.mem i = c))

/-- What the first step prepares. -/
structure Prepared (data : Mat K) (storage : List K) (ratio : K) (fix : Int) (n : Nat) (st : Strata K K) : Prop where
  samples : st.samples = ⟨storage, trainSize data.rows ratio fix, data.rows - trainSize data.rows ratio fix, data.cols⟩
  ratio : st.ratio = ratio
  counts : ∀ c : Nat, c < n → st.counts[c]? = some ((rowsOf data c).length : Int)
  rows : ∀ c : Nat, c < n → st.rows[c]? = some (rowsOf data c)
  order : st.order.Perm (List.range n)
  pos : ∀ c : Nat, c < n → rowsOf data c ≠ []
  labels : ∀ i ∈ upTo 0 data.rows, 0 ≤ lab data.mem i ∧ lab data.mem i < n

theorem sortCounts (counts : List Int) :
    ∃ o, Arr.sortIndexes (counts.map some) true = .ok o ∧ o.Perm (List.range counts.length) := by
  refine ⟨Arr.stableSort (Arr.indexLt (counts.map some) true) (List.range (counts.map some).length), ?_, ?_⟩
  · unfold Arr.sortIndexes
    rw [if_pos (by simp [Arr.swo])]
  · simpa using Arr.stableSort_perm (Arr.indexLt (counts.map some) true) (List.range (counts.map some).length)

theorem calculateD_ok (n : Nat) (data : Mat K) (storage : List K) (ratio : K) (fix : Int) (st : Strata K K)
    (h : calculateD n data storage ratio fix = .ok st) : Prepared data storage ratio fix n st := by
  unfold calculateD at h
  simp only at h
  cases hc : (upTo 0 data.rows).foldlM (fun cs i => do let y ← Mx.read data.mem i; countAt cs (trunc y))
      (List.replicate n (0 : Int)) with
  | ok counts =>
    rw [hc, Outcome.ok_bind] at h
    obtain ⟨c1, c2, c3⟩ := countFold_ok _ _ _ _ hc
    split_ifs at h with hz
    cases hp : (upTo 0 data.rows).foldlM (fun rs i => do let y ← Mx.read data.mem i; pushAt rs (trunc y) i)
      (List.replicate n ([] : List Int)) with
    | ok rows =>
      rw [hp, Outcome.ok_bind] at h
      obtain ⟨p1, p2⟩ := pushFold_ok _ _ _ _ hp
      obtain ⟨o, ho, hperm⟩ := sortCounts counts
      rw [ho, Outcome.ok_bind] at h
      have := Outcome.ok.inj h
      subst this
      have hl : counts.length = n := by simpa using c1
      have hcnt : ∀ c : Nat, c < n → counts[c]? = some ((rowsOf data c).length : Int) := by
        intro c hcn
        have := c3 c 0 (by simp [hcn])
        simpa [rowsOf] using this
      refine ⟨rfl, rfl, hcnt, ?_, by rw [hl] at hperm; exact hperm, ?_, ?_⟩
      · intro c hcn
        have := p2 c [] (by simp [hcn])
        simpa [rowsOf] using this
      · intro c hcn he
        apply hz
        have := hcnt c hcn
        rw [he] at this
        rw [List.any_eq_true]
        exact ⟨_, mem_of_some this, by simp⟩
      · intro i hi
        have := c2 i hi
        simpa using this.2
    | throws => rw [hp] at h; simp at h
    | ub => rw [hp] at h; simp at h
    | diverges => rw [hp] at h; simp at h
  | throws => rw [hc] at h; simp at h
  | ub => rw [hc] at h; simp at h
  | diverges => rw [hc] at h; simp at h

theorem calculateD_in (n : Nat) (data : Mat K) (storage : List K) (ratio : K) (fix : Int)
    (hl : ∀ i ∈ upTo 0 data.rows, (∃ y, Mx.read data.mem i = .ok y) ∧ 0 ≤ lab data.mem i ∧ lab data.mem i < n)
    (hpos : ∀ c : Nat, c < n → rowsOf data c ≠ []) :
    ∃ st, calculateD n data storage ratio fix = .ok st := by
  obtain ⟨counts, hc⟩ := countFold_in data.mem (upTo 0 data.rows) (List.replicate n (0 : Int)) (by simpa using hl)
  obtain ⟨rows, hp⟩ := pushFold_in data.mem (upTo 0 data.rows) (List.replicate n ([] : List Int)) (by simpa using hl)
  obtain ⟨c1, c2, c3⟩ := countFold_ok _ _ _ _ hc
  obtain ⟨o, ho, hperm⟩ := sortCounts counts
  have hnz : ¬ (counts.any (fun c => c == 0)) = true := by
    rw [List.any_eq_true]
    rintro ⟨x, hx, hx0⟩
    obtain ⟨c, hcn⟩ := List.mem_iff_getElem?.1 hx
    have hcl := lt_length_of_some hcn
    have hlen : counts.length = n := by simpa using c1
    have := c3 c 0 (by rw [List.getElem?_replicate, if_pos (by omega)])
    rw [hcn] at this
    have hx1 : x = 0 := by simpa using hx0
    have h2 := Option.some.inj this
    apply hpos c (by omega)
    unfold rowsOf
    exact List.eq_nil_of_length_eq_zero (by omega)
  exact ⟨⟨⟨storage, trainSize data.rows ratio fix, data.rows - trainSize data.rows ratio fix, data.cols⟩, counts, rows,
    o, ratio⟩, by
    unfold calculateD
    simp only
    rw [hc, Outcome.ok_bind, if_neg hnz, hp, Outcome.ok_bind, ho, Outcome.ok_bind]
    rfl⟩

/-! ### Filling -/

/-- State of the filling loops after the rows `I0` and `I1` were placed. -/
structure FillInv (data : Mat K) (len : Nat) (n0 n1 : Int) (f : Fill K) (I0 I1 : List Int) : Prop where
  filled : Filled data len n0 n1 f.s I0 I1
  ii : f.ii = I0.length
  jj : f.jj = I1.length

theorem place0_fold {data : Mat K} {len : Nat} {n0 n1 : Int} (wd : data.Wf) (rowi : List Int)
    (hr : ∀ k ∈ rowi, 0 ≤ k ∧ k < data.rows) (ws : List Int) : ∀ (f : Fill K) (I0 I1 : List Int),
    (∀ w ∈ ws, 0 ≤ w ∧ w < rowi.length) → FillInv data len n0 n1 f I0 I1 →
    (I0.length : Int) + ws.length ≤ n0 →
    ∃ f', (ws.map (fun w => (false, w))).foldlM (place data rowi) f = .ok f' ∧
      FillInv data len n0 n1 f' (I0 ++ ws.map (fun w => (rowi[w.toNat]?).getD 0)) I1 := by
  induction ws with
  | nil => intro f I0 I1 _ hf _; exact ⟨f, rfl, by simpa using hf⟩
  | cons w ws ih =>
    intro f I0 I1 hw hf hn
    simp only [List.length_cons, Nat.cast_add, Nat.cast_one] at hn
    obtain ⟨w0, w1⟩ := hw w (by simp)
    have hlt : w.toNat < rowi.length := by omega
    obtain ⟨k0, k1⟩ := hr _ (List.getElem_mem hlt)
    obtain ⟨s', e, fl⟩ := put0_step wd hf.filled (by omega) _ k0 k1
    obtain ⟨f', e', fl'⟩ := ih ⟨s', f.ii + 1, f.jj⟩ (I0 ++ [rowi[w.toNat]]) I1 (fun x hx => hw x (by simp [hx]))
      ⟨fl, by simp [hf.ii], hf.jj⟩ (by simp; omega)
    refine ⟨f', ?_, ?_⟩
    · rw [List.map_cons, List.foldlM_cons]
      have : place data rowi f (false, w) = .ok ⟨s', f.ii + 1, f.jj⟩ := by
        unfold place
        simp only [List.getElem?_eq_getElem hlt]
        rw [if_neg (by simp), hf.ii, e]; rfl
      rw [this, Outcome.ok_bind, e']
    · rw [List.map_cons, List.getElem?_eq_getElem hlt]
      simpa using fl'

theorem place1_fold {data : Mat K} {len : Nat} {n0 n1 : Int} (wd : data.Wf) (rowi : List Int)
    (hr : ∀ k ∈ rowi, 0 ≤ k ∧ k < data.rows) (ws : List Int) : ∀ (f : Fill K) (I0 I1 : List Int),
    (∀ w ∈ ws, 0 ≤ w ∧ w < rowi.length) → FillInv data len n0 n1 f I0 I1 →
    (I1.length : Int) + ws.length ≤ n1 →
    ∃ f', (ws.map (fun w => (true, w))).foldlM (place data rowi) f = .ok f' ∧
      FillInv data len n0 n1 f' I0 (I1 ++ ws.map (fun w => (rowi[w.toNat]?).getD 0)) := by
  induction ws with
  | nil => intro f I0 I1 _ hf _; exact ⟨f, rfl, by simpa using hf⟩
  | cons w ws ih =>
    intro f I0 I1 hw hf hn
    simp only [List.length_cons, Nat.cast_add, Nat.cast_one] at hn
    obtain ⟨w0, w1⟩ := hw w (by simp)
    have hlt : w.toNat < rowi.length := by omega
    obtain ⟨k0, k1⟩ := hr _ (List.getElem_mem hlt)
    obtain ⟨s', e, fl⟩ := put1_step wd hf.filled (by omega) _ k0 k1
    obtain ⟨f', e', fl'⟩ := ih ⟨s', f.ii, f.jj + 1⟩ I0 (I1 ++ [rowi[w.toNat]]) (fun x hx => hw x (by simp [hx]))
      ⟨fl, hf.ii, by simp [hf.jj]⟩ (by simp; omega)
    refine ⟨f', ?_, ?_⟩
    · rw [List.map_cons, List.foldlM_cons]
      have : place data rowi f (true, w) = .ok ⟨s', f.ii, f.jj + 1⟩ := by
        unfold place
        simp only [List.getElem?_eq_getElem hlt]
        rw [if_pos (by simp), hf.jj, e]; rfl
      rw [this, Outcome.ok_bind, e']
    · rw [List.map_cons, List.getElem?_eq_getElem hlt]
      simpa using fl'

/-- The sizes planned for the classes `l` (in this order, the last one takes the rest) are possible when
`sumM` training rows have already been chosen. -/
def Feasible (data : Mat K) (ratio : K) (n0 : Int) : List Nat → Int → Prop
  | [], _ => False
  | [a], sumM => 0 < n0 - sumM ∧ n0 - sumM ≤ (rowsOf data a).length
  | a :: b :: rest, sumM => 0 ≤ stratumSize ratio (rowsOf data a).length ∧
      Feasible data ratio n0 (b :: rest) (sumM + stratumSize ratio (rowsOf data a).length)

theorem stratumSize_le (ratio : K) (mi : Int) (h : 1 ≤ mi) : stratumSize ratio mi ≤ mi := by
  unfold stratumSize
  simp only
  split_ifs <;> omega

theorem stratumSize_ne (ratio : K) (mi : Int) : stratumSize ratio mi ≠ 0 := by
  unfold stratumSize
  simp only
  split_ifs <;> omega

theorem feasible_bounds (data : Mat K) (ratio : K) (n0 : Int) (l : List Nat)
    (hpos : ∀ c ∈ l, rowsOf data c ≠ []) : ∀ sumM, Feasible data ratio n0 l sumM →
    sumM < n0 ∧ n0 - sumM ≤ ((l.flatMap (rowsOf data)).length : Int) := by
  induction l with
  | nil => intro s h; exact absurd h (by simp [Feasible])
  | cons a rest ih =>
    intro s h
    cases rest with
    | nil => obtain ⟨h1, h2⟩ := h; refine ⟨by omega, by simpa using h2⟩
    | cons b rest =>
      obtain ⟨h1, h2⟩ := h
      obtain ⟨i1, i2⟩ := ih (fun c hc => hpos c (by simp [hc])) _ h2
      have hp : 1 ≤ ((rowsOf data a).length : Int) := by
        have := List.length_pos_iff.2 (hpos a (by simp)); omega
      have := stratumSize_le ratio _ hp
      rw [List.flatMap_cons, List.length_append]
      push_cast
      exact ⟨by omega, by omega⟩

theorem perm_lookup (rowi w : List Int) (hw : w.Perm (upTo 0 rowi.length)) :
    (w.map (fun w => (rowi[w.toNat]?).getD 0)).Perm rowi := by
  refine (hw.map _).trans (List.Perm.of_eq ?_)
  unfold upTo
  apply List.ext_getElem?
  intro k
  simp only [List.getElem?_map]
  by_cases hk : k < rowi.length
  · rw [List.getElem?_range (by omega)]; simp [hk]
  · rw [List.getElem?_eq_none (by simp; omega)]; simp; omega

/-- What the loop over the classes adds to the two samples. -/
structure Added (data : Mat K) (ratio : K) (l : List Nat) (n0 : Int) (I0 I1 I0' I1' : List Int) : Prop where
  perm : (I0' ++ I1').Perm ((I0 ++ I1) ++ l.flatMap (rowsOf data))
  size : (I0'.length : Int) = n0
  parts : ∃ parts : List (List Int), I0' = I0 ++ parts.flatten ∧ parts.length = l.length ∧
    ∀ (i : Nat) a p, l[i]? = some a → parts[i]? = some p → p ≠ [] ∧ (∀ k ∈ p, k ∈ rowsOf data a) ∧
      (i + 1 < l.length → (p.length : Int) = stratumSize ratio (rowsOf data a).length)

theorem rowsOf_in (data : Mat K) (c : Nat) : ∀ k ∈ rowsOf data c, 0 ≤ k ∧ k < data.rows := by
  intro k hk
  exact mem_upTo.1 (List.mem_of_mem_filter hk)

/-- One class. -/
theorem class_step {data : Mat K} {len : Nat} {n0 n1 : Int} (wd : data.Wf) (a : Nat) (w : List Int)
    (hw : w.Perm (upTo 0 (rowsOf data a).length)) (m : Int) (h0 : 0 < m) (h1 : m ≤ (rowsOf data a).length)
    (f : Fill K) (I0 I1 : List Int) (hf : FillInv data len n0 n1 f I0 I1)
    (hb0 : (I0.length : Int) + m ≤ n0) (hb1 : (I1.length : Int) + ((rowsOf data a).length - m) ≤ n1) :
    ∃ f1 f2 J0 J1, ((w.take m.toNat).map (fun w => (false, w))).foldlM (place data (rowsOf data a)) f = .ok f1 ∧
      ((w.drop m.toNat).map (fun w => (true, w))).foldlM (place data (rowsOf data a)) f1 = .ok f2 ∧
      FillInv data len n0 n1 f2 (I0 ++ J0) (I1 ++ J1) ∧ (J0 ++ J1).Perm (rowsOf data a) ∧ (J0.length : Int) = m := by
  have hwl : w.length = (rowsOf data a).length := by rw [hw.length_eq, length_upTo]; omega
  have hin : ∀ x ∈ w, 0 ≤ x ∧ x < (rowsOf data a).length := fun x hx => mem_upTo.1 (hw.mem_iff.1 hx)
  have htl : (w.take m.toNat).length = m.toNat := by simp; omega
  obtain ⟨f1, e1, i1⟩ := place0_fold wd (rowsOf data a) (rowsOf_in data a) (w.take m.toNat) f I0 I1
    (fun x hx => hin x (List.mem_of_mem_take hx)) hf (by rw [htl]; omega)
  obtain ⟨f2, e2, i2⟩ := place1_fold wd (rowsOf data a) (rowsOf_in data a) (w.drop m.toNat) f1 _ I1
    (fun x hx => hin x (List.mem_of_mem_drop hx)) i1 (by simp; omega)
  refine ⟨f1, f2, _, _, e1, e2, i2, ?_, by rw [List.length_map, htl]; omega⟩
  rw [← List.map_append, List.take_append_drop]
  exact perm_lookup _ _ hw

theorem perm_aux (A B J0 J1 : List Int) : ((A ++ J0) ++ (B ++ J1)).Perm ((A ++ B) ++ (J0 ++ J1)) := by
  rw [List.append_assoc, List.append_assoc]
  apply List.Perm.append_left
  rw [← List.append_assoc, ← List.append_assoc]
  exact List.perm_append_comm.append_right _

theorem classLoop_in {data : Mat K} {len : Nat} {n0 n1 : Int} (wd : data.Wf) (st : Strata K K) (ratio : K)
    (hratio : st.ratio = ratio) (workI : Nat → List Int) (l : List Nat)
    (hw : ∀ a ∈ l, (workI a).Perm (upTo 0 (rowsOf data a).length))
    (hc : ∀ a ∈ l, st.counts[a]? = some ((rowsOf data a).length : Int))
    (hr : ∀ a ∈ l, st.rows[a]? = some (rowsOf data a)) (hpos : ∀ a ∈ l, rowsOf data a ≠ []) :
    ∀ (f : Fill K) (I0 I1 : List Int), FillInv data len n0 n1 f I0 I1 →
    Feasible data ratio n0 l I0.length →
    ((I0 ++ I1).length : Int) + (l.flatMap (rowsOf data)).length = n0 + n1 →
    ∃ f' I0' I1', classLoop data st n0 workI l I0.length f = .ok f' ∧ FillInv data len n0 n1 f' I0' I1' ∧
      Added data ratio l n0 I0 I1 I0' I1' := by
  induction l with
  | nil => intro f I0 I1 _ h; exact absurd h (by simp [Feasible])
  | cons a rest ih =>
    intro f I0 I1 hf hfe hsum
    have hca := hc a (by simp)
    have hra := hr a (by simp)
    have hp : 1 ≤ ((rowsOf data a).length : Int) := by
      have := List.length_pos_iff.2 (hpos a (by simp)); omega
    rw [List.flatMap_cons, List.length_append, List.length_append] at hsum
    push_cast at hsum
    cases rest with
    | nil =>
      obtain ⟨h1, h2⟩ := hfe
      simp at hsum
      obtain ⟨f1, f2, J0, J1, e1, e2, i2, hpm, hl⟩ := class_step wd a (workI a) (hw a (by simp)) (n0 - I0.length) h1 h2
        f I0 I1 hf (by omega) (by omega)
      refine ⟨f2, _, _, ?_, i2, ⟨?_, by simp; omega, ⟨[J0], by simp, by simp, ?_⟩⟩⟩
      · unfold classLoop
        rw [hca, hra]
        simp only [Outcome.ofOption_some, Outcome.ok_bind, List.isEmpty_nil, if_true]
        rw [if_neg (by omega), if_neg (by omega)]
        simp only [Outcome.pure_eq, Outcome.ok_bind]
        rw [if_neg (by omega), e1, Outcome.ok_bind, e2, Outcome.ok_bind]
        rfl
      · refine (perm_aux I0 I1 J0 J1).trans ?_
        simpa using hpm.append_left (I0 ++ I1)
      · intro i c q hc' hq
        cases i with
        | zero =>
          simp at hc' hq; subst hc' hq
          exact ⟨by rintro rfl; simp at hl; omega, fun k hk => hpm.mem_iff.1 (by simp [hk]), by simp⟩
        | succ i => simp at hc'
    | cons b rest =>
      obtain ⟨h1, h2⟩ := hfe
      obtain ⟨q1, q2⟩ := feasible_bounds data ratio n0 (b :: rest) (fun c hc => hpos c (by simp [hc])) _ h2
      have hle := stratumSize_le ratio _ hp
      have hne := stratumSize_ne ratio ((rowsOf data a).length : Int)
      obtain ⟨f1, f2, J0, J1, e1, e2, i2, hpm, hl⟩ := class_step wd a (workI a) (hw a (by simp))
        (stratumSize ratio (rowsOf data a).length) (by omega) hle f I0 I1 hf (by omega) (by omega)
      have hl2 : ((I0 ++ J0).length : Int) = I0.length + stratumSize ratio (rowsOf data a).length := by
        simp; omega
      have hJ := hpm.length_eq
      rw [List.length_append] at hJ
      obtain ⟨f', I0', I1', e, inv, ad⟩ := ih (fun x hx => hw x (by simp [hx])) (fun x hx => hc x (by simp [hx]))
        (fun x hx => hr x (by simp [hx])) (fun x hx => hpos x (by simp [hx])) f2 (I0 ++ J0) (I1 ++ J1) i2
        (by rw [hl2]; exact h2) (by simp only [List.length_append] at *; push_cast; omega)
      refine ⟨f', I0', I1', ?_, inv, ⟨?_, ad.size, ?_⟩⟩
      · unfold classLoop
        rw [hca, hra]
        simp only [Outcome.ofOption_some, Outcome.ok_bind, List.isEmpty_cons, Bool.false_eq_true, if_false, hratio,
          Outcome.pure_eq]
        rw [if_neg (by omega), e1, Outcome.ok_bind, e2, Outcome.ok_bind, ← hl2, e]
      · refine ad.perm.trans ?_
        rw [List.flatMap_cons (x := a), ← List.append_assoc (I0 ++ I1)]
        apply List.Perm.append_right
        exact (perm_aux I0 I1 J0 J1).trans (hpm.append_left (I0 ++ I1))
      · obtain ⟨parts, p1, p2, p3⟩ := ad.parts
        refine ⟨J0 :: parts, by rw [p1]; simp, by simp [p2], ?_⟩
        intro i c q hc' hq
        cases i with
        | zero =>
          simp at hc' hq; subst hc' hq
          exact ⟨by rintro rfl; simp at hl; omega, fun k hk => hpm.mem_iff.1 (by simp [hk]), fun _ => hl⟩
        | succ i =>
          simp only [List.getElem?_cons_succ] at hc' hq
          have := p3 i c q hc' hq
          exact ⟨this.1, this.2.1, fun hi => this.2.2 (by simp at hi ⊢; omega)⟩

theorem classLoop_ok {data : Mat K} {n0 : Int} (st : Strata K K) (ratio : K)
    (hratio : st.ratio = ratio) (workI : Nat → List Int) (l : List Nat) (hne : l ≠ [])
    (hc : ∀ a ∈ l, st.counts[a]? = some ((rowsOf data a).length : Int)) :
    ∀ (sumM : Int) (f f' : Fill K), classLoop data st n0 workI l sumM f = .ok f' → Feasible data ratio n0 l sumM := by
  induction l with
  | nil => exact absurd rfl hne
  | cons a rest ih =>
    intro sumM f f' h
    unfold classLoop at h
    rw [hc a (by simp)] at h
    simp only [Outcome.ofOption_some, Outcome.ok_bind] at h
    cases hr : st.rows[a]? with
    | none => rw [hr] at h; simp at h
    | some rowi =>
      rw [hr] at h
      simp only [Outcome.ofOption_some, Outcome.ok_bind] at h
      cases rest with
      | nil =>
        simp only [List.isEmpty_nil, if_true] at h
        split_ifs at h with h1 h2
        · simp at h
        · simp at h
        · exact ⟨by omega, by omega⟩
      | cons b rest =>
        simp only [List.isEmpty_cons, Bool.false_eq_true, if_false, hratio, Outcome.pure_eq, Outcome.ok_bind] at h
        split_ifs at h with h1
        refine ⟨by omega, ?_⟩
        cases e1 : ((workI a).take (stratumSize ratio (rowsOf data a).length).toNat |>.map (fun w => (false, w))).foldlM
            (place data rowi) f with
        | ok f1 =>
          rw [e1, Outcome.ok_bind] at h
          cases e2 : ((workI a).drop (stratumSize ratio (rowsOf data a).length).toNat |>.map (fun w => (true, w))).foldlM
            (place data rowi) f1 with
          | ok f2 =>
            rw [e2, Outcome.ok_bind] at h
            exact ih (by simp) (fun x hx => hc x (by simp [hx])) _ _ _ h
          | throws => rw [e2] at h; simp at h
          | ub => rw [e2] at h; simp at h
          | diverges => rw [e2] at h; simp at h
        | throws => rw [e1] at h; simp at h
        | ub => rw [e1] at h; simp at h
        | diverges => rw [e1] at h; simp at h

theorem flatMap_rowsOf (data : Mat K) (n : Nat) (order : List Nat) (ho : order.Perm (List.range n))
    (hl : ∀ i ∈ upTo 0 data.rows, 0 ≤ lab data.mem i ∧ lab data.mem i < n) :
    (order.flatMap (rowsOf data)).Perm (upTo 0 data.rows) := by
  have hnd : (upTo 0 data.rows).Nodup := by
    unfold upTo
    exact List.nodup_range.map (fun a b h => by simpa using h)
  apply (List.perm_ext_iff_of_nodup ?_ hnd).2
  · intro k
    rw [List.mem_flatMap]
    constructor
    · rintro ⟨a, -, hk⟩; exact List.mem_of_mem_filter hk
    · intro hk
      obtain ⟨h0, h1⟩ := hl k hk
      refine ⟨(lab data.mem k).toNat, ho.mem_iff.2 (List.mem_range.2 (by omega)), ?_⟩
      unfold rowsOf
      rw [List.mem_filter]
      exact ⟨hk, by simp; omega⟩
  · rw [List.nodup_flatMap]
    refine ⟨fun a _ => hnd.filter _, ?_⟩
    have : order.Nodup := ho.nodup_iff.2 List.nodup_range
    refine this.imp ?_
    intro a b hab
    unfold Function.onFun
    rw [List.disjoint_left]
    intro k ha hb
    unfold rowsOf at ha hb
    rw [List.mem_filter] at ha hb
    simp at ha hb
    omega

theorem hasClass_of_rowsOf {data : Mat K} (wd : data.Wf) (hcol : 0 < data.cols) {a : Nat} {k : Int}
    (h : k ∈ rowsOf data a) : HasClass data k a := by
  have hin := rowsOf_in data a k h
  obtain ⟨y, hy⟩ := get0_ok wd (i := k) (j := 0) ⟨hin.1, hin.2, by omega, hcol⟩
  refine ⟨y, by rw [get_eq_get0 wd ⟨hin.1, hin.2, by omega, hcol⟩]; exact hy, ?_⟩
  unfold Mat.get0 at hy
  rw [mul_zero, add_zero] at hy
  rw [← lab_of_read hy]
  have := (List.mem_filter.1 h).2
  simpa using this

/-- The common part of the two C31 theorems. -/
theorem c31_core (n : Nat) (data : Mat K) (wd : data.Wf)
    (storage : List K) (hs : data.rows * data.cols ≤ storage.length) (ratio : K) (fix : Int)
    (workI : Nat → List Int) (st : Strata K K) (hp : Prepared data storage ratio fix n st)
    (hw : ∀ (c : Nat) m, st.counts[c]? = some m → (workI c).Perm (upTo 0 m))
    (hfe : Feasible data ratio (trainSize data.rows ratio fix) st.order 0) :
    ∃ s I0 I1, shuffleD data st workI = .ok s ∧ IsSplit data s.s0 s.s1 (trainSize data.rows ratio fix) I0 I1 ∧
      ∃ parts : List (List Int), I0 = parts.flatten ∧ parts.length = n ∧
        ∀ (i : Nat) c p, st.order[i]? = some c → parts[i]? = some p → p ≠ [] ∧ (∀ k ∈ p, k ∈ rowsOf data c) ∧
          (i + 1 < n → (p.length : Int) = stratumSize ratio (rowsOf data c).length) := by
  have hmem : ∀ a ∈ st.order, a < n := fun a ha => List.mem_range.1 (hp.order.mem_iff.1 ha)
  have hww : ∀ a ∈ st.order, (workI a).Perm (upTo 0 (rowsOf data a).length) :=
    fun a ha => hw a _ (hp.counts a (hmem a ha))
  unfold shuffleD
  rw [hp.samples]
  simp only
  generalize hN : trainSize data.rows ratio fix = n0 at *
  have hflat := flatMap_rowsOf data n st.order hp.order hp.labels
  have hfl := hflat.length_eq
  rw [length_upTo] at hfl
  have hrn := wd.rows_nonneg
  obtain ⟨g1, g2⟩ := feasible_bounds data ratio n0 st.order (fun a ha => hp.pos a (hmem a ha)) _ hfe
  obtain ⟨f, I0, I1, e, inv, ad⟩ := classLoop_in wd st ratio hp.ratio workI st.order hww
    (fun a ha => hp.counts a (hmem a ha)) (fun a ha => hp.rows a (hmem a ha)) (fun a ha => hp.pos a (hmem a ha))
    ⟨⟨storage, n0, data.rows - n0, data.cols⟩, 0, 0⟩ [] []
    ⟨Filled.start data storage n0 (by omega) (by omega) hs, by simp, by simp⟩ (by simpa using hfe)
    (by simp only [List.append_nil, List.length_nil]; omega)
  simp only [List.length_nil, Nat.cast_zero] at e
  have hperm : (I0 ++ I1).Perm (upTo 0 data.rows) := ad.perm.trans (by simpa using hflat)
  have hlen := hperm.length_eq
  rw [List.length_append, length_upTo] at hlen
  obtain ⟨parts, p1, p2, p3⟩ := ad.parts
  have hol : st.order.length = n := by simpa using hp.order.length_eq
  refine ⟨f.s, I0, I1, by rw [e]; rfl, inv.filled.isSplit wd ad.size ?_ hperm, parts, by simpa using p1, by omega, ?_⟩
  · have := ad.size; omega
  · rw [hol] at p3; exact p3

theorem shuffleD_feasible (n : Nat) (hn : 0 < n) (data : Mat K) (storage : List K) (ratio : K) (fix : Int)
    (workI : Nat → List Int) (st : Strata K K) (hp : Prepared data storage ratio fix n st) (s : Samples K)
    (h2 : shuffleD data st workI = .ok s) : Feasible data ratio (trainSize data.rows ratio fix) st.order 0 := by
  have hmem : ∀ a ∈ st.order, a < n := fun a ha => List.mem_range.1 (hp.order.mem_iff.1 ha)
  have hne : st.order ≠ [] := by
    intro e
    have := hp.order.length_eq
    rw [e] at this; simp at this; omega
  unfold shuffleD at h2
  rw [hp.samples] at h2
  simp only at h2
  cases he : classLoop data st (trainSize data.rows ratio fix) workI st.order 0
      ⟨⟨storage, trainSize data.rows ratio fix, data.rows - trainSize data.rows ratio fix, data.cols⟩, 0, 0⟩ with
  | ok f =>
    exact classLoop_ok st ratio hp.ratio workI st.order hne (fun a ha => hp.counts a (hmem a ha)) _ _ _ he
  | throws => rw [he] at h2; simp at h2
  | ub => rw [he] at h2; simp at h2
  | diverges => rw [he] at h2; simp at h2

/-- **C31** (what a stratified split gives): whenever it succeeds, and whatever the shuffles, every row is in
exactly one sample, the training sample has the requested size, and every class occurs in it.  Missing from the
full claim: it does not always end in success or an exception (see the violations). -/
theorem C31_stratified_split_partial (n : Nat) (hn : 0 < n) (data : Mat K) (wd : data.Wf) (hcol : 0 < data.cols)
    (storage : List K) (hs : data.rows * data.cols ≤ storage.length) (ratio : K) (fix : Int)
    (workI : Nat → List Int) (st : Strata K K) (s : Samples K)
    (hw : ∀ (c : Nat) m, st.counts[c]? = some m → (workI c).Perm (upTo 0 m))
    (h1 : calculateD n data storage ratio fix = .ok st) (h2 : shuffleD data st workI = .ok s) :
    ∃ I0 I1, IsSplit data s.s0 s.s1 (trainSize data.rows ratio fix) I0 I1 ∧
      ∀ c : Nat, c < n → ∃ k ∈ I0, HasClass data k c := by
  have hp := calculateD_ok n data storage ratio fix st h1
  have hfe := shuffleD_feasible n hn data storage ratio fix workI st hp s h2
  obtain ⟨s', I0, I1, e, sp, parts, p1, p2, p3⟩ := c31_core n data wd storage hs ratio fix workI st hp hw hfe
  have := Outcome.ok.inj (e.symm.trans h2)
  subst this
  refine ⟨I0, I1, sp, ?_⟩
  intro c hc
  have hol : st.order.length = n := by simpa using hp.order.length_eq
  obtain ⟨i, hi⟩ := List.mem_iff_getElem?.1 (hp.order.mem_iff.2 (List.mem_range.2 hc))
  have hil := lt_length_of_some hi
  have hq : parts[i]? = some parts[i] := List.getElem?_eq_getElem (by omega)
  obtain ⟨q1, q2, -⟩ := p3 i c _ hi hq
  obtain ⟨k, hk⟩ := List.exists_mem_of_ne_nil _ q1
  exact ⟨k, by rw [p1]; exact List.mem_flatten.2 ⟨_, mem_of_some hq, hk⟩, hasClass_of_rowsOf wd hcol (q2 k hk)⟩

/-- **C31** (when it succeeds, and the size of each class): after the preparation, the split succeeds exactly when
the planned class sizes fit; the training rows then come class by class, and every class but the last of the
order has `round(ratio · size)` of them, at least one and, for classes of two rows or more, not all. -/
theorem C31_class_sizes (n : Nat) (hn : 0 < n) (data : Mat K) (wd : data.Wf) (hcol : 0 < data.cols)
    (storage : List K) (hs : data.rows * data.cols ≤ storage.length) (ratio : K) (fix : Int)
    (workI : Nat → List Int) (st : Strata K K)
    (hw : ∀ (c : Nat) m, st.counts[c]? = some m → (workI c).Perm (upTo 0 m))
    (h1 : calculateD n data storage ratio fix = .ok st) :
    ((∃ s, shuffleD data st workI = .ok s) ↔ Feasible data ratio (trainSize data.rows ratio fix) st.order 0) ∧
    ∀ s, shuffleD data st workI = .ok s → ∃ (I1 : List Int) (parts : List (List Int)),
      IsSplit data s.s0 s.s1 (trainSize data.rows ratio fix) parts.flatten I1 ∧ parts.length = n ∧
      ∀ (i : Nat) c p, st.order[i]? = some c → parts[i]? = some p → p ≠ [] ∧ (∀ k ∈ p, HasClass data k c) ∧
        (i + 1 < n → ∃ m, st.counts[c]? = some m ∧ (p.length : Int) = stratumSize ratio m) := by
  have hp := calculateD_ok n data storage ratio fix st h1
  have hmem : ∀ a ∈ st.order, a < n := fun a ha => List.mem_range.1 (hp.order.mem_iff.1 ha)
  refine ⟨⟨fun ⟨s, h2⟩ => shuffleD_feasible n hn data storage ratio fix workI st hp s h2, fun hfe => ?_⟩, ?_⟩
  · obtain ⟨s', I0, I1, e, -⟩ := c31_core n data wd storage hs ratio fix workI st hp hw hfe
    exact ⟨s', e⟩
  · intro s h2
    have hfe := shuffleD_feasible n hn data storage ratio fix workI st hp s h2
    obtain ⟨s', I0, I1, e, sp, parts, p1, p2, p3⟩ := c31_core n data wd storage hs ratio fix workI st hp hw hfe
    have := Outcome.ok.inj (e.symm.trans h2)
    subst this
    subst p1
    refine ⟨I1, parts, sp, p2, ?_⟩
    intro i c p hc hpp
    obtain ⟨q1, q2, q3⟩ := p3 i c p hc hpp
    exact ⟨q1, fun k hk => hasClass_of_rowsOf wd hcol (q2 k hk),
      fun hi => ⟨_, hp.counts c (hmem c (mem_of_some hc)), q3 hi⟩⟩

/-- The planned size of a class of two or more rows is within one of `ratio · size`, and neither 0 nor all. -/
theorem C31_stratum_size [IsStrictOrderedRing K] (ratio : K) (m : Int) (hm : 2 ≤ m) (h0 : 0 ≤ ratio) (h1 : ratio ≤ 1) :
    1 ≤ stratumSize ratio m ∧ stratumSize ratio m ≤ m - 1 ∧ |(stratumSize ratio m : K) - ratio * m| ≤ 1 := by
  have hmK : (2 : K) ≤ (m : K) := by exact_mod_cast hm
  have hx0 : 0 ≤ ratio * (m : K) := mul_nonneg h0 (by linarith)
  have hx1 : ratio * (m : K) ≤ m := by nlinarith
  have hr : round (ratio * (m : K)) = ⌊ratio * (m : K) + 1 / 2⌋ := by unfold round; rw [if_pos hx0]
  have a := Int.floor_le (ratio * (m : K) + 1 / 2)
  have b := Int.lt_floor_add_one (ratio * (m : K) + 1 / 2)
  have hnn : 0 ≤ ⌊ratio * (m : K) + 1 / 2⌋ := Int.floor_nonneg.2 (by linarith)
  unfold stratumSize
  simp only [hr]
  generalize ⌊ratio * (m : K) + 1 / 2⌋ = r at *
  generalize ratio * (m : K) = x at *
  rw [abs_le]
  by_cases c1 : r ≥ m
  · rw [if_pos c1, if_neg (by omega)]
    have : (m : K) ≤ r := by exact_mod_cast c1
    push_cast
    exact ⟨by omega, by omega, by linarith, by linarith⟩
  · rw [if_neg c1]
    by_cases c2 : r = 0
    · rw [if_pos c2]
      subst c2
      push_cast at *
      exact ⟨by omega, by omega, by linarith, by linarith⟩
    · rw [if_neg c2]
      exact ⟨by omega, by omega, by linarith, by linarith⟩

/-- **C31** (preparation): it succeeds exactly when every label is one of `0 … n-1` and every class occurs. -/
theorem C31_prepared_iff (n : Nat) (data : Mat K) (wd : data.Wf) (hcol : 0 < data.cols) (storage : List K) (ratio : K)
    (fix : Int) :
    (∃ st, calculateD n data storage ratio fix = .ok st) ↔
      (∀ i, 0 ≤ i → i < data.rows → ∃ c : Nat, c < n ∧ HasClass data i c) ∧
      (∀ c : Nat, c < n → ∃ i, 0 ≤ i ∧ i < data.rows ∧ HasClass data i c) := by
  have key : ∀ (i c : Int), 0 ≤ i → i < data.rows → (HasClass data i c ↔ lab data.mem i = c) := by
    intro i c h0 h1
    obtain ⟨y, hy⟩ := get0_ok wd (i := i) (j := 0) ⟨h0, h1, by omega, hcol⟩
    have hy' := hy
    unfold Mat.get0 at hy'
    rw [mul_zero, add_zero] at hy'
    unfold HasClass
    rw [get_eq_get0 wd ⟨h0, h1, by omega, hcol⟩, hy, lab_of_read hy']
    constructor
    · rintro ⟨z, hz, e⟩; rw [Outcome.ok.inj hz]; exact e
    · intro e; exact ⟨y, rfl, e⟩
  constructor
  · rintro ⟨st, h⟩
    have hp := calculateD_ok n data storage ratio fix st h
    refine ⟨?_, ?_⟩
    · intro i h0 h1
      obtain ⟨l0, l1⟩ := hp.labels i (mem_upTo.2 ⟨h0, h1⟩)
      exact ⟨(lab data.mem i).toNat, by omega, (key i _ h0 h1).2 (by omega)⟩
    · intro c hc
      obtain ⟨k, hk⟩ := List.exists_mem_of_ne_nil _ (hp.pos c hc)
      have hin := rowsOf_in data c k hk
      exact ⟨k, hin.1, hin.2, hasClass_of_rowsOf wd hcol hk⟩
  · rintro ⟨ha, hb⟩
    apply calculateD_in
    · intro i hi
      obtain ⟨h0, h1⟩ := mem_upTo.1 hi
      obtain ⟨c, hc, hl⟩ := ha i h0 h1
      obtain ⟨y, hy⟩ := get0_ok wd (i := i) (j := 0) ⟨h0, h1, by omega, hcol⟩
      unfold Mat.get0 at hy
      rw [mul_zero, add_zero] at hy
      have := (key i c h0 h1).1 hl
      exact ⟨⟨y, hy⟩, by omega, by omega⟩
    · intro c hc
      obtain ⟨i, h0, h1, hl⟩ := hb c hc
      have := (key i c h0 h1).1 hl
      exact List.ne_nil_of_mem (a := i) (by unfold rowsOf; rw [List.mem_filter]; exact ⟨mem_upTo.2 ⟨h0, h1⟩, by simp [this]⟩)

/-- Six rows of three classes; four training rows: a case the theorems cover. -/
example : (do
    let data : Mat Rat := ⟨6, 2, some [0, 1, 2, 0, 1, 2, 10, 11, 12, 13, 14, 15]⟩
    let st ← calculateD 3 data (List.replicate 12 0) (1 / 2) 3
    let s ← shuffleD data st (fun _ => [1, 0])
    pure (st.counts, s.store)) =
    Outcome.ok ([2, 2, 2], [0, 1, 2, 13, 14, 15, 0, 1, 2, 10, 11, 12]) := by decide +kernel

/-- **C31 fails**: three classes of two rows and a training ratio of 0.9.  The sizes planned for the first two
classes leave more test rows than the test sample has, and the code writes behind the storage before it would
report "invalid training percentage". -/
theorem C31_violated_overflow : (do
    let data : Mat Rat := ⟨6, 1, some [0, 1, 2, 0, 1, 2]⟩
    let st ← calculateD 3 data (List.replicate 6 0) (9 / 10) 0
    let s ← shuffleD data st (fun _ => [1, 0])
    pure s.store) = Outcome.ub := by decide +kernel

/-- **C31 fails**: a fixed training size is only used for the total; class sizes still follow the ratio.  Two
classes of four rows, six training rows requested, ratio 1/4: rows are written behind the storage. -/
theorem C31_violated_fixed_size : (do
    let data : Mat Rat := ⟨8, 1, some [0, 0, 0, 0, 1, 1, 1, 1]⟩
    let st ← calculateD 2 data (List.replicate 8 0) (1 / 4) 6
    let s ← shuffleD data st (fun _ => [0, 1, 2, 3])
    pure s.store) = Outcome.ub := by decide +kernel

end Discrete

end Split
end LDT
