import Verif.Props.Filter
import Verif.Spec.Season
/-! # The loops of the seasonal decomposition -/
namespace LDT
namespace De
open Mx Stat
open Arr (Val)

theorem succ_mod_eq {p : Nat} (hp : 0 < p) (j : Nat) : (j + 1) % p = if p ≤ j % p + 1 then 0 else j % p + 1 := by
  have h1 := Nat.mod_lt j hp
  have h2 := Nat.div_add_mod j p
  by_cases h : p ≤ j % p + 1
  · rw [if_pos h]
    have : j + 1 = p * (j / p + 1) := by rw [Nat.mul_add, Nat.mul_one]; omega
    rw [this, Nat.mul_mod_right]
  · rw [if_neg h]
    have : j + 1 = j % p + 1 + p * (j / p) := by omega
    conv_lhs => rw [this, Nat.add_mul_mod_self_left]
    exact Nat.mod_eq_of_lt (by omega)

section
variable {K : Type} [Field K] [DecidableEq K]

theorem seasonNums_succ (d : Nat → Val K) (p f T : Nat) :
    seasonNums d p f (T + 1) = seasonNums d p f T ++ (if T % p = f then (d T).toList else []) := by
  unfold seasonNums
  rw [List.range_succ, List.filter_append, List.filterMap_append]
  congr 1
  by_cases h : T % p = f
  · rw [if_pos h]
    simp only [List.filter_cons, h, beq_self_eq_true, if_true, List.filter_nil]
    cases hd : d T <;> simp [hd]
  · rw [if_neg h]
    simp [h]

/-- The sums and the counts of the seasons. -/
theorem seasonLoop (seasonal means : Mat (Val K)) (d : Nat → Val K) (T p : Nat) (hp : 0 < p) (wm : means.Wf)
    (hm : means.length = p) (hs : ∀ j : Nat, j < T → read seasonal.mem j = .ok (d j))
    (h0 : ∀ f : Nat, f < p → read means.mem f = .ok (some 0)) :
    ∃ s', (upTo 0 (T : Int)).foldlM (seasonStep seasonal p) ⟨means, List.replicate p 0, 0⟩ = .ok s' ∧
      SameShape means s'.means ∧
      ∀ f : Nat, f < p → read s'.means.mem f = .ok (some (seasonNums d p f T).sum) ∧
        read s'.count f = .ok ((seasonNums d p f T).length : Int) := by
  obtain ⟨s', e, sh, -, -, r⟩ := loop_inv (a := 0) (b := (T : Int)) (by omega) (seasonStep seasonal p)
    (fun i (s : Seasons K) => SameShape means s.means ∧ s.count.length = p ∧
      (if s.f ≥ (p : Int) then 0 else s.f) = ((i.toNat % p : Nat) : Int) ∧
      ∀ f : Nat, f < p → read s.means.mem f = .ok (some (seasonNums d p f i.toNat).sum) ∧
        read s.count f = .ok ((seasonNums d p f i.toNat).length : Int))
    (s := ⟨means, List.replicate p 0, 0⟩)
    ⟨SameShape.refl _, by simp, by simp, fun f hf => by
      refine ⟨by rw [h0 f hf]; simp [seasonNums], ?_⟩
      rw [read_eq_ok]
      refine ⟨by omega, ?_⟩
      rw [Int.toNat_natCast, List.getElem?_replicate, if_pos hf]; simp [seasonNums]⟩
    (fun i h1 h2 s ⟨sh, cl, hf, r⟩ => by
      obtain ⟨j, rfl⟩ : ∃ j : Nat, i = j := ⟨i.toNat, by omega⟩
      simp only [Int.toNat_natCast] at hf r
      have hlt := Nat.mod_lt j hp
      have next : (if ((j % p : Nat) : Int) + 1 ≥ (p : Int) then 0 else ((j % p : Nat) : Int) + 1) =
          (((j : Int) + 1).toNat % p : Nat) := by
        rw [show ((j : Int) + 1).toNat = j + 1 by omega, succ_mod_eq hp]
        by_cases h : p ≤ j % p + 1
        · rw [if_pos h, if_pos (by omega)]; rfl
        · rw [if_neg h, if_neg (by omega)]; push_cast; rfl
      have hj1 : ((j : Int) + 1).toNat = j + 1 := by omega
      unfold seasonStep
      simp only [hf]
      rw [hs j (by omega), Outcome.ok_bind]
      cases hd : d j with
      | none =>
        refine ⟨{ s with f := ((j % p : Nat) : Int) + 1 }, by simp, sh, cl, next, ?_⟩
        intro f hfp
        rw [hj1, seasonNums_succ, hd]
        simp only [Option.toList_none, ite_self, List.append_nil]
        exact r f hfp
      | some v =>
        obtain ⟨r1, r2⟩ := r (j % p) hlt
        obtain ⟨m', e', sh', c'⟩ := put_spec (sh.wf wm) (k := ((j % p : Nat) : Int)) (by omega)
          (by rw [SameShape.length sh, hm]; omega) (some ((seasonNums d p (j % p) j).sum + v))
        have hw := write_ok_of (l := s.count) (k := ((j % p : Nat) : Int))
          (((seasonNums d p (j % p) j).length : Int) + 1) (by omega) (by rw [cl]; omega)
        refine ⟨⟨m', s.count.set (((j % p : Nat) : Int)).toNat (((seasonNums d p (j % p) j).length : Int) + 1),
          ((j % p : Nat) : Int) + 1⟩, ?_, sh.trans sh', by simp [cl], next, ?_⟩
        · simp only [Option.isNone_some, Bool.false_eq_true, if_false, r1, r2, Outcome.ok_bind, vadd_some, e', hw]
          rfl
        · intro f hfp
          have hc := read_set (l := s.count) (k := ((j % p : Nat) : Int))
            (((seasonNums d p (j % p) j).length : Int) + 1) (by omega) (by rw [cl]; omega) (f : Int)
          rw [c', hj1, seasonNums_succ, hd]
          simp only
          rw [hc]
          by_cases hfj : j % p = f
          · subst hfj
            rw [if_pos rfl, if_pos rfl, if_pos rfl]
            simp
          · have hfj' : ¬ ((f : Int) = ((j % p : Nat) : Int)) := by omega
            simp only [if_neg hfj, if_neg hfj', List.append_nil]
            exact r f hfp)
  refine ⟨s', e, sh, ?_⟩
  simpa using r

/-- Division of the sums by the counts. -/
theorem divideLoop (means : Mat (Val K)) (count : List Int) (p : Nat) (wm : means.Wf) (hm : means.length = p)
    (a : Nat → Val K) (c : Nat → Int) (ha : ∀ f : Nat, f < p → read means.mem f = .ok (a f) ∧ read count f = .ok (c f)) :
    ∃ m', divideCounts means count p = .ok m' ∧ SameShape means m' ∧
      ∀ f : Nat, f < p → read m'.mem f = .ok (vdiv (a f) (vint (c f))) := by
  unfold divideCounts
  obtain ⟨m', e, sh, r⟩ := loop_inv (a := 0) (b := (p : Int)) (by omega) (fun (s : Mat (Val K)) j => do
      let a ← read s.mem j
      let c ← read count j
      put s j (vdiv a (vint c)))
    (fun i s => SameShape means s ∧ ∀ f : Nat, f < p → read s.mem f =
      .ok (if (f : Int) < i then vdiv (a f) (vint (c f)) else a f)) (s := means)
    ⟨SameShape.refl _, fun f hf => by rw [(ha f hf).1, if_neg (by omega)]⟩
    (fun i h0 h1 s ⟨sh, r⟩ => by
      obtain ⟨j, rfl⟩ : ∃ j : Nat, i = j := ⟨i.toNat, by omega⟩
      obtain ⟨s', e', sh', c'⟩ := put_spec (sh.wf wm) (k := (j : Int)) (by omega) (by rw [SameShape.length sh, hm]; omega)
        (vdiv (a j) (vint (c j)))
      refine ⟨s', ?_, sh.trans sh', ?_⟩
      · have := r j (by omega)
        rw [if_neg (by omega)] at this
        rw [this, Outcome.ok_bind, (ha j (by omega)).2, Outcome.ok_bind]; exact e'
      · intro f hf
        rw [c']
        by_cases hfj : (f : Int) = j
        · have : f = j := by omega
          subst this
          rw [if_pos rfl, if_pos (by omega)]
        · rw [if_neg hfj, r f hf]
          by_cases h : (f : Int) < j
          · rw [if_pos h, if_pos (by omega)]
          · rw [if_neg h, if_neg (by omega)])
  refine ⟨m', e, sh, fun f hf => ?_⟩
  rw [r f hf, if_pos (by omega)]

/-- The repeated seasons. -/
theorem repeatLoop (means seasonal : Mat (Val K)) (T p : Nat) (hp : 0 < p) (ws : seasonal.Wf) (hs : seasonal.length = T)
    (g : Nat → Val K) (hg : ∀ f : Nat, f < p → read means.mem f = .ok (g f)) :
    ∃ m', repeatSeasons T p means seasonal = .ok m' ∧ SameShape seasonal m' ∧
      ∀ j : Nat, j < T → read m'.mem j = .ok (g (j % p)) := by
  unfold repeatSeasons
  obtain ⟨r', e, sh, -, r⟩ := loop_inv (a := 0) (b := (T : Int)) (by omega) (fun (s : Mat (Val K) × Int) j => do
      let v ← read means.mem s.2
      let m ← put s.1 j v
      pure (m, if s.2 + 1 ≥ (p : Int) then 0 else s.2 + 1))
    (fun i s => SameShape seasonal s.1 ∧ s.2 = ((i.toNat % p : Nat) : Int) ∧
      ∀ j : Nat, (j : Int) < i → read s.1.mem j = .ok (g (j % p))) (s := (seasonal, 0))
    ⟨SameShape.refl _, by simp, fun j hj => by omega⟩
    (fun i h0 h1 s ⟨sh, hf, r⟩ => by
      obtain ⟨n, rfl⟩ : ∃ n : Nat, i = n := ⟨i.toNat, by omega⟩
      obtain ⟨s1, s2⟩ := s
      simp only [Int.toNat_natCast] at hf r sh
      subst hf
      have hlt := Nat.mod_lt n hp
      obtain ⟨s', e', sh', c'⟩ := put_spec (sh.wf ws) (k := (n : Int)) (by omega)
        (by rw [SameShape.length sh, hs]; omega) (g (n % p))
      refine ⟨(s', if ((n % p : Nat) : Int) + 1 ≥ (p : Int) then 0 else ((n % p : Nat) : Int) + 1), ?_, sh.trans sh', ?_, ?_⟩
      · simp only [hg (n % p) hlt, Outcome.ok_bind, e']; rfl
      · rw [show ((n : Int) + 1).toNat = n + 1 by omega, succ_mod_eq hp]
        by_cases h : p ≤ n % p + 1
        · rw [if_pos h, if_pos (by omega)]; rfl
        · rw [if_neg h, if_neg (by omega)]; push_cast; rfl
      · intro j hj
        simp only
        rw [c']
        by_cases hjn : (j : Int) = n
        · have : j = n := by omega
          subst this
          rw [if_pos rfl]
        · rw [if_neg hjn]; exact r j (by omega))
  refine ⟨r'.1, ?_, sh, fun j hj => r j (by omega)⟩
  rw [e]; rfl

theorem zeroLoop (means : Mat (Val K)) (p : Nat) (wm : means.Wf) (hm : means.length = p) :
    ∃ m', (upTo 0 (p : Int)).foldlM (fun (s : Mat (Val K)) j => put s j (some 0)) means = .ok m' ∧ SameShape means m' ∧
      ∀ f : Nat, f < p → read m'.mem f = .ok (some 0) := by
  obtain ⟨m', e, sh, r⟩ := loop_inv (a := 0) (b := (p : Int)) (by omega) (fun (s : Mat (Val K)) j => put s j (some 0))
    (fun i s => SameShape means s ∧ ∀ f : Nat, (f : Int) < i → read s.mem f = .ok (some 0)) (s := means)
    ⟨SameShape.refl _, fun f hf => by omega⟩
    (fun i h0 h1 s ⟨sh, r⟩ => by
      obtain ⟨s', e', sh', c'⟩ := put_spec (sh.wf wm) (k := i) h0 (by rw [SameShape.length sh, hm]; omega) (some 0)
      refine ⟨s', e', sh.trans sh', fun f hf => ?_⟩
      rw [c']
      by_cases h : (f : Int) = i
      · rw [if_pos h]
      · rw [if_neg h]; exact r f (by omega))
  exact ⟨m', e, sh, fun f hf => r f (by omega)⟩

theorem pointwise_spec {x b storage : Mat (Val K)} (ws : storage.Wf) (T : Nat) (hx : x.length = T) (hl : storage.length = T)
    (op : Val K → Val K → Val K) (u v : Nat → Val K) (hu : ∀ i : Nat, i < T → read x.mem i = .ok (u i))
    (hv : ∀ i : Nat, i < T → read b.mem i = .ok (v i)) :
    ∃ res, pointwise op x b storage = .ok res ∧ SameShape storage res ∧
      ∀ i : Nat, i < T → read res.mem i = .ok (op (u i) (v i)) := by
  unfold pointwise
  have hw : ∀ k : Int, 0 ≤ k → k < T → x.with2 b op k = .ok (op (u k.toNat) (v k.toNat)) := by
    intro k h0 h1
    apply with2_eq
    · have := hu k.toNat (by omega); rw [Int.toNat_of_nonneg h0] at this; exact this
    · have := hv k.toNat (by omega); rw [Int.toNat_of_nonneg h0] at this; exact this
  rw [hx]
  obtain ⟨res, e, sh, c⟩ := cellLoop_spec storage ws T hl (x.with2 b op) (fun k h0 h1 => ⟨_, hw k h0 h1⟩)
  refine ⟨res, e, sh, fun i hi => ?_⟩
  rw [c i (by omega) (by omega), hw i (by omega) (by omega), Int.toNat_natCast]

theorem matrixIn_spec {m b : Mat (Val K)} (w : m.Wf) (T : Nat) (hm : m.length = T)
    (op : Val K → Val K → Val K) (u v : Nat → Val K) (hu : ∀ i : Nat, i < T → read m.mem i = .ok (u i))
    (hv : ∀ i : Nat, i < T → read b.mem i = .ok (v i)) :
    ∃ res, m.matrixIn b op = .ok res ∧ SameShape m res ∧
      ∀ i : Nat, i < T → read res.mem i = .ok (op (u i) (v i)) := by
  unfold Mat.matrixIn
  rw [hm]
  have hb : ∀ k : Int, 0 ≤ k → k < T → read b.mem k = .ok (v k.toNat) := by
    intro k h0 h1
    have := hv k.toNat (by omega); rw [Int.toNat_of_nonneg h0] at this; exact this
  obtain ⟨res, e, sh, c⟩ := cellLoopIn_spec m w T hm (fun i x => do
      let y ← read b.mem i
      pure (op x y)) (fun k x h0 h1 => ⟨_, by rw [hb k h0 h1]; rfl⟩)
  refine ⟨res, e, sh, fun i hi => ?_⟩
  rw [c i (u i) (by omega) (by omega) (hu i hi), hb i (by omega) (by omega), Int.toNat_natCast]; rfl

/-- The averages of the seasons; NaN for a season without a number. -/
def seasonAvg (d : Nat → Val K) (p T f : Nat) : Val K :=
  vdiv (some (seasonNums d p f T).sum) (vint ((seasonNums d p f T).length : Int))

theorem isCells_of_reads {α : Type} {m : Mat α} (w : m.Wf) (p : Nat) (hm : m.length = p) (g : Nat → α)
    (h : ∀ f : Nat, f < p → read m.mem f = .ok (g f)) : IsCells m ((List.range p).map g) := by
  refine ⟨by simp [hm], ?_⟩
  intro k x hk
  rw [List.getElem?_map] at hk
  by_cases hkp : k < p
  · rw [List.getElem?_range hkp] at hk
    simp only [Option.map_some, Option.some.injEq] at hk
    rw [getLin_eq w (by omega) (by omega), h k hkp, hk]
  · rw [List.getElem?_eq_none (by simp; omega)] at hk
    simp at hk

/-- The whole decomposition. -/
theorem decomposition_core (x trend seasonal resid means coefs : Mat (Val K)) (xs cs : List K) (p : Nat)
    (multiplicative doResid centred : Bool) (hx : IsCells x (xs.map some)) (hc : IsCells coefs (cs.map some))
    (hne : cs ≠ []) (hp : 0 < p) (wt : trend.Wf) (ws : seasonal.Wf) (wr : resid.Wf) (wm : means.Wf)
    (ht : trend.length = xs.length) (hs : seasonal.length = xs.length) (hr : resid.length = xs.length)
    (hm : means.length = p) :
    let op := if multiplicative then vdiv else vsub
    let t := movingAverage cs xs (ahead centred cs.length)
    let d := fun i => op (some (xs.getD i 0)) (t i)
    let av := (List.range p).map (seasonAvg d p xs.length)
    let m := vdiv (foldPos (fun s _ d => vadd s d) (some 0) av 0) (vint (p : Int))
    let g := fun f => op (seasonAvg d p xs.length f) m
    ∃ res, seasonalDecompositionMa x trend seasonal resid means (some coefs) p multiplicative doResid centred = .ok res ∧
      SameShape trend res.trend ∧ SameShape seasonal res.seasonal ∧ SameShape resid res.resid ∧ SameShape means res.means ∧
      (∀ i : Nat, i < xs.length → read res.trend.mem i = .ok (t i)) ∧
      (∀ f : Nat, f < p → read res.means.mem f = .ok (g f)) ∧
      (∀ i : Nat, i < xs.length → read res.seasonal.mem i = .ok (g (i % p))) ∧
      (doResid = false → res.resid = resid) ∧
      (doResid = true → ∀ i : Nat, i < xs.length → read res.resid.mem i = .ok (op (d i) (g (i % p)))) := by
  intro op t d av m g
  have ex := cells_length hx
  have hxr : ∀ i : Nat, i < xs.length → read x.mem i = .ok (some (xs.getD i 0)) := by
    intro i hi
    have := cells_read hx (k := (i : Int)) (by omega) (by omega)
    rw [Int.toNat_natCast] at this; exact this
  obtain ⟨tr, e1, sh1, r1⟩ := filterMa_spec x coefs trend xs cs hx hc hne wt (by omega) centred
  rw [ht] at r1
  obtain ⟨se, e2, sh2, r2⟩ := pointwise_spec ws xs.length ex hs op (fun i => some (xs.getD i 0)) t hxr
    (fun i hi => r1 i (by omega))
  obtain ⟨m0, e3, sh3, r3⟩ := zeroLoop means p wm hm
  obtain ⟨s4, e4, sh4, r4⟩ := seasonLoop se m0 d xs.length p hp (sh3.wf wm) (by rw [SameShape.length sh3, hm]) r2 r3
  obtain ⟨m5, e5, sh5, r5⟩ := divideLoop s4.means s4.count p (sh4.wf (sh3.wf wm))
    (by rw [SameShape.length sh4, SameShape.length sh3, hm]) (fun f => some (seasonNums d p f xs.length).sum)
    (fun f => ((seasonNums d p f xs.length).length : Int)) r4
  have w5 := sh5.wf (sh4.wf (sh3.wf wm))
  have l5 : m5.length = p := by rw [SameShape.length sh5, SameShape.length sh4, SameShape.length sh3, hm]
  have c5 : IsCells m5 av := isCells_of_reads w5 p l5 _ r5
  have e6 : m5.sum = .ok (foldPos (fun s _ d => vadd s d) (some 0) av 0) := by
    unfold Mat.sum
    rw [← c5.len, scanCells_eq m5.mem 0 _ _ _ (isCells_read c5)]
  obtain ⟨m7, e7, sh7, r7⟩ := cellLoopIn_spec m5 w5 m5.length rfl (fun _ a => .ok (op a m)) (fun _ _ _ _ => ⟨_, rfl⟩)
  have r7' : ∀ f : Nat, f < p → read m7.mem f = .ok (g f) := by
    intro f hf
    rw [r7 f _ (by omega) (by omega) (r5 f hf)]; rfl
  obtain ⟨se8, e8, sh8, r8⟩ := repeatLoop m7 se xs.length p hp (sh2.wf ws) (by rw [SameShape.length sh2, hs]) g r7'
  have core : ∀ rs, seasonResid op doResid x tr se8 resid = .ok rs →
      seasonalDecompositionMa x trend seasonal resid means (some coefs) p multiplicative doResid centred =
        .ok ⟨tr, se8, rs, m7⟩ := by
    intro rs hrs
    unfold seasonalDecompositionMa
    show (filterMa x coefs centred trend >>= _) = _
    rw [e1, Outcome.ok_bind]
    show (pointwise op x tr seasonal >>= _) = _
    rw [e2, Outcome.ok_bind, if_neg (by omega), e3, Outcome.ok_bind, ex]
    rw [Int.toNat_natCast, e4, Outcome.ok_bind, e5, Outcome.ok_bind, e6, Outcome.ok_bind]
    show (m5.scalarIn (fun a => op a m) >>= _) = _
    unfold Mat.scalarIn
    rw [e7, Outcome.ok_bind, e8, Outcome.ok_bind]
    show (seasonResid op doResid x tr se8 resid >>= _) = _
    rw [hrs, Outcome.ok_bind]
    rfl
  have shm := ((sh3.trans sh4).trans sh5).trans sh7
  cases hd : doResid with
  | false =>
    refine ⟨⟨tr, se8, resid, m7⟩, ?_, sh1, sh2.trans sh8, SameShape.refl _, shm, fun i hi => r1 i (by omega), r7',
      r8, fun _ => rfl, by simp⟩
    rw [← hd]
    apply core
    unfold seasonResid
    rw [if_neg (by simp [hd])]
  | true =>
    obtain ⟨q, e9, sh9, r9⟩ := pointwise_spec wr xs.length ex hr op (fun i => some (xs.getD i 0)) t hxr
      (fun i hi => r1 i (by omega))
    obtain ⟨q2, e10, sh10, r10⟩ := matrixIn_spec (sh9.wf wr) xs.length (by rw [SameShape.length sh9, hr]) op d
      (fun i => g (i % p)) r9 r8
    refine ⟨⟨tr, se8, q2, m7⟩, ?_, sh1, sh2.trans sh8, sh9.trans sh10, shm, fun i hi => r1 i (by omega), r7',
      r8, by simp, fun _ => r10⟩
    rw [← hd]
    apply core
    unfold seasonResid
    rw [if_pos hd, e9, Outcome.ok_bind, e10]

end
end De
end LDT
