import Verif.Spec.ChoiceSearch
import Verif.Props.ChoiceExtended
import Verif.Props.ChoiceSim
/-! # Lemmas for C121 -/
namespace LDT
namespace Dc
open Op Di Mx Arr Score

theorem tableOf_cell {m : Mat (Val ℝ)} {R C i j : ℕ} (hR : m.rows = R) (hC : m.cols = C) (hi : i < R) (hj : j < C) {x : ℝ}
    (hv : m.get i j = .ok (some x)) : (tableOf m).mem.getD (i + j * R) 0 = x ∧ m.mem[i + j * R]? = some (some x) := by
  have hlt : i + j * R < R * C := by
    calc i + j * R < R + j * R := by omega
      _ = (j + 1) * R := by ring
      _ ≤ C * R := Nat.mul_le_mul_right _ hj
      _ = R * C := by ring
  have ek : (m.rows * m.cols).toNat = R * C := by rw [hR, hC]; exact_mod_cast Int.toNat_natCast (R * C)
  have hread : m.mem[i + j * R]? = some (some x) := get_mem hR hv
  refine ⟨?_, hread⟩
  have htake : (m.mem.take (R * C))[i + j * R]? = some (some x) := by rw [List.getElem?_take, if_pos hlt]; exact hread
  show (((m.mem.take (m.rows * m.cols).toNat).map fun v => v.getD 0)).getD (i + j * R) 0 = x
  rw [ek, List.getD_eq_getElem?_getD, List.getElem?_map, htake]
  rfl

/-- The sample that is read. -/
theorem sample_of {source : Mat (Val ℝ)} (wd : source.Wf) {cols : List ℤ} (hc : ∀ k ∈ cols, 0 ≤ k ∧ k < source.cols) {storage : List (Val ℝ)}
    (hst : (storage.length : ℤ) = source.rows * cols.length) {ds : Dataset} (h1 : Dataset.make source.rows cols.length true true = .ok ds)
    {m : Mat (Val ℝ)} (h2 : ds.calculate Option.isNone source (some cols) storage = .ok m) (hasWeight : Bool) :
    ∃ kept, CompleteRows Option.isNone source cols kept ∧ SampleOf hasWeight source cols kept (dataOf hasWeight (tableOf m)) ∧
      m.rows = kept.length ∧ m.cols = cols.length ∧ (kept.length : ℤ) ≤ source.rows ∧
      (∀ i < kept.length, m.mem.getD i none = some ((dataOf hasWeight (tableOf m)).y i)) ∧
      (hasWeight = true → 2 ≤ cols.length → ∀ i < kept.length, m.mem.getD (kept.length + i) none = some ((dataOf hasWeight (tableOf m)).wt i)) := by
  have hpos : 0 < cols.length ∧ 0 < source.rows ∧ ds.storageSize = source.rows * cols.length := by
    unfold Dataset.make at h1
    split_ifs at h1 with hneg
    obtain rfl := Outcome.ok.inj h1
    push Not at hneg
    exact ⟨by omega, hneg.2, rfl⟩
  obtain ⟨kept, res, k1, k2, k3, k4, k5⟩ := C36_dataset_missing Option.isNone source.rows cols.length true ds h1 source wd (le_refl _)
    cols hc (by simp) storage (by rw [hst, hpos.2.2])
  have : res = m := by
    simp only [if_true] at k2
    rw [k2] at h2; exact Outcome.ok.inj h2
  subst this
  have cell : ∀ (i : ℕ) (row : ℤ) (j : ℕ) (c : ℤ), kept[i]? = some row → cols[j]? = some c →
      source.get row c = .ok (some ((tableOf res).mem.getD (i + j * (tableOf res).rows.toNat) 0)) ∧
      res.mem[i + j * kept.length]? = some (some ((tableOf res).mem.getD (i + j * (tableOf res).rows.toNat) 0)) := fun i row j c hi hj => by
    have hlt : i < kept.length := (List.getElem?_eq_some_iff.mp hi).1
    have hjl : j < cols.length := (List.getElem?_eq_some_iff.mp hj).1
    obtain ⟨hr0, hr1, hcomp⟩ := (k1.mem row).1 (List.mem_of_getElem? hi)
    have hcr := hc c (List.mem_of_getElem? hj)
    have inr : source.InR row c := ⟨hr0, hr1, hcr.1, hcr.2⟩
    obtain ⟨v, hv⟩ := get0_ok wd inr
    rw [← get_eq_get0 wd inr] at hv
    have hv' : v.isNone = false := by
      obtain ⟨v', hv', hb⟩ := hcomp c (List.mem_of_getElem? hj)
      rw [hv'] at hv; rw [← Outcome.ok.inj hv]; exact hb
    obtain ⟨x, rfl⟩ : ∃ x, v = some x := by cases v with
      | none => simp at hv'
      | some x => exact ⟨x, rfl⟩
    obtain ⟨e1, e2⟩ := tableOf_cell k3 k4 hlt hjl ((k5 i j row c hi hj).trans hv)
    have er : (tableOf res).rows.toNat = kept.length := by show res.rows.toNat = _; rw [k3, Int.toNat_natCast]
    rw [er, e1]
    exact ⟨hv, e2⟩
  have hn : (dataOf hasWeight (tableOf res)).n = kept.length := by show res.rows.toNat = _; rw [k3, Int.toNat_natCast]
  have hle : (kept.length : ℤ) ≤ source.rows := by
    have hsub : kept ⊆ upTo 0 source.rows := fun r hr => mem_upTo.2 ⟨((k1.mem r).1 hr).1, ((k1.mem r).1 hr).2.1⟩
    have hnd : kept.Nodup := k1.sorted.imp (fun h => ne_of_lt h)
    have := (List.Nodup.subperm hnd hsub).length_le
    have hl : ((upTo 0 source.rows).length : ℤ) = source.rows := by unfold upTo; simp; omega
    omega
  refine ⟨kept, k1, ⟨hn, ?_, ?_, fun i row hi => ⟨fun c h0 => ?_, fun hw c h1 => ?_, fun j hj c hjc => ?_⟩⟩, k3, k4, hle, fun i hi => ?_, fun hw h2 i hi => ?_⟩
  · show (((tableOf res).cols - if hasWeight then 2 else 1).toNat : ℕ) = _
    have : (tableOf res).cols = cols.length := k4
    rw [this]
    cases hasWeight <;> simp [front] <;> omega
  · cases hasWeight <;> simp [dataOf]
  · have := (cell i row 0 c hi h0).1
    simpa [dataOf] using this
  · have := (cell i row 1 c hi h1).1
    subst hw
    simpa [dataOf, Data.wt] using this
  · have := (cell i row (j + front hasWeight) c hi hjc).1
    simpa [dataOf, front] using this
  · have := (cell i kept[i] 0 cols[0] (List.getElem?_eq_getElem hi) (List.getElem?_eq_getElem hpos.1)).2
    rw [zero_mul, add_zero] at this
    rw [List.getD_eq_getElem?_getD, this]
    simp [dataOf]
  · have := (cell i kept[i] 1 cols[1] (List.getElem?_eq_getElem hi) (List.getElem?_eq_getElem (by omega))).2
    rw [one_mul, add_comm] at this
    rw [List.getD_eq_getElem?_getD, this]
    subst hw
    simp [dataOf, Data.wt]

/-! ## The tables -/

theorem setMetric_ok {n : ℕ} {ind : ℤ} {v : Val ℝ} {t t' : DcTables} (h : setMetric n ind v t = .ok t') :
    0 ≤ ind ∧ ind < n ∧ t' = { t with metric := fun i => if (i : ℤ) = ind then v else t.metric i } := by
  unfold setMetric at h
  split_ifs at h with hb
  push Not at hb
  exact ⟨hb.1, hb.2, (Outcome.ok.inj h).symm⟩

theorem setIf_ok {n : ℕ} {off ind : ℤ} {v : Val ℝ} {t t' : DcTables} (ho : 0 ≤ off) (h : setIf n off ind v t = .ok t') :
    t' = { t with metric := fun i => if 0 ≤ ind ∧ (i : ℤ) = off + ind then v else t.metric i } := by
  unfold setIf at h
  split_ifs at h with hb
  · obtain ⟨-, -, rfl⟩ := setMetric_ok h
    simp [hb]
  · obtain rfl := Outcome.ok.inj h
    simp [show ¬ 0 ≤ ind by omega]

/-- The last write to a coefficient counts; coefficients of variables that are not selected stay. -/
theorem writeCoefs_ok {len : ℕ} {beta var : ℕ → ℝ} : ∀ (cur : List ℤ) (i : ℕ) (t t' : DcTables), cur.Nodup → writeCoefs len beta var cur i t = .ok t' →
    t'.metric = t.metric ∧ t'.extra = t.extra ∧ (∀ b ∈ cur, 1 ≤ b ∧ b ≤ len) ∧
    (∀ (j : ℕ) (b : ℤ), cur[j]? = some b → t'.mean (b - 1).toNat = some (beta (i + j)) ∧ t'.variance (b - 1).toNat = some (var (i + j))) ∧
    (∀ k : ℕ, (k : ℤ) + 1 ∉ cur → t'.mean k = t.mean k ∧ t'.variance k = t.variance k)
  | [], i, t, t', _, h => by
    obtain rfl := Outcome.ok.inj h
    exact ⟨rfl, rfl, by simp, by simp, fun _ _ => ⟨rfl, rfl⟩⟩
  | b :: bs, i, t, t', hn, h => by
    rw [writeCoefs] at h
    split_ifs at h with hb
    push Not at hb
    obtain ⟨hnb, hn⟩ := List.nodup_cons.1 hn
    obtain ⟨h1, h2, h3, h4, h5⟩ := writeCoefs_ok bs (i + 1) _ t' hn h
    refine ⟨h1, h2, ?_, ?_, ?_⟩
    · intro x hx
      rcases List.mem_cons.1 hx with rfl | hx
      · omega
      · exact h3 x hx
    · intro j c hj
      cases j with
      | zero =>
        obtain rfl : b = c := by simpa using hj
        have hk : (((b - 1).toNat : ℕ) : ℤ) = b - 1 := by omega
        have := h5 (b - 1).toNat (by rw [hk]; simpa using hnb)
        rw [this.1, this.2]
        exact ⟨if_pos hk, if_pos hk⟩
      | succ j =>
        have := h4 j c (by simpa using hj)
        rw [this.1, this.2]
        simp [Nat.add_assoc, Nat.add_comm 1 j]
    · intro k hk
      simp only [List.mem_cons, not_or] at hk
      have := h5 k hk.2
      rw [this.1, this.2]
      have hne : ¬ (k : ℤ) = b - 1 := by omega
      simp [hne]

theorem pos_ok {α : Type} {f : α → Option ℤ} {k : α} {i : ℤ} (h : pos f k = .ok i) : f k = some i := by
  unfold pos Outcome.ofOption at h
  cases hf : f k with
  | none => rw [hf] at h; cases h
  | some j => rw [hf] at h; rw [Outcome.ok.inj h]

/-! ## A run that was not cancelled -/

/-- The parts of a run of `EstimateOneReg` to the end. -/
structure Run (S : Fns) (u : DcSetup) (z : DcSizes) (E : ∀ k, Env k) (sim : Mat ℝ → Outcome SimResult) (source : Mat (Val ℝ)) (storage : List (Val ℝ))
    (junk : ℕ → ℕ → Val ℝ) (cancel : ℕ → Bool) (cols cur : List ℤ) (t : DcTables) (ds : Dataset) (m : Mat (Val ℝ))
    (est : Option (Est (kOf u.form u.cuts (dataOf u.hasWeight (tableOf m))))) (r : Option SimResult) (q q' : DcTables) : Prop where
  make : Dataset.make source.rows cols.length true true = .ok ds
  read : ds.calculate Option.isNone source (some cols) storage = .ok m
  fit : estimated S u z E cancel (cols.length - 1 - (if u.hasWeight then 1 else 0)) (dataOf u.hasWeight (tableOf m)) = .ok (some est)
  sims : simulated u sim (tableOf m) = .ok r
  ins : inMetrics S u source.rows.toNat m.mem (dataOf u.hasWeight (tableOf m)) est junk cancel tables0 = .ok (q, false)
  out : outMetrics u r q = .ok q'
  coef : coefs u est cur q' = .ok t

section
variable {S : Fns} {u : DcSetup} {z : DcSizes} {E : ∀ k, Env k} {sim : Mat ℝ → Outcome SimResult} {source : Mat (Val ℝ)} {storage : List (Val ℝ)}
  {junk : ℕ → ℕ → Val ℝ} {cancel : ℕ → Bool} {cols cur : List ℤ} {t : DcTables}

theorem run_parts (h : estimateReg S u z E sim source storage junk cancel cols cur = .ok (t, false)) :
    ∃ ds m est r q q', Run S u z E sim source storage junk cancel cols cur t ds m est r q q' := by
  unfold estimateReg at h
  obtain ⟨ds, h1, h⟩ := bind_ok h
  obtain ⟨m, h2, h⟩ := bind_ok h
  by_cases c0 : cancel 0 = true
  · rw [if_pos c0] at h; cases h
  rw [if_neg c0] at h
  dsimp only at h
  obtain ⟨est, h3, h⟩ := bind_ok h
  cases est with
  | none => cases h
  | some est =>
    dsimp only at h
    by_cases c2 : u.simulates = true ∧ cancel 2 = true
    · rw [if_pos c2] at h; cases h
    rw [if_neg c2] at h
    obtain ⟨r, h4, h⟩ := bind_ok h
    obtain ⟨q, h5, h⟩ := bind_ok h
    by_cases hq : q.2 = true
    · rw [if_pos hq] at h
      rw [Outcome.ok.inj h] at hq
      cases hq
    rw [if_neg hq] at h
    obtain ⟨q', h6, h⟩ := bind_ok h
    by_cases c6 : cancel 6 = true
    · rw [if_pos c6] at h; cases h
    rw [if_neg c6] at h
    obtain ⟨t', h7, h⟩ := bind_ok h
    have : t' = t := congrArg Prod.fst (Outcome.ok.inj h)
    subst this
    have hq' : q = (q.1, false) := by
      have : q.2 = false := by simpa using hq
      rw [← this]
    rw [hq'] at h5
    exact ⟨ds, m, est, r, q.1, q', h1, h2, h3, h4, h5, h6, h7⟩

end
end Dc
end LDT
