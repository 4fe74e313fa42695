import Verif.Props.MatrixCov
namespace LDT
namespace Mx
open Stat
open Arr (Val sqrtV)

variable {K : Type} [Field K] [DecidableEq K]

/-- Reading cell `k` of the memory that belongs to the matrix. -/
theorem getLin_read {α : Type} {m : Mat α} (w : m.Wf) {k : Int} (h0 : 0 ≤ k) (h1 : k < m.length) :
    m.getLin k = read m.mem k := by
  unfold Mat.getLin
  rw [if_neg (by rw [w.data_eq]; simp), if_neg (by omega)]

theorem fillFrom_spec (g : Int → Outcome (Val K)) (inds : List Int) (storage : Mat (Val K)) (ws : storage.Wf)
    (hl : storage.length = (inds.length : Int)) (hg : ∀ i ∈ inds, ∃ v, g i = .ok v) :
    ∃ res, fillFrom g inds storage = .ok res ∧ SameShape storage res ∧
      ∀ (q : Nat) i, inds[q]? = some i → res.getLin q = g i := by
  have gen : ∀ (l : List Int) (p : Nat) (d : Mat (Val K)), (∀ i ∈ l, ∃ v, g i = .ok v) →
      (p : Int) + l.length ≤ storage.length → SameShape storage d → ∃ res, (countFrom p l).foldlM (fun (d : Mat (Val K)) qi => do
        let v ← g qi.2
        let l ← write d.mem qi.1 v
        pure { d with data := some l }) d = .ok res ∧ SameShape storage res ∧
        (∀ (k : Nat) x, l[k]? = some x → read res.mem ((p : Int) + k) = g x) ∧
        ∀ k : Int, k < p → read res.mem k = read d.mem k := by
    intro l
    induction l with
    | nil => intro p d _ _ s; exact ⟨d, rfl, s, by simp, fun _ _ => rfl⟩
    | cons a t ih =>
      intro p d hin hp s
      obtain ⟨v, hv⟩ := hin a (by simp)
      have hsz := ws.size
      have hp' : (p : Int) < d.mem.length := by
        rw [s.len]; unfold Mat.length at hp; simp at hp; omega
      have s1 : SameShape storage { d with data := some (d.mem.set p v) } := by
        refine ⟨s.rows, s.cols, ?_, ?_, ?_⟩
        · rw [ws.data_eq]; rfl
        · show (d.mem.set p v).length = _
          rw [List.length_set, s.len]
        · intro k hk
          show (d.mem.set p v)[k]? = _
          unfold Mat.length at hp; simp at hp
          rw [List.getElem?_set_ne (by omega)]; exact s.rest k hk
      obtain ⟨res, e, sr, c, c'⟩ := ih (p + 1) _ (fun x hx => hin x (by simp [hx])) (by simp at hp; push_cast; omega) s1
      refine ⟨res, ?_, sr, ?_, ?_⟩
      · show ((do
            let v ← g a
            let l ← write d.mem p v
            pure { d with data := some l }) >>= fun d => _) = _
        rw [hv, Outcome.ok_bind, write_ok_of v (by omega) hp', Outcome.ok_bind, Outcome.pure_eq, Outcome.ok_bind]
        have : ((p : Int)).toNat = p := by omega
        rw [this]
        exact_mod_cast e
      · intro k x hk
        cases k with
        | zero =>
          simp only [List.getElem?_cons_zero, Option.some.injEq] at hk
          rw [c' _ (by push_cast; omega), ← hk, hv]
          show read (d.mem.set p v) _ = _
          have := read_set (l := d.mem) v (k := (p : Int)) (by omega) hp' (p : Int)
          simpa using this
        | succ k =>
          simp only [List.getElem?_cons_succ] at hk
          rw [← c k x hk]; congr 1; push_cast; ring
      · intro k hk
        rw [c' k (by push_cast; omega)]
        show read (d.mem.set p v) k = _
        have := read_set (l := d.mem) v (k := (p : Int)) (by omega) hp' k
        rw [if_neg (by omega)] at this
        simpa using this
  obtain ⟨res, e, s, c, -⟩ := gen inds 0 storage hg (by push_cast; omega) (SameShape.refl _)
  refine ⟨res, by unfold fillFrom; exact_mod_cast e, s, fun q i hq => ?_⟩
  have hq' : q < inds.length := by rw [List.getElem?_eq_some_iff] at hq; exact hq.1
  have hlen : res.length = storage.length := by unfold Mat.length; rw [s.rows, s.cols]
  rw [getLin_read (s.wf ws) (by omega) (by rw [hlen, hl]; exact_mod_cast hq'), ← c q i hq]
  simp

/-- The sum of cells: NaN as soon as one is. -/
theorem sumFold {α : Type} (l : List α) (f : α → Val K) (h : ∀ a ∈ l, f a ≠ none) : ∀ s : K,
    l.foldl (fun s a => vadd s (f a)) (some s) = some (s + (numbers (l.map f)).sum) := by
  induction l with
  | nil => intro s; simp [numbers]
  | cons a t ih =>
    intro s
    obtain ⟨x, hx⟩ := Option.ne_none_iff_exists'.1 (h a (by simp))
    rw [List.foldl_cons, hx, vadd_some, ih (fun b hb => h b (by simp [hb]))]
    simp [numbers, hx, add_assoc]

theorem sumFold_nan {α : Type} (l : List α) (f : α → Val K) (h : ∃ a ∈ l, f a = none) (s : Val K) :
    l.foldl (fun s a => vadd s (f a)) s = none := by
  have keep : ∀ l : List α, l.foldl (fun s a => vadd s (f a)) none = none := by
    intro l; induction l with
    | nil => rfl
    | cons a t ih => rw [List.foldl_cons, none_vadd, ih]
  induction l generalizing s with
  | nil => simp at h
  | cons a t ih =>
    rw [List.foldl_cons]
    by_cases ha : f a = none
    · rw [ha, vadd_none, keep]
    · apply ih
      obtain ⟨b, hb, hb'⟩ := h
      rcases List.mem_cons.1 hb with rfl | hb
      · exact absurd hb' ha
      · exact ⟨b, hb, hb'⟩

/-- A loop over `0 … n-1` that reads known values. -/
theorem loop_reads {α σ : Type} (xs : List α) (rd : Int → Outcome α) (st : σ → α → σ) (s : σ)
    (h : ∀ (k : Nat) x, xs[k]? = some x → rd k = .ok x) :
    (upTo 0 (xs.length : Int)).foldlM (fun s i => do
      let d ← rd i
      pure (st s d)) s = .ok (xs.foldl st s) := by
  induction xs using List.reverseRecOn with
  | nil => simp [upTo]
  | append_singleton xs x ih =>
    rw [List.length_append, List.length_singleton, upTo_snoc, List.foldlM_append,
      ih (fun k y hy => h k y (by
        rw [List.getElem?_append_left]; · exact hy
        · rw [List.getElem?_eq_some_iff] at hy; exact hy.1)), Outcome.ok_bind]
    rw [List.foldlM_cons, h xs.length x (by simp), Outcome.ok_bind]
    simp

end Mx
end LDT
