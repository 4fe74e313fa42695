import Verif.Spec.ChoiceEstimate
import Verif.Props.ChoiceFit
import Verif.Props.Newton
/-! # Estimation of models of discrete choice -/
namespace LDT
namespace Dc
open Op Di Topology

theorem ext_vec {k : ℕ} (g : ℕ → ℝ) {j : ℕ} (h : j < k) : ext (vec k g) j = g j := by unfold ext vec; rw [dif_pos h]

theorem ext_lt {k : ℕ} (b : Fin k → ℝ) (j : Fin k) : ext b j = b j := by unfold ext; rw [dif_pos j.2]

/-! ## Counting -/

theorem trunc_cat {D : Data} {i : ℕ} {J : ℕ} (h : ¬ (trunc (D.y i) < 0 ∨ (J : ℤ) < trunc (D.y i))) :
    trunc (D.y i) = (D.cat i : ℤ) ∧ D.cat i ≤ J := by
  have e : trunc (D.y i) = (D.cat i : ℤ) := by
    push Not at h
    unfold trunc at h ⊢
    unfold Data.cat
    split_ifs at h ⊢ with h0
    · rw [Int.natCast_floor_eq_floor h0]
    · have h1 : -1 < D.y i := by
        have := Int.le_ceil_iff.1 h.1
        push_cast at this; linarith
      have h2 : ⌈D.y i⌉ = 0 := by rw [Int.ceil_eq_zero_iff]; exact ⟨h1, by linarith⟩
      rw [h2, Nat.floor_of_nonpos (by linarith)]; rfl
  refine ⟨e, ?_⟩
  rw [e] at h; push Not at h; exact_mod_cast h.2

theorem countLoop_spec {J : ℕ} {D : Data} : ∀ (l : List ℕ) {c c' : ℕ → ℝ}, countLoop J D l c = .ok c' →
    (∀ i ∈ l, -1 < D.y i ∧ D.cat i ≤ J) ∧ ∀ m, c' m = c m + (l.map fun i => if D.cat i = m then D.wt i else 0).sum
  | [], c, c', h => by
    simp only [countLoop, Outcome.ok.injEq] at h
    subst h
    exact ⟨by simp, by simp⟩
  | i :: r, c, c', h => by
    rw [countLoop] at h
    unfold countAt at h
    split_ifs at h with hb
    · exact absurd h (by simp [bind, Outcome.bind])
    · obtain ⟨h1, h2⟩ := countLoop_spec r (c := _) (show countLoop J D r _ = .ok c' from h)
      obtain ⟨e, le⟩ := trunc_cat hb
      refine ⟨fun a ha => ?_, fun m => ?_⟩
      · rcases List.mem_cons.1 ha with rfl | ha
        · refine ⟨?_, le⟩
          push Not at hb
          have := hb.1
          unfold trunc at this
          split_ifs at this with h0
          · linarith
          · have := Int.le_ceil_iff.1 this
            push_cast at this; linarith
        · exact h1 a ha
      · rw [h2 m, List.map_cons, List.sum_cons, e]
        by_cases hm : D.cat i = m
        · rw [if_pos (by exact_mod_cast hm.symm), if_pos hm]; ring
        · rw [if_neg (by exact_mod_cast (Ne.symm hm)), if_neg hm]; ring

theorem trunc_range {D : Data} {i J : ℕ} (h : -1 < D.y i) (hc : D.cat i ≤ J) : ¬ (trunc (D.y i) < 0 ∨ (J : ℤ) < trunc (D.y i)) := by
  have e : trunc (D.y i) = (D.cat i : ℤ) := by
    unfold trunc Data.cat
    split_ifs with h0
    · rw [Int.natCast_floor_eq_floor h0]
    · have h2 : ⌈D.y i⌉ = 0 := by rw [Int.ceil_eq_zero_iff]; exact ⟨h, by linarith⟩
      rw [h2, Nat.floor_of_nonpos (by linarith)]; rfl
  rw [e]; push Not; exact ⟨by positivity, by exact_mod_cast hc⟩

theorem countLoop_ok {J : ℕ} {D : Data} : ∀ (l : List ℕ) (c : ℕ → ℝ), (∀ i ∈ l, -1 < D.y i ∧ D.cat i ≤ J) → ∃ c', countLoop J D l c = .ok c'
  | [], c, _ => ⟨c, rfl⟩
  | i :: r, c, h => by
    rw [countLoop]
    unfold countAt
    rw [if_neg (trunc_range (h i (by simp)).1 (h i (by simp)).2)]
    exact countLoop_ok r _ fun a ha => h a (by simp [ha])

theorem countLoop_ub {J : ℕ} {D : Data} : ∀ (l : List ℕ) (c : ℕ → ℝ), (∃ i ∈ l, ¬ (-1 < D.y i ∧ D.cat i ≤ J)) → countLoop J D l c = .ub
  | [], c, h => by simp at h
  | i :: r, c, h => by
    rw [countLoop]
    unfold countAt
    split_ifs with hb
    · rfl
    · refine countLoop_ub r _ ?_
      obtain ⟨a, ha, hn⟩ := h
      rcases List.mem_cons.1 ha with rfl | ha
      · refine absurd ⟨?_, (trunc_cat hb).2⟩ hn
        push Not at hb
        have := hb.1
        unfold trunc at this
        split_ifs at this with h0
        · linarith
        · have := Int.le_ceil_iff.1 this
          push_cast at this; linarith
      · exact ⟨a, ha, hn⟩

theorem sum_total (n : ℕ) (w : ℕ → ℝ) (c : ℕ → ℕ) (j : ℕ) : ((List.range n).map fun i => if c i = j then w i else 0).sum = total n w c j := by
  unfold total
  rw [Finset.sum_filter, ← List.sum_toFinset _ List.nodup_range, List.toFinset_range]

theorem counts_total {J : ℕ} {D : Data} {c : ℕ → ℝ} (h : countLoop J D (List.range D.n) (fun _ => 0) = .ok c) (j : ℕ) :
    c j = total D.n D.wt D.cat j := by
  rw [(countLoop_spec _ h).2 j, zero_add, sum_total]

/-! ## The end of the estimation -/

section
variable {k : ℕ} {S : Fns} {E : Env k} {form : Form} {dd : Bool} {n : ℕ} {counts : ℕ → ℝ} {F : (ℕ → ℝ) → Dbl ℝ}
  {G : (ℕ → ℝ) → ℕ → ℝ} {H : (ℕ → ℝ) → ℕ → ℕ → ℝ} {b : Fin k → ℝ} {r : Est k}

/-- What the results have in common. -/
structure Ended (S : Fns) (E : Env k) (form : Form) (dd : Bool) (n : ℕ) (counts : ℕ → ℝ) (F : (ℕ → ℝ) → Dbl ℝ) (G : (ℕ → ℝ) → ℕ → ℝ)
    (H : (ℕ → ℝ) → ℕ → ℕ → ℝ) (b : Fin k → ℝ) (r : Est k) : Prop where
  numObs : r.numObs = n
  counts : r.counts = counts
  betaVar : r.betaVar = invert E.lu (mat k (H (ext r.beta)))
  condition : r.condition = if form = .binary then some (norm1 (mat k (H (ext r.beta))) * norm1 r.betaVar) else none
  gradient : r.gradient = vec k (G (ext r.beta))
  logL : r.logL = negD (F (ext r.beta))
  aic : r.aic = aicOf k r.logL
  sic : r.sic = sicOf n k r.logL
  std : r.std = if dd then some (details S r.beta r.betaVar).1 else none
  z : r.z = if dd then some (details S r.beta r.betaVar).2.1 else none
  prob : r.prob = if dd then some (details S r.beta r.betaVar).2.2 else none
  better : NotWorse (F (ext r.beta)) (F (ext b))

theorem finish_spec (hl : E.opts.useLineSearch = true) (h : finish S E form dd n counts F G H b = .ok r) :
    Ended S E form dd n counts F G H b r := by
  unfold finish at h
  cases hs : newton E.vars E.opts Real.sqrt E.chol (fun b => F (ext b)) (fun b => vec k (G (ext b))) (fun b => mat k (H (ext b))) b 0 .nan .nan with
  | ok s =>
    rw [hs] at h
    have h' := Outcome.ok.inj h
    obtain ⟨a1, a2, _⟩ := C97_path hl hs
    have a3 := C97_descent hl hs
    subst h'
    exact ⟨rfl, rfl, rfl, rfl, a2, by rw [a1], rfl, rfl, rfl, rfl, rfl, by rw [a1] at a3; exact a3⟩
  | throws => rw [hs] at h; exact absurd h (by simp [bind, Outcome.bind])
  | ub => rw [hs] at h; exact absurd h (by simp [bind, Outcome.bind])
  | diverges => rw [hs] at h; exact absurd h (by simp [bind, Outcome.bind])

theorem fromStart_spec {prior : Outcome (Option (ℕ → ℝ))} {ols : Bool} {start : Option (Fin k → ℝ)}
    (h : fromStart S E form dd n counts F G H prior ols start = .ok r) :
    (∃ b, finish S E form dd n counts F G H b = .ok r ∧
      ((ols = false ∧ start = some b) ∨ ((ols = true ∨ start = none) ∧ ∃ p, prior = .ok (some p) ∧ b = vec k p))) ∨
    (E.other = .ok r ∧ prior = .ok none) := by
  have key : (ols = true ∨ start = none) → (do
      let p ← prior
      match p with
      | none => E.other
      | some b => finish S E form dd n counts F G H (vec k b)) = .ok r → (∃ b, finish S E form dd n counts F G H b = .ok r ∧
      ((ols = false ∧ start = some b) ∨ ((ols = true ∨ start = none) ∧ ∃ p, prior = .ok (some p) ∧ b = vec k p))) ∨
    (E.other = .ok r ∧ prior = .ok none) := fun ho h => by
    cases hp : prior with
    | ok p =>
      rw [hp] at h
      cases p with
      | none => exact Or.inr ⟨h, rfl⟩
      | some p => exact Or.inl ⟨_, h, Or.inr ⟨ho, p, rfl, rfl⟩⟩
    | throws => rw [hp] at h; exact absurd h (by simp [bind, Outcome.bind])
    | ub => rw [hp] at h; exact absurd h (by simp [bind, Outcome.bind])
    | diverges => rw [hp] at h; exact absurd h (by simp [bind, Outcome.bind])
  unfold fromStart at h
  cases ols with
  | true => exact key (Or.inl rfl) h
  | false =>
    cases start with
    | none => exact key (Or.inr rfl) h
    | some b => exact Or.inl ⟨b, h, Or.inl ⟨rfl, rfl⟩⟩

theorem le_num {a : Dbl ℝ} {b : ℝ} (h : NotWorse a (.num b)) : a = .ninf ∨ ∃ c, a = .num c ∧ c ≤ b := by
  rcases h with h | h
  · cases h
  · cases a with
    | num c => exact Or.inr ⟨c, rfl, by simpa [Dbl.le] using h⟩
    | ninf => exact Or.inl rfl
    | pinf => simp [Dbl.le] at h
    | nan => simp [Dbl.le] at h

end

/-! ## Definite matrices -/

theorem mat_sum {k : ℕ} (h : ℕ → ℕ → ℝ) (d : ℕ → ℝ) :
    ∑ a : Fin k, ∑ b : Fin k, d a * mat k h a b * d b = ∑ l ∈ Finset.range k, ∑ m ∈ Finset.range k, d l * h l m * d m := by
  rw [Finset.sum_range]
  refine Finset.sum_congr rfl fun a _ => ?_
  rw [Finset.sum_range]
  rfl

end Dc
end LDT
