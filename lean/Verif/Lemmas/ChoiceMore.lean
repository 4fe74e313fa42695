import Verif.Props.ChoiceEstimate
/-! # A search that starts where the gradient is zero, and data in which observations are repeated -/
namespace LDT
namespace Op
open Matrix

section
variable {n : ℕ} {o : NewtonOpts ℝ} {sqrt : ℝ → ℝ} {chol : Matrix (Fin n) (Fin n) ℝ → Matrix (Fin n) (Fin n) ℝ}
  {F : (Fin n → ℝ) → Dbl ℝ} {G : (Fin n → ℝ) → Fin n → ℝ} {H : (Fin n → ℝ) → Matrix (Fin n) (Fin n) ℝ} {x0 : Fin n → ℝ} {a : ℝ}

theorem newtonGnorm_same (s : NewtonState ℝ n) : (newtonGnorm o sqrt s).x = s.x ∧ (newtonGnorm o sqrt s).f = s.f ∧
    (newtonGnorm o sqrt s).g = s.g := by unfold newtonGnorm; split_ifs <;> exact ⟨rfl, rfl, rfl⟩

theorem wolfe_stays (hF : F x0 = .num a) (hG : G x0 = 0) : wolfe F G 0 x0 (F x0) (G x0) 1 (1 / 10000) (9 / 10) 100 = .ok ⟨x0, F x0, G x0, 1⟩ := by
  unfold wolfe
  rw [show (100 - 1 : ℕ) = 98 + 1 from rfl, wolfeLoop]
  have hw : (fun k => (1 : ℝ) * (0 : Fin n → ℝ) k + x0 k) = x0 := by funext k; simp
  simp only [hw, hG, hF, dotProduct_zero, mul_zero]
  rw [if_neg (by simp [exact, Dbl.lt]), if_neg (by simp)]

theorem newton_stays (pn : 0 < n) (hls : o.useLineSearch = true) (hF : F x0 = .num a) (hG : G x0 = 0)
    (hH : Ls.PosDef (mirrored (H x0))) : ∀ (fuel : ℕ) (pre : Dbl ℝ) (s : NewtonState ℝ n), s.x = x0 → s.f = F x0 → s.g = G x0 →
    ∃ r, newtonLoop o sqrt chol F G H fuel pre s = .ok r ∧ r.x = x0 ∧ r.f = F x0 ∧ r.g = G x0
  | 0, pre, s, h1, h2, h3 => ⟨s, rfl, h1, h2, h3⟩
  | fuel + 1, pre, s, h1, h2, h3 => by
    rw [newtonLoop]
    obtain ⟨g1, g2, g3⟩ := newtonGnorm_same (o := o) (sqrt := sqrt) s
    split_ifs with c1
    · exact ⟨_, rfl, by rw [g1, h1], by rw [g2, h2], by rw [g3, h3]⟩
    · dsimp only
      have q : solvePos chol (H (newtonGnorm o sqrt s).x) (fun i => (newtonGnorm o sqrt s).g i * -1) = (0, chol (H x0), 0) := by
        unfold solvePos
        rw [g1, h1, if_pos ⟨pn, hH⟩]
        have : (fun i => (newtonGnorm o sqrt s).g i * -1) = 0 := by funext i; rw [g3, h3, hG]; simp
        rw [this, mulVec_zero]
      rw [q]
      dsimp only
      rw [if_neg (by simp), g1, g2, g3, h1, h2, h3, wolfe_stays hF hG]
      show ∃ r, newtonNext o (newtonLoop o sqrt chol F G H fuel) pre _ = .ok r ∧ _
      unfold newtonNext
      split_ifs with c2
      · dsimp only
        split_ifs with c3
        · exact ⟨_, rfl, rfl, rfl, rfl⟩
        · exact newton_stays pn hls hF hG hH fuel _ _ rfl rfl rfl
      · exact newton_stays pn hls hF hG hH fuel _ _ rfl rfl rfl

end
end Op

namespace Dc
open Op Di

theorem mirrored_symm {k : ℕ} {H : Matrix (Fin k) (Fin k) ℝ} (h : ∀ a b, H a b = H b a) : mirrored H = H := by
  funext i j; unfold mirrored; split_ifs
  · rfl
  · exact h j i

section
variable {k : ℕ} {S : Fns} {E : Env k} {form : Form} {dd : Bool} {n : ℕ} {counts : ℕ → ℝ} {F : (ℕ → ℝ) → Dbl ℝ}
  {G : (ℕ → ℝ) → ℕ → ℝ} {H : (ℕ → ℝ) → ℕ → ℕ → ℝ} {b : Fin k → ℝ} {r : Est k} {a : ℝ}

theorem finish_stays (pk : 0 < k) (hv : k ≤ E.vars) (hl : E.opts.useLineSearch = true) (hF : F (ext b) = .num a) (hG : ∀ l < k, G (ext b) l = 0)
    (hH : Ls.PosDef (mat k (H (ext b)))) : ∃ r, finish S E form dd n counts F G H b = .ok r ∧ r.beta = b ∧ r.counts = counts := by
  obtain ⟨s, e, hx, hf, hg⟩ := newton_stays (o := E.opts) (sqrt := Real.sqrt) (chol := E.chol) (F := fun b => F (ext b))
    (G := fun b => vec k (G (ext b))) (H := fun b => mat k (H (ext b))) (x0 := b) pk hl hF (by funext l; exact hG l l.2)
    (by rw [mirrored_symm hH.1]; exact hH) E.opts.iterationMax (F (ext b)) ⟨b, F (ext b), vec k (G (ext b)), 0, 0, 0, .nan, .nan⟩ rfl rfl rfl
  have e' : newton E.vars E.opts Real.sqrt E.chol (fun b => F (ext b)) (fun b => vec k (G (ext b))) (fun b => mat k (H (ext b))) b 0 .nan .nan = .ok s := by
    unfold newton
    rw [if_neg (by omega)]; exact e
  have q : ∃ r, finish S E form dd n counts F G H b = .ok r ∧ r.beta = s.x ∧ r.counts = counts := by
    unfold finish
    rw [e']
    exact ⟨_, rfl, rfl, rfl⟩
  rwa [hx] at q

/-- Two estimations with the same functions differ only in the numbers of observations and of choices, and in `Sic`. -/
theorem finish_congr {n' : ℕ} {counts' : ℕ → ℝ} {F' : (ℕ → ℝ) → Dbl ℝ} {G' : (ℕ → ℝ) → ℕ → ℝ} {H' : (ℕ → ℝ) → ℕ → ℕ → ℝ}
    (hF : ∀ β, F' β = F β) (hG : ∀ β, ∀ l < k, G' β l = G β l) (hH : ∀ β, ∀ l < k, ∀ m < k, H' β l m = H β l m)
    (h : finish S E form dd n counts F G H b = .ok r) :
    finish S E form dd n' counts' F' G' H' b = .ok { r with numObs := n', counts := counts', sic := sicOf n' k r.logL } := by
  have e1 : (fun b : Fin k → ℝ => F' (ext b)) = fun b => F (ext b) := funext fun b => hF _
  have e2 : (fun b : Fin k → ℝ => vec k (G' (ext b))) = fun b => vec k (G (ext b)) := funext fun b => funext fun l => hG _ l l.2
  have e3 : (fun b : Fin k → ℝ => mat k (H' (ext b))) = fun b => mat k (H (ext b)) := funext fun b => funext fun l => funext fun m => hH _ l l.2 m m.2
  unfold finish at h ⊢
  rw [e1, e2, e3]
  cases hs : newton E.vars E.opts Real.sqrt E.chol (fun b => F (ext b)) (fun b => vec k (G (ext b))) (fun b => mat k (H (ext b))) b 0 .nan .nan with
  | ok s =>
    rw [hs] at h
    have h' := Outcome.ok.inj h
    have e4 : mat k (H' (ext s.x)) = mat k (H (ext s.x)) := congrFun e3 s.x
    subst h'
    simp only [bind, Outcome.bind, e4]
    rfl
  | throws => rw [hs] at h; cases h
  | ub => rw [hs] at h; cases h
  | diverges => rw [hs] at h; cases h

end
end Dc
end LDT
