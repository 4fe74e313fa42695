import Verif.Props.VarmaMlLik
import Verif.Props.VarmaMlEx
/-!
# C137: the bounds of the estimation, and fits without residuals
-/
namespace LDT
namespace Ve
open Matrix
open Op (Dbl Ops exact)

section
variable {g n k p : ℕ} {θ σ : Type}

/-- The point is within the bounds. -/
def Inside (l u : θ → Dbl ℝ) (x : θ → ℝ) : Prop := ∀ a, (l a).le (.num (x a)) = true ∧ (Dbl.num (x a)).le (u a) = true

/-- The optimiser stays within the bounds it was started with. -/
def Bounded (o : Ulb σ θ) : Prop := ∀ l u, ∃ Inv : σ → Prop, Inv (o.init l u) ∧
  ∀ m x v gr, Inv m → Inside l u x → Inv (o.step m x v gr).1 ∧ Inside l u (o.step m x v gr).2.2.1

theorem search_inside {o : Ulb σ θ} (d : Numeric θ) (f : (θ → ℝ) → Dbl ℝ) {l u : θ → Dbl ℝ} {Inv : σ → Prop}
    (hi : ∀ m x v gr, Inv m → Inside l u x → Inv (o.step m x v gr).1 ∧ Inside l u (o.step m x v gr).2.2.1) :
    ∀ (i : ℕ) (r : Search σ θ), Inv r.mem → Inside l u r.x → Inside l u (search o d f i r).x
  | 0, _, _, h => h
  | i + 1, r, hm, h => by
    have hk := hi r.mem r.x r.value r.grad hm h
    unfold search
    generalize o.step r.mem r.x r.value r.grad = z at hk ⊢
    obtain ⟨m, t, x, v⟩ := z
    cases t with
    | evaluate => exact search_inside d f hi i _ hk.1 hk.2
    | next => exact search_inside d f hi i _ hk.1 hk.2
    | stop => exact hk.2

/-- C137: the estimates stay within the given number of standard errors of the start; whatever the objective is. -/
theorem C137_bounds [Fintype θ] [DecidableEq θ] (o : Ulb σ θ) (ho : Bounded o) (d : Numeric θ) (u : Request) (hm : 0 ≤ u.mult) (s : Sample g n k p) (w : Par g k p θ)
    (grad : θ → Dbl ℝ) (b : Start g n θ) (V : Matrix θ θ ℝ) (hV : b.gammavar = some V) (hd : ∀ a, 0 ≤ V a a) (r : Fit g n k p θ)
    (h : finishMl o d u s w grad b = .ok r) (a : θ) : |r.gamma a - b.gamma a| ≤ u.mult * Real.sqrt (V a a) := by
  obtain ⟨_, hg, -⟩ := finish_ok h
  have lim : ∀ sg : ℝ, limits u sg b = fun a => .num (b.gamma a + sg * (u.mult * Real.sqrt (V a a))) := by
    intro sg
    funext a
    unfold limits
    rw [hV]
    simp [diagonal, Di.sqrtD, hd a, exact]
  obtain ⟨Inv, i1, i2⟩ := ho (limits u (-1) b) (limits u 1 b)
  have hb : ∀ a, 0 ≤ u.mult * Real.sqrt (V a a) := fun a => mul_nonneg hm (Real.sqrt_nonneg _)
  have h0 : Inside (limits u (-1) b) (limits u 1 b) b.gamma := by
    intro a
    have := hb a
    rw [lim, lim]
    constructor <;> simp only [Dbl.le, decide_eq_true_eq] <;> linarith
  have := search_inside d (objective s w b.cols) i2 u.maxIter ⟨o.init (limits u (-1) b) (limits u 1 b), b.gamma, .num 0, grad, none⟩ i1 h0 a
  rw [← hg, lim, lim] at this
  simp only [Dbl.le, decide_eq_true_eq] at this
  rw [abs_le]
  constructor <;> linarith [this.1, this.2]

/-- An optimiser that moves to the upper bounds and stops. -/
def upward (θ : Type) : Ulb ((θ → Dbl ℝ) × Bool) θ :=
  ⟨fun _ u => (u, false), fun m x v _ => ((m.1, true), if m.2 then .stop else .evaluate, fun a => match m.1 a with | .num y => y | _ => x a, v)⟩

theorem upward_bounded (θ : Type) : Bounded (upward θ) := by
  intro l u
  refine ⟨fun m => m.1 = u, rfl, ?_⟩
  rintro ⟨u', f⟩ x v gr rfl hx
  refine ⟨rfl, fun a => ?_⟩
  have this : (l a).le (.num (x a)) = true ∧ (Dbl.num (x a)).le (u' a) = true := hx a
  show (l a).le (.num (match u' a with | .num y => y | _ => x a)) = true ∧ (Dbl.num (match u' a with | .num y => y | _ => x a)).le (u' a) = true
  cases hu : u' a with
  | num y =>
    rw [hu] at this
    refine ⟨?_, by simp [Dbl.le]⟩
    cases hl : l a with
    | num z => rw [hl] at this; simp only [Dbl.le, decide_eq_true_eq] at this ⊢; exact this.1.trans this.2
    | ninf => rfl
    | pinf => rw [hl] at this; cases this.1
    | nan => rw [hl] at this; cases this.1
  | pinf => rw [hu] at this; exact this
  | ninf => rw [hu] at this; cases this.2
  | nan => rw [hu] at this; cases this.2

/-- The conditions of `C137_bounds` can be met, and the bounds can be attained: a start at 1 with variance 4 and twice the standard error ends at 5. -/
theorem C137_bounds_example : ∃ r, finishMl (upward (Fin 1)) ⟨fun _ _ _ => .num 0, fun _ x => x, fun _ _ => 1, id⟩ ⟨true, true, 2, 2, 0, fun _ _ => .num 1⟩ pure2
      ⟨fun t _ _ => t 0, fun _ _ _ => .num 0⟩ (fun _ => .num 0) ⟨fun _ => 1, 1, 0, none, some (fun _ _ => 4)⟩ = .ok r ∧ r.gamma 0 = 5 := by
  have h4 : Real.sqrt 4 = 2 := by rw [show (4 : ℝ) = 2 ^ 2 by norm_num]; exact Real.sqrt_sq (by norm_num)
  refine ⟨_, rfl, ?_⟩
  have h0 : (0 : ℝ) ≤ 4 := by norm_num
  dsimp only
  simp [search, limits, diagonal, Di.sqrtD, exact, h4, upward]
  norm_num

/-- C137: an equation that is fitted without residuals has infinite likelihood, and both criteria are −∞. -/
theorem C137_perfect_fit (u : Request) (s : Sample 1 n k 0) (m : Option ℝ) (r : Fit 1 n k 0 (Reg 1 k 0 × Fin 1)) (hd : u.details = true)
    (h : estimateAr u s m = .ok r) (h0 : ∀ i, r.resid 0 i = 0) : ∃ z, r.report = some z ∧ z.ll = .pinf ∧ z.aic = .ninf ∧ z.sic = .ninf := by
  obtain ⟨b, hb, rfl⟩ := ar_ok h
  obtain ⟨h1, h2, h3, _⟩ := C136_least_squares s m b hb
  have hs : b.asModel.sigma2 = some (meanProducts b.resid) := h3
  have hz : meanProducts b.resid = 0 := by
    funext j j'
    have e : ∀ i, b.resid 0 i = 0 := h0
    have ej : j = 0 := Subsingleton.elim _ _
    subst ej
    simp [meanProducts, e]
  have hdet : (meanProducts b.resid).det = 0 := by rw [hz]; exact det_zero
  have hl : lnDet (meanProducts b.resid) = .ninf := by
    unfold lnDet
    rw [if_pos rfl, hdet, if_neg (lt_irrefl _), if_pos rfl]
  refine ⟨_, if_pos hd, ?_⟩
  unfold report
  dsimp only
  rw [hs]
  dsimp only
  rw [hl]
  have h2 : ¬ ((2 : ℝ) < 0) := by norm_num
  have h3 : (0 : ℝ) < 2 := by norm_num
  simp only [exact, times, h2, h3, if_true, if_false, and_self, and_true, true_and]

end
end Ve
end LDT
