import Verif.Lemmas.ChoiceBinary
import Verif.Lemmas.ChoiceFit
/-!
# C112, C113: what is maximised in a discrete choice model

The function, the gradient and the Hessian handed to the optimiser are minus the logarithm of the likelihood and its derivatives. They are
convex, so a point where the gradient is zero is the maximum of the likelihood.
-/
namespace LDT
namespace Dc
open Di Op Set

theorem foldl_pos_of_sum {k : ℕ} (f : ℕ → ℝ) (g : ℕ → ℝ) (h : ∀ l < k, f l = g l) :
    ∑ l ∈ Finset.range k, f l = ∑ l ∈ Finset.range k, g l := Finset.sum_congr rfl fun l hl => h l (Finset.mem_range.1 hl)

/-- The observations `a < n'` repeat observation `i` of `n` exactly `m i` times. -/
def Repeats (n n' : ℕ) (r : ℕ → ℕ) (m : ℕ → ℕ) : Prop :=
  (∀ a < n', r a < n) ∧ ∀ i < n, ((Finset.range n').filter fun a => r a = i).card = m i

theorem sum_repeats {n n' : ℕ} {r m : ℕ → ℕ} (h : Repeats n n' r m) (f : ℕ → ℝ) :
    ∑ a ∈ Finset.range n', f (r a) = ∑ i ∈ Finset.range n, (m i : ℝ) * f i := by
  rw [← Finset.sum_fiberwise_of_maps_to (s := Finset.range n') (t := Finset.range n) (g := r)
    (fun a ha => Finset.mem_range.2 (h.1 a (Finset.mem_range.1 ha)))]
  refine Finset.sum_congr rfl fun i hi => ?_
  rw [← h.2 i (Finset.mem_range.1 hi), Finset.sum_congr rfl (g := fun _ => f i) (fun a ha => by rw [(Finset.mem_filter.1 ha).2]),
    Finset.sum_const, nsmul_eq_mul]

theorem quad_sum {k : ℕ} (H : ℕ → ℕ → ℝ) (h : (ℕ → ℝ) → (ℕ → ℝ) → ℝ) (hc : ∀ d e, h d e = h e d)
    (hs : ∀ d e, h d e = ∑ l ∈ Finset.range k, e l * h d (unit l)) (hH : ∀ l < k, ∀ m < k, H l m = h (unit l) (unit m)) (d : ℕ → ℝ) :
    ∑ l ∈ Finset.range k, ∑ m ∈ Finset.range k, d l * H l m * d m = h d d := by
  rw [hs d d]
  refine Finset.sum_congr rfl fun l hl => ?_
  rw [hc d (unit l), hs (unit l) d, Finset.mul_sum]
  refine Finset.sum_congr rfl fun m hm => ?_
  rw [hH l (Finset.mem_range.1 hl) m (Finset.mem_range.1 hm)]; ring

/-! ## C112: two choices -/

section binary
variable {S : Fns} (hS : S.Good) (law : Law) (D : Data) (hy : ∀ i < D.n, D.y i = 0 ∨ D.y i = 1)
include hS hy

/-- **C112.** What is minimised is minus the logarithm of the likelihood, each observation counted with its weight. -/
theorem C112_likelihood (β : ℕ → ℝ) : funBinary S law D β = -logLik law.cdf D.n 1 D.k0 D.wt D.cat D.x β := funBinary_eq hS law D hy β

theorem increasing_one (k0 : ℕ) (β : ℕ → ℝ) : Increasing 1 k0 β := fun j hj => by omega

omit hS in
theorem pos_binary (β : ℕ → ℝ) : ∀ i < D.n, 0 < chanceAt law.cdf 1 D.k0 D.x D.cat i β := fun i hi => by
  rw [chanceAt_eq]; exact chance_pos law.link (fun j hj => by omega) (le_refl 1) _ (cat_le D hy i hi)

/-- **C112.** The gradient is the derivative of the function, in every direction. -/
theorem C112_gradient (β d : ℕ → ℝ) :
    HasDerivAt (fun t => funBinary S law D fun l => β l + t * d l) (∑ l ∈ Finset.range D.k0, d l * gfunBinary S law D β l) 0 := by
  have h := logLik_deriv (w := D.wt) law.link β d 0 (pos_binary law D hy _)
  have e : (fun t => funBinary S law D fun l => β l + t * d l) = fun t => -logLik law.cdf D.n 1 D.k0 D.wt D.cat D.x (move β d t) :=
    funext fun t => funBinary_eq hS law D hy _
  rw [e]
  refine h.congr_deriv ?_
  rw [move_zero, grad_sum (cat_le D hy), Nat.add_sub_cancel]
  exact foldl_pos_of_sum _ _ fun l hl => by rw [gfunBinary_eq hS law D hy β l hl]

/-- **C112.** The Hessian is the derivative of the gradient. -/
theorem C112_hessian (β d : ℕ → ℝ) {l : ℕ} (hl : l < D.k0) :
    HasDerivAt (fun t => gfunBinary S law D (fun l => β l + t * d l) l) (∑ m ∈ Finset.range D.k0, d m * hfunBinary S law D β l m) 0 := by
  have h := grad_deriv (w := D.wt) law.link β (unit l) d 0 (pos_binary law D hy _)
  have e : (fun t => gfunBinary S law D (fun l => β l + t * d l) l) = fun t => grad law.cdf law.pdf 1 D.k0 D.n D.wt D.cat D.x (move β d t) (unit l) :=
    funext fun t => gfunBinary_eq hS law D hy _ l hl
  rw [e]
  refine h.congr_deriv ?_
  rw [move_zero, hess_sum (cat_le D hy), Nat.add_sub_cancel]
  exact foldl_pos_of_sum _ _ fun m hm => by rw [hfunBinary_eq hS law D hy β l m hl hm]

/-- **C112.** The Hessian is symmetric; for weights that are not negative it is not negative in any direction, and for independent regressors
it is positive definite. -/
theorem C112_definite (hw : ∀ i < D.n, 0 ≤ D.wt i) (β d : ℕ → ℝ) :
    (∀ l < D.k0, ∀ m < D.k0, hfunBinary S law D β l m = hfunBinary S law D β m l) ∧
    0 ≤ ∑ l ∈ Finset.range D.k0, ∑ m ∈ Finset.range D.k0, d l * hfunBinary S law D β l m * d m ∧
      (Independent D.n D.k0 D.wt D.x → (∃ l < D.k0, d l ≠ 0) →
        0 < ∑ l ∈ Finset.range D.k0, ∑ m ∈ Finset.range D.k0, d l * hfunBinary S law D β l m * d m) := by
  have e := quad_sum (k := D.k0) (hfunBinary S law D β) (hess law.cdf law.pdf law.slope 1 D.k0 D.n D.wt D.cat D.x β) (hess_comm β)
    (fun d e => by have := hess_sum (G := law.cdf) (g := law.pdf) (s := law.slope) (w := D.wt) (x := D.x) (k0 := D.k0) (cat_le D hy) β d e; rwa [Nat.add_sub_cancel] at this)
    (fun l hl m hm => hfunBinary_eq hS law D hy β l m hl hm) d
  refine ⟨fun l hl m hm => by rw [hfunBinary_eq hS law D hy β l m hl hm, hfunBinary_eq hS law D hy β m l hm hl, hess_comm], ?_, fun hX hd => ?_⟩
  · rw [e]; exact hess_nonneg law.link (le_refl 1) d (pos_binary law D hy β) hw
  · rw [e]
    refine hess_pos law.link (le_refl 1) (pos_binary law D hy β) hw ?_
    exact seen_of_rank (le_refl 1) hw (cat_le D hy) (fun j a b => by omega) hX d (by simpa using hd)

/-- **C112.** Where the gradient is zero the likelihood has its maximum over all coefficients; with independent regressors there is only one
such point. -/
theorem C112_maximum (hw : ∀ i < D.n, 0 ≤ D.wt i) {β : ℕ → ℝ} (h0 : ∀ l < D.k0, gfunBinary S law D β l = 0) (β' : ℕ → ℝ) :
    logLik law.cdf D.n 1 D.k0 D.wt D.cat D.x β' ≤ logLik law.cdf D.n 1 D.k0 D.wt D.cat D.x β ∧
      (Independent D.n D.k0 D.wt D.x → (∃ l < D.k0, β' l ≠ β l) →
        logLik law.cdf D.n 1 D.k0 D.wt D.cat D.x β' < logLik law.cdf D.n 1 D.k0 D.wt D.cat D.x β) := by
  have hg : grad law.cdf law.pdf 1 D.k0 D.n D.wt D.cat D.x β (fun l => β' l - β l) = 0 := by
    rw [grad_sum (cat_le D hy), Nat.add_sub_cancel]
    refine Finset.sum_eq_zero fun l hl => ?_
    rw [← gfunBinary_eq hS law D hy β l (Finset.mem_range.1 hl), h0 l (Finset.mem_range.1 hl), mul_zero]
  have := minimal law.link (le_refl 1) (fun j hj => by omega : Increasing 1 D.k0 β) (fun j hj => by omega : Increasing 1 D.k0 β') hw (cat_le D hy) hg
  refine ⟨this.1, fun hX hd => this.2 ?_⟩
  refine seen_of_rank (le_refl 1) hw (cat_le D hy) (fun j a b => by omega) hX _ ?_
  obtain ⟨l, hl, hd⟩ := hd
  exact ⟨l, by simpa using hl, sub_ne_zero.2 hd⟩

omit hS hy in
/-- **C112.** A weight counts an observation that many times: the function is that of the data in which the observations are repeated. -/
theorem C112_repeated (D' : Data) {r m : ℕ → ℕ} (hr : Repeats D.n D'.n r m) (hw : D.w = some fun i => (m i : ℝ)) (hw' : D'.w = none)
    (hk : D'.k0 = D.k0) (hx : ∀ a < D'.n, D'.x a = D.x (r a)) (hy' : ∀ a < D'.n, D'.y a = D.y (r a)) (β : ℕ → ℝ) :
    funBinary S law D β = funBinary S law D' β := by
  have w1 : ∀ i, D.wt i = m i := fun i => by unfold Data.wt; rw [hw]
  have w2 : ∀ i, D'.wt i = 1 := fun i => by unfold Data.wt; rw [hw']
  have dd : ∀ a < D'.n, dot D'.k0 D'.x β a = dot D.k0 D.x β (r a) := fun a ha => by unfold dot; rw [hk, hx a ha]
  cases law
  · show funLogit D β = funLogit D' β
    unfold funLogit
    rw [foldl_sum, foldl_sum]
    simp only [w1, w2, one_mul, zero_add]
    rw [← sum_repeats hr fun i => (-Real.log (1 + Real.exp (dot D.k0 D.x β i)) + D.y i * dot D.k0 D.x β i)]
    congr 1
    exact foldl_pos_of_sum _ _ fun a ha => by rw [dd a ha, hy' a ha]
  · show funProbit S D β = funProbit S D' β
    unfold funProbit
    rw [foldl_sum, foldl_sum]
    simp only [w1, w2, one_mul, zero_add]
    rw [← sum_repeats hr fun i => (D.y i * Real.log (normalCdf S (dot D.k0 D.x β i)) + (1 - D.y i) * Real.log (1 - normalCdf S (dot D.k0 D.x β i)))]
    congr 1
    exact foldl_pos_of_sum _ _ fun a ha => by rw [dd a ha, hy' a ha]

end binary

/-! ## C113: more choices -/

section ordered
variable {S : Fns} (hS : S.Good) (law : Law) {J : ℕ} (hJ : 2 ≤ J) (D : Data) (hc : ∀ i < D.n, D.cat i ≤ J)

theorem foldl_num (n : ℕ) (f : ℕ → Dbl ℝ) (g : ℕ → ℝ) (h : ∀ i < n, f i = .num (g i)) (a : ℝ) :
    (List.range n).foldl (fun s i => (exact : Ops ℝ).add s (f i)) (.num a) = .num (a + ∑ i ∈ Finset.range n, g i) := by
  induction n with
  | zero => simp
  | succ n ih =>
    rw [List.range_succ, List.foldl_append, ih fun i hi => h i (by omega), Finset.sum_range_succ, List.foldl_cons, List.foldl_nil, h n (by omega),
      ← add_assoc]
    rfl

theorem foldl_nan (f : ℕ → Dbl ℝ) (l : List ℕ) (hl : ∃ i ∈ l, f i = .nan) (a : Dbl ℝ) : l.foldl (fun s i => (exact : Ops ℝ).add s (f i)) a = .nan := by
  have stay : ∀ l : List ℕ, l.foldl (fun s i => (exact : Ops ℝ).add s (f i)) .nan = .nan := by
    intro l
    induction l with
    | nil => rfl
    | cons b l ih => rw [List.foldl_cons]; exact ih
  induction l generalizing a with
  | nil => obtain ⟨i, hi, _⟩ := hl; simp at hi
  | cons b l ih =>
    rw [List.foldl_cons]
    obtain ⟨i, hi, e⟩ := hl
    rcases List.mem_cons.1 hi with rfl | hi
    · rw [e]
      have : (exact : Ops ℝ).add a .nan = .nan := by cases a <;> rfl
      rw [this]; exact stay l
    · exact ih ⟨i, hi, e⟩ _

include hS hJ hc

/-- **C113.** Where each observed choice has a positive probability, what is minimised is minus the logarithm of the likelihood. -/
theorem C113_likelihood {β : ℕ → ℝ} (hp : ∀ i < D.n, 0 < chance law.cdf J D.k0 β (index D.k0 D.x β i) (D.cat i)) :
    funOrdered S law J D β = .num (-logLik law.cdf D.n J D.k0 D.wt D.cat D.x β) := by
  unfold funOrdered
  rw [foldl_num D.n _ (fun i => D.wt i * Real.log (chance law.cdf J D.k0 β (index D.k0 D.x β i) (D.cat i))) (fun i hi => by
    rw [parts_P hS law D β i hJ (hc i hi), chanceAt_eq]
    unfold logD
    rw [if_neg (not_lt.2 (hp i hi).le), if_neg (hp i hi).ne']
    rfl)]
  rw [zero_add]
  rfl

/-- **C113.** With cutoffs in the wrong order around an observed choice there is no value. -/
theorem C113_unordered {β : ℕ → ℝ} (hn : ∃ i < D.n, D.cat i ≠ 0 ∧ D.cat i ≠ J ∧ cut D.k0 β (D.cat i) < cut D.k0 β (D.cat i - 1)) :
    funOrdered S law J D β = .nan := by
  unfold funOrdered
  obtain ⟨i, hi, a, b, h⟩ := hn
  rw [foldl_nan _ _ ⟨i, List.mem_range.2 hi, ?_⟩]
  · rfl
  · rw [parts_P hS law D β i hJ (hc i hi), chanceAt_eq]
    have hneg : chance law.cdf J D.k0 β (index D.k0 D.x β i) (D.cat i) < 0 := by
      unfold chance
      rw [if_neg b, if_neg a]
      have := law.link.strictMono (show cut D.k0 β (D.cat i) - index D.k0 D.x β i < cut D.k0 β (D.cat i - 1) - index D.k0 D.x β i by linarith)
      linarith
    unfold logD
    rw [if_pos hneg]
    rfl

/-- **C113.** The gradient is the derivative of minus the logarithm of the likelihood, in every direction; nothing is written behind the last
cutoff. -/
theorem C113_gradient {β : ℕ → ℝ} (hp : ∀ i < D.n, 0 < chance law.cdf J D.k0 β (index D.k0 D.x β i) (D.cat i)) (d : ℕ → ℝ) :
    HasDerivAt (fun t => -logLik law.cdf D.n J D.k0 D.wt D.cat D.x fun l => β l + t * d l)
      (∑ l ∈ Finset.range (D.k0 + J - 1), d l * gfunOrdered S law J D β l) 0 ∧
    ∀ l, D.k0 + J - 1 ≤ l → gfunOrdered S law J D β l = 0 := by
  refine ⟨?_, fun l hl => ?_⟩
  · have h := logLik_deriv (w := D.wt) (J := J) (k0 := D.k0) (c := D.cat) (x := D.x) (n := D.n) law.link β d 0 (by rw [move_zero]; exact hp)
    refine h.congr_deriv ?_
    rw [move_zero, grad_sum hc]
    exact foldl_pos_of_sum _ _ fun l _ => by rw [gfunOrdered_eq hS law D hJ hc β l]
  · rw [gfunOrdered_eq hS law D hJ hc β l, grad_sum hc]
    refine Finset.sum_eq_zero fun m hm => ?_
    have := Finset.mem_range.1 hm
    rw [show unit l m = 0 by unfold unit; rw [if_neg (by omega)], zero_mul]

/-- **C113.** The Hessian is the derivative of the gradient. -/
theorem C113_hessian {β : ℕ → ℝ} (hp : ∀ i < D.n, 0 < chance law.cdf J D.k0 β (index D.k0 D.x β i) (D.cat i)) (d : ℕ → ℝ) {l : ℕ}
    (hl : l < D.k0 + J - 1) :
    HasDerivAt (fun t => gfunOrdered S law J D (fun l => β l + t * d l) l)
      (∑ m ∈ Finset.range (D.k0 + J - 1), d m * hfunOrdered S law J D β l m) 0 := by
  have h := grad_deriv (w := D.wt) (J := J) (k0 := D.k0) (c := D.cat) (x := D.x) (n := D.n) law.link β (unit l) d 0 (by rw [move_zero]; exact hp)
  have e : (fun t => gfunOrdered S law J D (fun l => β l + t * d l) l) = fun t => grad law.cdf law.pdf J D.k0 D.n D.wt D.cat D.x (move β d t) (unit l) :=
    funext fun t => gfunOrdered_eq hS law D hJ hc _ l
  rw [e]
  refine h.congr_deriv ?_
  rw [move_zero, hess_sum hc]
  exact foldl_pos_of_sum _ _ fun m _ => by rw [hfunOrdered_eq hS law D hJ hc β l m hl]

/-- **C113.** The Hessian is symmetric; for weights that are not negative it is not negative in any direction, and if each middle choice is
observed and the regressors are independent it is positive definite. -/
theorem C113_definite {β : ℕ → ℝ} (hp : ∀ i < D.n, 0 < chance law.cdf J D.k0 β (index D.k0 D.x β i) (D.cat i)) (hw : ∀ i < D.n, 0 ≤ D.wt i)
    (d : ℕ → ℝ) :
    (∀ l < D.k0 + J - 1, ∀ m < D.k0 + J - 1, hfunOrdered S law J D β l m = hfunOrdered S law J D β m l) ∧
    0 ≤ ∑ l ∈ Finset.range (D.k0 + J - 1), ∑ m ∈ Finset.range (D.k0 + J - 1), d l * hfunOrdered S law J D β l m * d m ∧
      (Independent D.n D.k0 D.wt D.x → (∀ j, 1 ≤ j → j < J → ∃ i < D.n, 0 < D.wt i ∧ D.cat i = j) → (∃ l < D.k0 + J - 1, d l ≠ 0) →
        0 < ∑ l ∈ Finset.range (D.k0 + J - 1), ∑ m ∈ Finset.range (D.k0 + J - 1), d l * hfunOrdered S law J D β l m * d m) := by
  have e := quad_sum (k := D.k0 + J - 1) (hfunOrdered S law J D β) (hess law.cdf law.pdf law.slope J D.k0 D.n D.wt D.cat D.x β) (hess_comm β)
    (hess_sum hc β) (fun l hl m _ => hfunOrdered_eq hS law D hJ hc β l m hl) d
  refine ⟨fun l hl m hm => by rw [hfunOrdered_eq hS law D hJ hc β l m hl, hfunOrdered_eq hS law D hJ hc β m l hm, hess_comm], ?_, fun hX hm hd => ?_⟩
  · rw [e]; exact hess_nonneg law.link (by omega) d hp hw
  · rw [e]
    exact hess_pos law.link (by omega) hp hw (seen_of_rank (by omega) hw hc hm hX d hd)

/-- **C113.** Where the gradient is zero the likelihood has its maximum over all coefficients and increasing cutoffs; it is the only one if each
middle choice is observed and the regressors are independent. -/
theorem C113_maximum (hw : ∀ i < D.n, 0 ≤ D.wt i) {β β' : ℕ → ℝ} (h : Increasing J D.k0 β) (h' : Increasing J D.k0 β')
    (h0 : ∀ l < D.k0 + J - 1, gfunOrdered S law J D β l = 0) :
    logLik law.cdf D.n J D.k0 D.wt D.cat D.x β' ≤ logLik law.cdf D.n J D.k0 D.wt D.cat D.x β ∧
      (Independent D.n D.k0 D.wt D.x → (∀ j, 1 ≤ j → j < J → ∃ i < D.n, 0 < D.wt i ∧ D.cat i = j) → (∃ l < D.k0 + J - 1, β' l ≠ β l) →
        logLik law.cdf D.n J D.k0 D.wt D.cat D.x β' < logLik law.cdf D.n J D.k0 D.wt D.cat D.x β) := by
  have hg : grad law.cdf law.pdf J D.k0 D.n D.wt D.cat D.x β (fun l => β' l - β l) = 0 := by
    rw [grad_sum hc]
    refine Finset.sum_eq_zero fun l hl => ?_
    rw [← gfunOrdered_eq hS law D hJ hc β l, h0 l (Finset.mem_range.1 hl), mul_zero]
  have := minimal law.link (by omega) h h' hw hc hg
  refine ⟨this.1, fun hX hm hd => this.2 ?_⟩
  refine seen_of_rank (by omega) hw hc hm hX _ ?_
  obtain ⟨l, hl, hd⟩ := hd
  exact ⟨l, hl, sub_ne_zero.2 hd⟩

omit hc in
/-- **C113.** A weight counts an observation that many times. -/
theorem C113_repeated (D' : Data) {r m : ℕ → ℕ} (hr : Repeats D.n D'.n r m) (hw : D.w = some fun i => (m i : ℝ)) (hw' : D'.w = none)
    (hk : D'.k0 = D.k0) (hx : ∀ a < D'.n, D'.x a = D.x (r a)) (hy' : ∀ a < D'.n, D'.y a = D.y (r a)) (hc : ∀ i < D.n, D.cat i ≤ J) {β : ℕ → ℝ}
    (hp : ∀ i < D.n, 0 < chance law.cdf J D.k0 β (index D.k0 D.x β i) (D.cat i)) :
    funOrdered S law J D β = funOrdered S law J D' β := by
  have hcat : ∀ a < D'.n, D'.cat a = D.cat (r a) := fun a ha => by unfold Data.cat; rw [hy' a ha]
  have hidx : ∀ a < D'.n, index D'.k0 D'.x β a = index D.k0 D.x β (r a) := fun a ha => by unfold index; rw [hk, hx a ha]
  have w1 : ∀ i, D.wt i = m i := fun i => by unfold Data.wt; rw [hw]
  have w2 : ∀ i, D'.wt i = 1 := fun i => by unfold Data.wt; rw [hw']
  rw [C113_likelihood hS law hJ D hc hp, C113_likelihood hS law hJ D' (fun a ha => by rw [hcat a ha]; exact hc _ (hr.1 a ha)) (fun a ha => by
    rw [hcat a ha, hidx a ha, hk]; exact hp _ (hr.1 a ha))]
  congr 2
  unfold logLik
  simp only [w1, w2, one_mul]
  rw [← sum_repeats hr fun i => Real.log (chance law.cdf J D.k0 β (index D.k0 D.x β i) (D.cat i))]
  exact foldl_pos_of_sum _ _ fun a ha => by rw [hcat a ha, hidx a ha, hk]

end ordered

/-! ## Examples -/

/-- Two observations, a constant, the choices 0 and 1. -/
def exTwo : Data := ⟨2, 1, fun i => i, fun _ _ => 1, none⟩

theorem exTwo_binary : ∀ i < exTwo.n, exTwo.y i = 0 ∨ exTwo.y i = 1 := by
  intro i hi
  have : i < 2 := hi
  interval_cases i <;> simp [exTwo]

/-- The gradient of the logit is zero at zero, so the probability 1/2 for each choice is the only maximum. -/
example {S : Fns} (hS : S.Good) (b : ℝ) (hb : b ≠ 0) :
    logLik logistic 2 1 1 exTwo.wt exTwo.cat exTwo.x (fun _ => b) < logLik logistic 2 1 1 exTwo.wt exTwo.cat exTwo.x fun _ => 0 := by
  refine (C112_maximum hS .logit exTwo exTwo_binary (fun i _ => by simp [Data.wt, exTwo]) (β := fun _ => 0) (fun l hl => ?_) fun _ => b).2
    (fun c hcz l hl => ?_) ⟨0, by simp [exTwo], hb⟩
  · have hl' : l < 1 := hl
    obtain rfl : l = 0 := by omega
    show gfunLogit exTwo _ 0 = 0
    unfold gfunLogit
    simp [exTwo, dot, Data.wt, List.range_succ]
    norm_num
  · have h := hcz 0 (by simp [exTwo]) (by simp [Data.wt, exTwo])
    have hl' : l < 1 := hl
    obtain rfl : l = 0 := by omega
    simpa [index, exTwo] using h

/-- Three observations, a constant, the choices 0, 1 and 2: the hypotheses of the theorems on ordered choices hold at the cutoff 2. -/
example (law : Law) : let D : Data := ⟨3, 1, fun i => i, fun _ _ => 1, none⟩
    (∀ i < D.n, D.cat i ≤ 2) ∧ Increasing 2 D.k0 (fun l => if l = 0 then 1 else 2) ∧
    (∀ i < D.n, 0 < chance law.cdf 2 D.k0 (fun l => if l = 0 then 1 else 2) (index D.k0 D.x (fun l => if l = 0 then 1 else 2) i) (D.cat i)) ∧
    Independent D.n D.k0 D.wt D.x ∧ ∀ j, 1 ≤ j → j < 2 → ∃ i < D.n, 0 < D.wt i ∧ D.cat i = j := by
  intro D
  have hc : ∀ i < D.n, D.cat i ≤ 2 := fun i hi => by
    have : i < 3 := hi
    show ⌊(i : ℝ)⌋₊ ≤ 2
    rw [Nat.floor_natCast]; omega
  have hi : Increasing 2 D.k0 (fun l => if l = 0 then 1 else 2) := by
    intro j hj
    obtain rfl : j = 0 := by omega
    simp [cut, D]
  refine ⟨hc, hi, fun i h => chance_pos law.link hi (by norm_num) _ (hc i h), fun b hb l hl => ?_, fun j h1 h2 => ⟨1, by simp [D], by simp [Data.wt, D], ?_⟩⟩
  · have h := hb 0 (by simp [D]) (by simp [Data.wt, D])
    have hl' : l < 1 := hl
    obtain rfl : l = 0 := by omega
    simpa [index, D] using h
  · obtain rfl : j = 1 := by omega
    show ⌊((1 : ℕ) : ℝ)⌋₊ = 1
    rw [Nat.floor_natCast]

/-- An observation counted twice. -/
example : Repeats 2 3 (fun a => if a = 0 then 0 else 1) (fun i => i + 1) := by
  refine ⟨fun a _ => by dsimp only; split_ifs <;> norm_num, fun i hi => ?_⟩
  interval_cases i <;> decide

end Dc
end LDT
