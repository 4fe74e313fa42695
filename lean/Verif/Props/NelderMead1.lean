import Verif.Props.NelderMead
/-!
# C96: the search of Nelder and Mead for one variable
-/
namespace LDT
namespace Op

section
variable {K : Type} [LinearOrder K] (o : Ops K)

theorem loop1_spec (f : Dbl K → Dbl K) (tol : Dbl K) : ∀ (fuel : Nat) (x0 x1 x2 step : Dbl K) (iter : Int),
    x1 = o.add x0 step → x2 = o.sub x0 step →
    iter ≤ (loop1 o f tol fuel x0 x1 x2 step iter).2 ∧ (loop1 o f tol fuel x0 x1 x2 step iter).2 ≤ iter + fuel ∧
    ((loop1 o f tol fuel x0 x1 x2 step iter).1 = x0 ∨ (f (loop1 o f tol fuel x0 x1 x2 step iter).1).le (f x0) = true) ∧
    ((loop1 o f tol fuel x0 x1 x2 step iter).2 < iter + fuel → ∃ s, ∃ x, x = (loop1 o f tol fuel x0 x1 x2 step iter).1 ∧
      (o.abs (o.sub x (o.add x s))).lt tol = true ∧ (o.abs (o.sub x (o.sub x s))).lt tol = true ∧
      ((f x ≠ .nan ∧ f (o.add x s) ≠ .nan ∧ f (o.sub x s) ≠ .nan) →
        (f x).lt (f (o.add x s)) = true ∧ (f x).lt (f (o.sub x s)) = true))
  | 0, x0, x1, x2, step, iter, _, _ => ⟨le_refl _, by simp [loop1], Or.inl rfl, fun h => by simp [loop1] at h⟩
  | fuel + 1, x0, x1, x2, step, iter, h1, h2 => by
    rw [loop1]
    simp only []
    split_ifs with c1 c2 c3
    · obtain ⟨a, b, c, d⟩ := loop1_spec f tol fuel x1 (o.add x1 step) (o.sub x1 step) step (iter + 1) rfl rfl
      refine ⟨by omega, by push_cast; omega, ?_, fun h => d (by push_cast at h; omega)⟩
      rw [Bool.and_eq_true] at c1
      rcases c with c | c
      · rw [c]; right; exact c1.2
      · right; exact Dbl.le_trans c c1.2
    · obtain ⟨a, b, c, d⟩ := loop1_spec f tol fuel x2 (o.add x2 step) (o.sub x2 step) step (iter + 1) rfl rfl
      refine ⟨by omega, by push_cast; omega, ?_, fun h => d (by push_cast at h; omega)⟩
      rw [Bool.and_eq_true] at c2
      rcases c with c | c
      · rw [c]; right; exact c2.2
      · right; exact Dbl.le_trans c c2.2
    · refine ⟨by simp, by push_cast; omega, Or.inl rfl, fun _ => ⟨step, x0, rfl, ?_⟩⟩
      rw [Bool.and_eq_true, h1, h2] at c3
      refine ⟨c3.1, c3.2, ?_⟩
      rintro ⟨n0, n1, n2⟩
      rw [h1, h2, Bool.and_eq_true, not_and_or] at c1
      rw [h1, h2, Bool.and_eq_true, not_and_or] at c2
      have key : ∀ a b : Dbl K, a ≠ .nan → b ≠ .nan → ¬ a.le b = true → b.lt a = true := by
        intro a b ha hb h
        by_contra g
        rw [Bool.not_eq_true, Dbl.not_lt_le hb ha] at g
        exact h g
      have A : (f x0).lt (f (o.add x0 step)) = true ∨ (f (o.sub x0 step)).lt (f (o.add x0 step)) = true := by
        rcases c1 with c | c
        · right; exact key _ _ n1 n2 c
        · left; exact key _ _ n1 n0 c
      have B : (f x0).lt (f (o.sub x0 step)) = true ∨ (f (o.add x0 step)).lt (f (o.sub x0 step)) = true := by
        rcases c2 with c | c
        · right; exact key _ _ n2 n1 c
        · left; exact key _ _ n2 n0 c
      rcases A with A | A <;> rcases B with B | B
      · exact ⟨A, B⟩
      · exact ⟨A, Dbl.lt_trans A B⟩
      · exact ⟨Dbl.lt_trans B A, B⟩
      · have := Dbl.lt_trans A B
        rw [Dbl.lt_irrefl] at this; cases this
    · obtain ⟨a, b, c, d⟩ := loop1_spec f tol fuel x0 _ _ _ (iter + 1) rfl rfl
      exact ⟨by omega, by push_cast; omega, c, fun h => d (by push_cast at h; omega)⟩

variable (big : Dbl K) (objective : Dbl K → Dbl K) (x0 step : Dbl K) (maxIter : Int) (tol xmin xmax : Dbl K)

/-- **C96.** `Minimize1` makes at most `max_iter` iterations and returns the starting point (moved into the bounds) or a point where
the penalised objective is not larger. If it made fewer iterations, some step `s` is below the tolerance and the objective is strictly
larger at `x + s` and `x - s`. This holds whatever the arithmetic does. -/
theorem C96_found : ∃ x it, minimize1 o big objective x0 step maxIter tol xmin xmax = (x, it) ∧ 0 ≤ it ∧ it ≤ max 0 maxIter ∧
    (x = nearest (some xmin) (some xmax) x0 ∨
      (goal1 o big objective xmin xmax x).le (goal1 o big objective xmin xmax (nearest (some xmin) (some xmax) x0)) = true) ∧
    (it < maxIter → ∃ s, (o.abs (o.sub x (o.add x s))).lt tol = true ∧ (o.abs (o.sub x (o.sub x s))).lt tol = true ∧
      ((goal1 o big objective xmin xmax x ≠ .nan ∧ goal1 o big objective xmin xmax (o.add x s) ≠ .nan ∧
        goal1 o big objective xmin xmax (o.sub x s) ≠ .nan) →
        (goal1 o big objective xmin xmax x).lt (goal1 o big objective xmin xmax (o.add x s)) = true ∧
        (goal1 o big objective xmin xmax x).lt (goal1 o big objective xmin xmax (o.sub x s)) = true)) := by
  obtain ⟨a, b, c, d⟩ := loop1_spec o (goal1 o big objective xmin xmax) tol maxIter.toNat (start1 xmin xmax x0)
    (o.add (start1 xmin xmax x0) step) (o.sub (start1 xmin xmax x0) step) step 0 rfl rfl
  refine ⟨_, _, rfl, a, by show (loop1 _ _ _ _ _ _ _ _ _).2 ≤ _; omega, c, fun h => ?_⟩
  obtain ⟨s, x, rfl, h1, h2, h3⟩ := d (by change (loop1 _ _ _ _ _ _ _ _ _).2 < _ at h; omega)
  exact ⟨s, h1, h2, h3⟩

/-- **C96.** Between the bounds nothing is added to the objective but a zero; without bounds nothing at all. -/
theorem C96_inside {x : Dbl K} (h1 : x.lt xmin = false) (h2 : xmax.lt x = false) :
    goal1 o big objective xmin xmax x = objective x ∨ goal1 o big objective xmin xmax x = o.add (objective x) (o.ofInt 0) := by
  unfold goal1
  split_ifs <;> simp_all

end

section exact
variable {K : Type} [Field K] [LinearOrder K] [IsStrictOrderedRing K]

theorem loop1_flat (f : Dbl K → Dbl K) (c : K) (hf : ∀ x : K, f (.num x) = .num c) (tol : Dbl K) (h : K) :
    ∀ (fuel : Nat) (x : K) (iter : Int),
      loop1 exact f tol fuel (.num x) (.num (x + h)) (.num (x - h)) (.num h) iter = (.num (x + fuel * h), iter + fuel)
  | 0, x, iter => by simp [loop1]
  | fuel + 1, x, iter => by
    rw [loop1]
    simp only [hf]
    rw [if_pos (by simp [Dbl.le])]
    have e1 : exact.add (Dbl.num (x + h)) (Dbl.num h) = Dbl.num (x + h + h) := rfl
    have e2 : exact.sub (Dbl.num (x + h)) (Dbl.num h) = Dbl.num (x + h - h) := rfl
    rw [e1, e2, loop1_flat f c hf tol h fuel (x + h) (iter + 1)]
    push_cast
    refine Prod.ext ?_ ?_
    · simp only [Dbl.num.injEq]; ring
    · simp only []; ring

/-- **C96, violated.** Where the objective does not change the search never stops by itself: it walks to the right for all its
iterations, however small the tolerance allows the step to be. -/
theorem C96_flat_violated (big tol : Dbl K) (c x0 h : K) (maxIter : Int) :
    minimize1 exact big (fun _ => Dbl.num c) (.num x0) (.num h) maxIter tol .nan .nan =
      (Dbl.num (x0 + maxIter.toNat * h), (maxIter.toNat : Int)) := by
  have e1 : start1 .nan .nan (Dbl.num x0) = Dbl.num x0 := by simp [start1, Dbl.lt]
  have e2 : exact.add (Dbl.num x0) (Dbl.num h) = Dbl.num (x0 + h) := rfl
  have e3 : exact.sub (Dbl.num x0) (Dbl.num h) = Dbl.num (x0 - h) := rfl
  unfold minimize1
  simp only []
  rw [e1, e2, e3, loop1_flat _ c (fun x => by simp [goal1]) tol h maxIter.toNat x0 0]
  simp

end exact

/-- **C96, violated.** The penalty is proportional to the square of `x`, not of the distance to the bound: 0 is never penalised. With the
lower bound 1, the identity is minimised just below 0, outside the bounds. -/
theorem C96_bounds_violated : minimize1 (exact : Ops ℚ) (.num 100000) id (.num 1) (.num 1) 100 (.num (1 / 1000000)) (.num 1) .nan =
    (.num (-5 / 1048576), 26) := by decide +kernel

/-- The hypotheses of `C96_found` are empty; a concrete run: the square of the distance to 2, from 0 with step 1. -/
example : minimize1 (exact : Ops ℚ) (.num 100000) (fun x => (exact : Ops ℚ).sq ((exact : Ops ℚ).sub x (.num 2))) (.num 0) (.num 1) 100 (.num (1 / 4))
    .nan .nan = (.num 2, 6) := by decide +kernel

end Op
end LDT
