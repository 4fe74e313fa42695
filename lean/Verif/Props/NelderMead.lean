import Verif.Lemmas.NelderMead
/-!
# C95: the search of Nelder and Mead
-/
namespace LDT
namespace Op
open Mx

/-- A corner of the first simplex: the starting point, or the starting point with one added to a coordinate. -/
def Corner {K : Type} (o : Ops K) (x y : List (Dbl K)) : Prop := y = x ∨ ∃ i < x.length, y = bumped o x i

section
variable {K : Type} [LinearOrder K] (o : Ops K) (P : Params K) (objective : List (Dbl K) → Option (Dbl K))
  {start : List (Dbl K)} {lower upper : Option (List (Dbl K))} {mult diff0 : Dbl K} {work storage : Int}

theorem modify_length' {α : Type} (l : List α) (i : Nat) (f : α → α) : (l.modify i f).length = l.length := by simp

/-- The first simplex. -/
def firstSimplex (g : List (Dbl K) → Dbl K) (x : List (Dbl K)) : List (List (Dbl K) × Dbl K) :=
  (List.range (x.length + 1)).map fun i =>
    ((if i = 0 then x else x.modify (i - 1) fun v => o.add v (o.ofInt 1)),
      g (if i = 0 then x else x.modify (i - 1) fun v => o.add v (o.ofInt 1)))

theorem first_ok {f : List (Dbl K) → Outcome (Dbl K)} {g : List (Dbl K) → Dbl K} {x : List (Dbl K)}
    (hf : ∀ y : List (Dbl K), y.length = x.length → f y = .ok (g y)) :
    (List.range (x.length + 1)).mapM (vertexAt o f x) = .ok (firstSimplex o g x) := by
  refine mapM_spec _ fun i _ => ?_
  unfold vertexAt
  simp only []
  rw [hf _ (by split_ifs <;> simp), Outcome.ok_bind]; rfl

theorem first_valued (g : List (Dbl K) → Dbl K) (x : List (Dbl K)) : Valued g x.length (firstSimplex o g x) := by
  refine ⟨by simp [firstSimplex], fun p hp => ?_⟩
  obtain ⟨i, _, rfl⟩ := List.mem_map.1 hp
  exact ⟨by simp only []; split_ifs <;> simp, rfl⟩

theorem first_corner {g : List (Dbl K) → Dbl K} {x y : List (Dbl K)} (h : Corner o x y) : (y, g y) ∈ firstSimplex o g x := by
  refine List.mem_map.2 ?_
  rcases h with rfl | ⟨i, hi, rfl⟩
  · exact ⟨0, by simp, by simp⟩
  · exact ⟨i + 1, by simp; omega, by simp [bumped]⟩

theorem first_mem {g : List (Dbl K) → Dbl K} {x : List (Dbl K)} {p : List (Dbl K) × Dbl K} (h : p ∈ firstSimplex o g x) :
    Corner o x p.1 ∧ p.2 = g p.1 := by
  obtain ⟨i, hi, rfl⟩ := List.mem_map.1 h
  refine ⟨?_, rfl⟩
  by_cases h0 : i = 0
  · left; simp [h0]
  · right; rw [List.mem_range] at hi
    exact ⟨i - 1, by omega, by simp [h0, bumped]⟩

/-- Arrays of the sizes the class asks for. -/
theorem sizes_ok {n m : Nat} (h1 : 1 ≤ n) (hm : n ≤ m) (hw : (sizes m).1 ≤ work) (hs : (sizes m).2 ≤ storage) :
    ¬ (work < n * (n + 1) + (n + 1) + 4 * n ∨ storage < n) := by
  unfold sizes at hw hs
  simp only [] at hw hs
  have h2 : (n : Int) ≤ m := by exact_mod_cast hm
  have h3 : (1 : Int) ≤ n := by exact_mod_cast h1
  have h4 : ((n : Int) + 1) * (n + 1) * 4 * n ≤ (m + 1) * (m + 1) * 4 * m := by
    have a : ((n : Int) + 1) * (n + 1) ≤ (m + 1) * (m + 1) := by nlinarith
    nlinarith
  have h5 : (n : Int) * (n + 1) + (n + 1) + 4 * n ≤ (n + 1) * (n + 1) * 4 * n := by nlinarith
  omega

section run
variable {n m : Nat} (hn : start.length = n) (h1 : 1 ≤ n) (hnm : n ≤ m) (hw : (sizes m).1 ≤ work) (hs : (sizes m).2 ≤ storage)
  (hl : Long lower n) (hu : Long upper n) (hb : ¬ Bad lower upper start)
include hn h1 hnm hw hs hl hu hb

/-- The call, once the starting point is in the box and the first simplex is built. -/
theorem minimize_eq : minimize o P objective start work storage lower upper mult diff0 =
    (do
      let s ← loop o P (goal o objective mult lower upper) n P.maxIteration.toNat
        ⟨firstSimplex o (score o objective mult lower upper) (clamped lower upper start), 0, diff0⟩
      let p ← Mx.read s.verts (minIndex (s.verts.map Prod.snd))
      let v ← goal o objective mult lower upper p.1
      pure ⟨clamped lower upper start, p.1, v, s.iter, s.diff⟩) := by
  subst hn
  unfold minimize
  simp only []
  rw [clamp_ok hl hu hb, Outcome.ok_bind, if_neg (sizes_ok h1 hnm hw hs)]
  have := first_ok o (f := goal o objective mult lower upper) (g := score o objective mult lower upper)
    (x := clamped lower upper start) (fun y hy => by
      rw [clamped_length] at hy
      exact goal_spec o objective mult (hy ▸ hl) (hy ▸ hu))
  rw [clamped_length] at this
  rw [this]; rfl

/-- The whole run, for any bound `a` that a corner of the first simplex meets. -/
theorem run_spec (hm : ∀ x : List (Dbl K), x.length = n → score o objective mult lower upper x ≠ .ninf) {a : K}
    (ha : ∃ y v, Corner o (clamped lower upper start) y ∧ score o objective mult lower upper y = .num v ∧ v ≤ a) :
    ∃ r, minimize o P objective start work storage lower upper mult diff0 = .ok r ∧ r.start = clamped lower upper start ∧
      r.result.length = n ∧ r.min = score o objective mult lower upper r.result ∧ (∃ v, r.min = .num v ∧ v ≤ a) ∧
      0 ≤ r.iter ∧ r.iter ≤ max 0 P.maxIteration ∧ (r.iter < P.maxIteration → r.diff.lt P.tolerance = true) := by
  rw [minimize_eq o P objective hn h1 hnm hw hs hl hu hb]
  have hf : ∀ x : List (Dbl K), x.length = n → goal o objective mult lower upper x = .ok (score o objective mult lower upper x) :=
    fun x hx => goal_spec o objective mult (hx ▸ hl) (hx ▸ hu)
  have hc : (clamped lower upper start).length = n := by rw [clamped_length, hn]
  have hv := first_valued o (score o objective mult lower upper) (clamped lower upper start)
  rw [hc] at hv
  obtain ⟨y, v, hy, hv1, hv2⟩ := ha
  obtain ⟨s, e, hg, i1, i2, i3⟩ := loop_spec o P hf hm P.maxIteration.toNat
    ⟨firstSimplex o (score o objective mult lower upper) (clamped lower upper start), 0, diff0⟩
    ⟨hv, _, first_corner o hy, v, hv1, hv2⟩
  rw [e, Outcome.ok_bind]
  obtain ⟨w, b, pw, pb, e1, e2, e3, e4, e5, e6, e7, u, e8, e9⟩ := good_ends hg hm
  have hr : Mx.read s.verts (b : Int) = .ok pb := by rw [read_eq_ok]; exact ⟨by omega, by simpa using e4⟩
  have hpb := hg.1.2 _ (List.mem_of_getElem? e4)
  rw [e2, hr, Outcome.ok_bind, hf _ hpb.1, Outcome.ok_bind]
  simp only [] at i1 i2 i3
  refine ⟨_, rfl, rfl, hpb.1, rfl, ⟨u, ?_, e9⟩, i1, ?_, fun h => (i3 ?_).1⟩
  · show score o objective mult lower upper pb.1 = _
    rw [hpb.2, e8]
  · simp only []; omega
  · simp only [] at h; omega

/-- **C95.** If the penalised objective is finite at one corner of the first simplex and is nowhere `-∞`, `Minimize` finishes: the
starting point has been moved to the nearest point of the box, `Min` is the penalised objective at `Result`, it is finite and not
worse than at any corner of the first simplex, at most `MaxIteration` iterations were made, and if there were fewer then `Diff` is
below the tolerance. This holds whatever the arithmetic does. -/
theorem C95_found (hm : ∀ x : List (Dbl K), x.length = n → score o objective mult lower upper x ≠ .ninf)
    (hfin : ∃ y v, Corner o (clamped lower upper start) y ∧ score o objective mult lower upper y = .num v) :
    ∃ r, minimize o P objective start work storage lower upper mult diff0 = .ok r ∧
      r.start = clamped lower upper start ∧ Inside lower upper r.start ∧ r.result.length = n ∧
      r.min = score o objective mult lower upper r.result ∧ (∃ v, r.min = .num v) ∧
      (∀ y, Corner o (clamped lower upper start) y → NotWorse r.min (score o objective mult lower upper y)) ∧
      0 ≤ r.iter ∧ r.iter ≤ max 0 P.maxIteration ∧ (r.iter < P.maxIteration → r.diff.lt P.tolerance = true) := by
  obtain ⟨y, v, hy, hv⟩ := hfin
  obtain ⟨r, e, r1, r2, r3, ⟨u, r4, _⟩, r5⟩ :=
    run_spec o P objective (diff0 := diff0) hn h1 hnm hw hs hl hu hb hm ⟨y, v, hy, hv, le_refl v⟩
  refine ⟨r, e, r1, ?_, r2, r3, ⟨u, r4⟩, fun z hz => ?_, r5⟩
  · rw [r1]
    intro i v hv
    simp only [clamped, List.getElem?_mapIdx, Option.map_eq_some_iff] at hv
    obtain ⟨x, hx, rfl⟩ := hv
    have hi : i < start.length := by rw [List.getElem?_eq_some_iff] at hx; exact hx.1
    refine nearest_inside ?_ x ?_
    · intro h; exact hb ⟨i, hi, Or.inr h⟩
    · intro h; rw [h] at hx; exact hb ⟨i, hi, Or.inl hx⟩
  · cases hz2 : score o objective mult lower upper z with
    | nan => left; rfl
    | pinf => right; rw [r4]; rfl
    | ninf =>
      refine absurd hz2 (hm z ?_)
      rcases hz with rfl | ⟨i, _, rfl⟩
      · rw [clamped_length, hn]
      · simp [bumped, clamped_length, hn]
    | num w =>
      right
      obtain ⟨r', e', _, _, _, ⟨u', r4', hu'⟩, _⟩ :=
        run_spec o P objective (diff0 := diff0) hn h1 hnm hw hs hl hu hb hm ⟨z, w, hz, hz2, le_refl w⟩
      rw [e] at e'
      cases Outcome.ok.inj e'
      rw [r4'] at r4 ⊢
      simpa [Dbl.le] using hu'

/-- **C95.** A larger `MaxIteration` never gives a worse minimum. -/
theorem C95_longer (hm : ∀ x : List (Dbl K), x.length = n → score o objective mult lower upper x ≠ .ninf)
    (hfin : ∃ y v, Corner o (clamped lower upper start) y ∧ score o objective mult lower upper y = .num v)
    {M : Int} (hM : P.maxIteration ≤ M) :
    ∃ r r', minimize o P objective start work storage lower upper mult diff0 = .ok r ∧
      minimize o { P with maxIteration := M } objective start work storage lower upper mult diff0 = .ok r' ∧
      ∃ v v', r.min = .num v ∧ r'.min = .num v' ∧ v' ≤ v ∧ r.iter ≤ r'.iter := by
  rw [minimize_eq o P objective hn h1 hnm hw hs hl hu hb, minimize_eq o _ objective hn h1 hnm hw hs hl hu hb]
  have hf : ∀ x : List (Dbl K), x.length = n → goal o objective mult lower upper x = .ok (score o objective mult lower upper x) :=
    fun x hx => goal_spec o objective mult (hx ▸ hl) (hx ▸ hu)
  have hc : (clamped lower upper start).length = n := by rw [clamped_length, hn]
  have hv := first_valued o (score o objective mult lower upper) (clamped lower upper start)
  rw [hc] at hv
  obtain ⟨y, v, hy, hv1⟩ := hfin
  obtain ⟨s, e, hg, i1, i2, i3⟩ := loop_spec o P hf hm P.maxIteration.toNat
    ⟨firstSimplex o (score o objective mult lower upper) (clamped lower upper start), 0, diff0⟩
    ⟨hv, _, first_corner o hy, v, hv1, le_refl v⟩
  obtain ⟨w, b, pw, pb, e1, e2, e3, e4, e5, e6, e7, u, e8, e9⟩ := good_ends hg hm
  have hr : Mx.read s.verts (b : Int) = .ok pb := by rw [read_eq_ok]; exact ⟨by omega, by simpa using e4⟩
  have hpb := hg.1.2 _ (List.mem_of_getElem? e4)
  rw [e, Outcome.ok_bind, e2, hr, Outcome.ok_bind, hf _ hpb.1, Outcome.ok_bind]
  simp only []
  have sameP : ∀ (k : Nat) (t : State K), loop o { P with maxIteration := M } (goal o objective mult lower upper) n k t =
      loop o P (goal o objective mult lower upper) n k t := by
    intro k
    induction k with
    | zero => intro t; rfl
    | succ k ih =>
      intro t
      rw [loop, loop]
      simp only [ih]
      rfl
  rw [sameP]
  obtain ⟨j, hj⟩ : ∃ j, M.toNat = P.maxIteration.toNat + j := ⟨M.toNat - P.maxIteration.toNat, by omega⟩
  rw [hj]
  rcases loop_add o P (goal o objective mult lower upper) n P.maxIteration.toNat j
      ⟨firstSimplex o (score o objective mult lower upper) (clamped lower upper start), 0, diff0⟩ with ⟨s', g1, g2⟩ | g
  · rw [e] at g2
    cases Outcome.ok.inj g2
    rw [g1, Outcome.ok_bind, e2, hr, Outcome.ok_bind, hf _ hpb.1, Outcome.ok_bind]
    exact ⟨_, _, rfl, rfl, u, u, by rw [hpb.2, e8], by rw [hpb.2, e8], le_refl _, le_refl _⟩
  · rw [g, e, Outcome.ok_bind]
    obtain ⟨s', e', hg', i1', _, _⟩ := loop_spec o P hf hm (a := u) j s ⟨hg.1, pb, List.mem_of_getElem? e4, u, e8, le_refl u⟩
    obtain ⟨_, b', _, pb', _, e2', _, e4', _, _, _, u', e8', e9'⟩ := good_ends hg' hm
    have hr' : Mx.read s'.verts (b' : Int) = .ok pb' := by rw [read_eq_ok]; exact ⟨by omega, by simpa using e4'⟩
    have hpb' := hg'.1.2 _ (List.mem_of_getElem? e4')
    rw [e', Outcome.ok_bind, e2', hr', Outcome.ok_bind, hf _ hpb'.1, Outcome.ok_bind]
    exact ⟨_, _, rfl, rfl, u, u', by rw [hpb.2, e8], by rw [hpb'.2, e8'], e9', i1'⟩

/-- **C95, violated.** If the objective throws, or is `NaN` or infinitely large, at every point - the `catch` says such points are merely
infinitely bad - the best vertex is looked for at index `-1`. -/
theorem C95_failing_violated (hbad : ∀ x : List (Dbl K), x.length = n →
    score o objective mult lower upper x = .nan ∨ score o objective mult lower upper x = .pinf) :
    minimize o P objective start work storage lower upper mult diff0 = .ub := by
  rw [minimize_eq o P objective hn h1 hnm hw hs hl hu hb]
  have hc : (clamped lower upper start).length = n := by rw [clamped_length, hn]
  have hfirst : ∀ x ∈ (firstSimplex o (score o objective mult lower upper) (clamped lower upper start)).map Prod.snd,
      x.lt .pinf = false := by
    intro x hx
    obtain ⟨p, hp, rfl⟩ := List.mem_map.1 hx
    have hv := (first_valued o (score o objective mult lower upper) (clamped lower upper start)).2 p hp
    rcases hbad p.1 (hv.1.trans hc) with g | g <;> rw [← hv.2, g] <;> rfl
  have hidx := minIndex_none hfirst
  cases hk : P.maxIteration.toNat with
  | zero =>
    rw [loop]
    show (Mx.read _ _ >>= _) = _
    rw [hidx]; rfl
  | succ k =>
    rw [loop]
    simp only []
    rw [hidx]
    cases hq : Mx.read (firstSimplex o (score o objective mult lower upper) (clamped lower upper start))
      (maxIndex ((firstSimplex o (score o objective mult lower upper) (clamped lower upper start)).map Prod.snd)) with
    | ok a => rfl
    | ub => rfl
    | throws => unfold Mx.read at hq; split_ifs at hq; split at hq <;> cases hq
    | diverges => unfold Mx.read at hq; split_ifs at hq; split at hq <;> cases hq

/-- **C95, violated.** If the objective is `-∞` at every corner of the first simplex, the worst vertex is looked for at index `-1`. -/
theorem C95_unbounded_violated (hbad : ∀ x : List (Dbl K), x.length = n → score o objective mult lower upper x = .ninf)
    (hM : 0 < P.maxIteration) :
    minimize o P objective start work storage lower upper mult diff0 = .ub := by
  rw [minimize_eq o P objective hn h1 hnm hw hs hl hu hb]
  have hc : (clamped lower upper start).length = n := by rw [clamped_length, hn]
  have hfirst : ∀ x ∈ (firstSimplex o (score o objective mult lower upper) (clamped lower upper start)).map Prod.snd,
      Dbl.ninf.lt x = false := by
    intro x hx
    obtain ⟨p, hp, rfl⟩ := List.mem_map.1 hx
    have hv := (first_valued o (score o objective mult lower upper) (clamped lower upper start)).2 p hp
    rw [← hv.2, hbad p.1 (hv.1.trans hc)]; rfl
  obtain ⟨k, hk⟩ : ∃ k, P.maxIteration.toNat = k + 1 := ⟨P.maxIteration.toNat - 1, by omega⟩
  rw [hk, loop]
  simp only []
  rw [maxIndex_none hfirst]; rfl

end run

/-- **C95.** A starting point with a missing coordinate, and crossed bounds, are refused. -/
theorem C95_refused (hl : Long lower start.length) (hu : Long upper start.length) (hb : Bad lower upper start) :
    minimize o P objective start work storage lower upper mult diff0 = .throws := by
  unfold minimize
  simp only []
  rw [clamp_throws hl hu hb]; rfl

/-- **C95, violated.** For an objective without variables the class asks for no work space and then uses it. -/
theorem C95_empty_violated : minimize o P objective [] (sizes 0).1 (sizes 0).2 none none mult diff0 = .ub := by
  unfold minimize sizes; simp [upTo]

end

section exact
variable {K : Type} [Field K] [LinearOrder K] [IsStrictOrderedRing K]

/-- The square of the distance of `x` to the interval from `l` to `u`. -/
def gap (l u x : K) : K := (max 0 (l - x) + max 0 (x - u)) ^ 2

theorem excess_exact {l u x : K} (h : l ≤ u) :
    (match excess exact (some (Dbl.num l)) (some (Dbl.num u)) (Dbl.num x) with | some e => exact.sq e | none => Dbl.num 0) =
      Dbl.num (gap l u x) := by
  simp only [excess, gap]
  by_cases h1 : x < l
  · rw [if_pos (by simpa [Dbl.lt] using h1)]
    simp only [exact]
    rw [max_eq_right (by linarith), max_eq_left (by linarith)]
    congr 1; ring
  · rw [if_neg (by simpa [Dbl.lt] using h1)]
    by_cases h2 : u < x
    · rw [if_pos (by simpa [Dbl.lt] using h2)]
      simp only [exact]
      rw [max_eq_left (by linarith), max_eq_right (by linarith)]
      congr 1; ring
    · rw [if_neg (by simpa [Dbl.lt] using h2), max_eq_left (by linarith), max_eq_left (by linarith)]
      simp

theorem fold_exact (l : List (Option (Dbl K))) (w : List K) (s : K)
    (h : l.map (fun e => match e with | some e => exact.sq e | none => Dbl.num 0) = w.map Dbl.num) :
    (l.reduceOption.map exact.sq).foldl exact.add (Dbl.num s) = Dbl.num (s + w.sum) := by
  induction l generalizing w s with
  | nil =>
    cases w with
    | nil => simp [List.reduceOption]
    | cons _ _ => simp at h
  | cons e l ih =>
    cases w with
    | nil => simp at h
    | cons a w =>
      simp only [List.map_cons, List.cons.injEq] at h
      cases e with
      | none =>
        have ha : a = 0 := by have := h.1; simpa using this.symm
        rw [List.reduceOption_cons_of_none, ih w s h.2, ha]; simp
      | some e =>
        rw [List.reduceOption_cons_of_some, List.map_cons, List.foldl_cons]
        have he : exact.sq e = Dbl.num a := h.1
        rw [he]
        show (l.reduceOption.map exact.sq).foldl exact.add (Dbl.num (s + a)) = _
        rw [ih w (s + a) h.2, List.sum_cons]; congr 1; ring

/-- **C95.** With exact arithmetic, what is minimised is the objective plus the multiplier times the sum of the squared distances of the
coordinates to their intervals. -/
theorem C95_penalty (objective : List (Dbl K) → Option (Dbl K)) {mult v : K} {x l u : List K} (hxl : l.length = x.length)
    (hxu : u.length = x.length) (hlu : ∀ i (h : i < x.length), l[i] ≤ u[i]) (hv : objective (x.map .num) = some (.num v)) :
    goal exact objective (.num mult) (some (l.map .num)) (some (u.map .num)) (x.map .num) =
      .ok (.num (v + mult * ∑ i : Fin x.length, gap l[i] u[i] x[i])) := by
  rw [goal_spec exact objective _ (by intro l' h; cases h; simp [hxl]) (by intro l' h; cases h; simp [hxu])]
  unfold score
  rw [hv]
  simp only []
  have hz : (exact.ofInt 0 : Dbl K) = .num 0 := by simp [exact]
  rw [hz, fold_exact _ (List.ofFn fun i : Fin x.length => gap l[i] u[i] x[i]) 0]
  · rw [List.sum_ofFn, zero_add]; rfl
  · apply List.ext_getElem
    · simp
    · intro i h1 h2
      have hi : i < x.length := by simpa using h1
      simp only [List.getElem_map, List.getElem_mapIdx, List.getElem_ofFn]
      rw [bound_some (by simpa [hxl] using hi), bound_some (by simpa [hxu] using hi)]
      simp only [List.getElem_map]
      exact excess_exact (hlu i hi)

end exact

/-! ## A case that meets the hypotheses -/

/-- The square of the distance to 2. -/
def exObjective (x : List (Dbl ℚ)) : Option (Dbl ℚ) :=
  match x with
  | [.num a] => some (.num ((a - 2) * (a - 2)))
  | _ => none

def exParams : Params ℚ := ⟨.num 1, .num 2, .num (1 / 2), .num (1 / 2), .num (1 / 100), 6⟩

/-- From 7 (moved to the upper bound 5), six iterations: the minimum found is not above that at 5. -/
example : (∃ r, minimize exact exParams exObjective [.num 7] 16 1 (some [.num 0]) (some [.num 5]) (.num 10) .nan = .ok r ∧
    r.start = [.num 5] ∧ (∃ v, r.min = .num v ∧ v ≤ 9) ∧ r.iter ≤ 6) := by
  obtain ⟨r, e, h⟩ := C95_found (start := [Dbl.num 7]) (lower := some [.num 0]) (upper := some [.num 5]) (mult := .num 10) (diff0 := .nan)
    (work := 16) (storage := 1) (exact : Ops ℚ) exParams exObjective (n := 1) (m := 1) rfl (le_refl 1) (le_refl 1) (by decide) (by decide)
    (by intro l h; cases h; decide) (by intro l h; cases h; decide)
    (by
      rintro ⟨i, hi, h | ⟨l, u, h1, h2, h3⟩⟩
      · simp only [List.length_singleton, Nat.lt_one_iff] at hi; subst hi; simp at h
      · simp only [List.length_singleton, Nat.lt_one_iff] at hi; subst hi
        simp only [bound, Option.bind_some, List.getElem?_cons_zero, Option.some.injEq] at h1 h2
        subst h1; subst h2; revert h3; decide +kernel)
    (by
      intro x hx
      obtain ⟨a, rfl⟩ := List.length_eq_one_iff.1 hx
      unfold score
      cases a with
      | nan => simp [exObjective]
      | pinf => simp [exObjective]
      | ninf => simp [exObjective]
      | num a =>
        simp only [exObjective]
        rw [show (exact.ofInt 0 : Dbl ℚ) = .num 0 by simp [exact]]
        rw [fold_exact _ [gap 0 5 a] 0 (by
          simp only [List.mapIdx_cons, List.mapIdx_nil, List.map_cons, List.map_nil, bound, Option.bind_some,
            List.getElem?_cons_zero]
          rw [excess_exact (by norm_num)])]
        simp [exact])
    ⟨[.num 5], 9, Or.inl (by decide +kernel), by decide +kernel⟩
  refine ⟨r, e, h.1.trans (by decide +kernel), ?_, ?_⟩
  · obtain ⟨v, hv⟩ := h.2.2.2.2.1
    refine ⟨v, hv, ?_⟩
    have := h.2.2.2.2.2.1 [.num 5] (Or.inl (by decide +kernel))
    rw [hv, show score exact exObjective (.num 10) (some [.num 0]) (some [.num 5]) [.num 5] = .num 9 by decide +kernel] at this
    rcases this with h | h
    · cases h
    · simpa [Dbl.le] using h
  · exact h.2.2.2.2.2.2.2.1

end Op
end LDT
