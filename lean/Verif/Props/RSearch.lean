import Verif.Lemmas.RSearch
/-!
# C141 A search that is called from R comes back with the results of all models
-/
namespace LDT
namespace Rs

/-- A search that is called from R and not interrupted comes back with the results of all its models: for every
schedule in which neither thread is forgotten, if `Start` does not throw. -/
theorem C141_returns (n : ℕ) (iv : Int) (all : ℕ) (σ : ℕ → Ev) (hf : Fair σ) (hc : Calm σ) :
    ∃ t, ∀ u, t ≤ u → Back (run ⟨n, .ok⟩ iv all σ u) (.results n) ∧ (run ⟨n, .ok⟩ iv all σ u).done = n := by
  obtain ⟨t, ht⟩ := todo_zero ⟨n, .ok⟩ iv all σ hf.1
  have hi := inv_run ⟨n, .ok⟩ iv all σ
  have hq := todo_quiet _ ht
  have he : (run ⟨n, .ok⟩ iv all σ t).estimating = false := by
    rcases hq with h | h
    · exact (hi t).est.2 h
    · exact absurd ((hi t).fail h) (by simp)
  obtain ⟨u, r, hb⟩ := ready_back _ iv all σ hf.2 t ⟨hq, Or.inl he⟩
  refine ⟨u, fun v hv => ?_⟩
  obtain ⟨k, rfl⟩ := Nat.exists_eq_add_of_le hv
  have hs := left_stays _ iv all σ u r hb k
  have hc0 := calm_cancel ⟨n, .ok⟩ iv all σ hc (u + k)
  cases r with
  | results m =>
    obtain ⟨h1, h2, h3⟩ := (hi (u + k)).res m (Or.inr hs)
    have h2' : m = n := h2
    exact ⟨h2' ▸ hs, ((hi (u + k)).ok (Or.inr h1) hc0).2⟩
  | cancelled => exact absurd hs ((hi (u + k)).noc.2)
  | interrupted =>
    have := (hi (u + k)).can.2 (Or.inr hs)
    rw [hc0] at this; cases this

/-- Whatever the schedule is: results are only handed over when the worker is through with all models and `Start` has
not thrown, and the numbers that are read are final. -/
theorem C141_results (j : Job) (iv : Int) (all : ℕ) (σ : ℕ → Ev) (t k : ℕ)
    (h : Back (run j iv all σ t) (.results k)) :
    k = j.models ∧ j.ends = .ok ∧ (run j iv all σ t).worker = .finished := by
  obtain ⟨h1, h2, h3⟩ := (inv_run j iv all σ t).res k (Or.inr h)
  exact ⟨h2, h3, h1⟩

/-- While the results are collected the searchers do not change any more. -/
theorem C141_stable (j : Job) (iv : Int) (all : ℕ) (σ : ℕ → Ev) (t : ℕ)
    (h : (run j iv all σ t).main = .collect) (u : ℕ) (hu : t ≤ u) :
    (run j iv all σ u).done = (run j iv all σ t).done ∧ (run j iv all σ u).worker = .finished := by
  obtain ⟨k, rfl⟩ := Nat.exists_eq_add_of_le hu
  induction k with
  | zero => exact ⟨rfl, (inv_run j iv all σ t).col h⟩
  | succ k ih =>
    obtain ⟨i1, i2⟩ := ih (Nat.le_add_right _ _)
    show (step j iv all (run j iv all σ (t + k)) (σ (t + k))).done = _ ∧
      (step j iv all (run j iv all σ (t + k)) (σ (t + k))).worker = _
    cases σ (t + k) with
    | worker =>
      have := worker_quiet j _ (Or.inl i2)
      show (workerStep j _).done = _ ∧ (workerStep j _).worker = _
      rw [this]; exact ⟨i1, i2⟩
    | main b =>
      obtain ⟨e1, e2⟩ := main_worker iv all b (run j iv all σ (t + k))
      exact ⟨e2.trans i1, e1.trans i2⟩

/-- Whatever the schedule is and in whatever way the call comes back: from then on the worker does not run, so that the
data, the searchers and the working memory can be freed. -/
theorem C141_memory (j : Job) (iv : Int) (all : ℕ) (σ : ℕ → Ev) (t : ℕ) (r : Ret)
    (h : Back (run j iv all σ t) r) (u : ℕ) (hu : t ≤ u) :
    Quiet (run j iv all σ u) ∧ run j iv all σ u = run j iv all σ t := by
  obtain ⟨k, rfl⟩ := Nat.exists_eq_add_of_le hu
  have hq : ∀ k, Quiet (run j iv all σ (t + k)) := fun k =>
    (inv_run j iv all σ (t + k)).quiet r (left_stays j iv all σ t r h k)
  refine ⟨hq k, ?_⟩
  induction k with
  | zero => rfl
  | succ k ih =>
    refine Eq.trans ?_ (ih (Nat.le_add_right _ _))
    show step j iv all (run j iv all σ (t + k)) (σ (t + k)) = _
    cases σ (t + k) with
    | worker => exact worker_quiet j _ (hq k)
    | main b => exact left_main iv all b _ r (left_stays j iv all σ t r h k)

/-- An interruption that the loop sees ends the search: from then on no further model is started, and in every schedule
in which neither thread is forgotten the call comes back with the interruption, even if `Start` throws. -/
theorem C141_interrupt (j : Job) (iv : Int) (all : ℕ) (σ : ℕ → Ev) (hf : Fair σ) (t : ℕ)
    (hb : (run j iv all σ t).main = .body) (he : σ t = .main true) :
    (∀ u, t ≤ u → (run j iv all σ u).done = (run j iv all σ t).done) ∧
    ∃ v, ∀ u, v ≤ u → Back (run j iv all σ u) .interrupted := by
  have h1 : (run j iv all σ (t + 1)).cancel = true ∧
      (run j iv all σ (t + 1)).done = (run j iv all σ t).done := by
    rw [run_succ, he]
    show (mainStep iv all true _).cancel = true ∧ (mainStep iv all true _).done = _
    rw [main_body' iv all _ hb]
    exact ⟨rfl, rfl⟩
  have h2 : ∀ k, (run j iv all σ (t + 1 + k)).cancel = true ∧
      (run j iv all σ (t + 1 + k)).done = (run j iv all σ t).done := by
    intro k
    induction k with
    | zero => exact h1
    | succ k ih =>
      obtain ⟨e1, e2⟩ := cancel_done j iv all _ (σ (t + 1 + k)) ih.1
      exact ⟨e2, e1.trans ih.2⟩
  constructor
  · intro u hu
    rcases Nat.eq_or_lt_of_le hu with rfl | hu
    · rfl
    · obtain ⟨k, rfl⟩ := Nat.exists_eq_add_of_le hu
      exact (h2 k).2
  · obtain ⟨v, hv⟩ := todo_zero j iv all σ hf.1
    have hv' := todo_mono j iv all σ v (t + 1)
    obtain ⟨u, r, hr⟩ := ready_back j iv all σ hf.2 (v + (t + 1)) ⟨todo_quiet _ (by omega), Or.inr (by
      have := (h2 v).1; rwa [Nat.add_comm] at this)⟩
    refine ⟨u + (t + 1), fun w hw => ?_⟩
    obtain ⟨k, rfl⟩ := Nat.exists_eq_add_of_le hw
    have hs := left_stays j iv all σ u r hr (t + 1 + k)
    rw [show u + (t + 1 + k) = u + (t + 1) + k by omega] at hs
    have hc := (h2 (u + k)).1
    rw [show t + 1 + (u + k) = u + (t + 1) + k by omega] at hc
    rcases (inv_run j iv all σ _).can.1 hc with h | h
    · exact absurd (h.symm.trans hs) (by simp)
    · exact h

/-- The error "calculations is canceled" of `ReportProgress` is never the answer: an interruption leaves the loop before
it. -/
theorem C141_cancelled (j : Job) (iv : Int) (all : ℕ) (σ : ℕ → Ev) (t : ℕ) :
    ¬ Back (run j iv all σ t) .cancelled :=
  (inv_run j iv all σ t).noc.2

/-- The progress that is printed, with a positive `ReportInterval` and at least one expected model: every line is
printed at a multiple of `ReportInterval + 1` seconds; lines are printed in the order of time, and the printed
percentage increases strictly; the numbers of models are numbers of models that have been estimated. -/
theorem C141_progress (j : Job) (iv all : ℕ) (hiv : 0 < iv) (hall : 0 < all) (σ : ℕ → Ev) (t : ℕ) :
    (∀ x ∈ (run j iv all σ t).shown, (iv + 1) ∣ x.1 ∧ x.2 ≤ j.models) ∧
    (run j iv all σ t).shown.Pairwise (fun later earlier => earlier.1 < later.1 ∧
      (20000 * earlier.2 + all) / (2 * all) < (20000 * later.2 + all) / (2 * all)) := by
  obtain ⟨⟨h1, h2⟩, -⟩ := lines_run j hiv hall σ t
  exact ⟨fun x hx => ⟨Nat.dvd_of_mod_eq_zero (h1 x hx).1, (h1 x hx).2.trans (inv_run j iv all σ t).le⟩, h2⟩

/-- If no more models are searched than announced, the printed percentages are at most 100. -/
theorem C141_percentage (j : Job) (iv all : ℕ) (hiv : 0 < iv) (hall : 0 < all) (hle : j.models ≤ all)
    (σ : ℕ → Ev) (t : ℕ) (x : ℕ × ℕ) (hx : x ∈ (run j iv all σ t).shown) :
    ∃ p, percentage x.2 all = some p ∧ p ≤ 10000 := by
  have h := ((C141_progress j iv all hiv hall σ t).1 x hx).2
  refine ⟨(20000 * x.2 + all) / (2 * all), by unfold percentage; rw [if_neg (by omega)], ?_⟩
  exact Nat.lt_succ_iff.1 (Nat.div_lt_of_lt_mul (by omega))

/-- Without a positive interval nothing is printed. -/
theorem C141_silent (j : Job) (iv : Int) (all : ℕ) (hiv : iv ≤ 0) (σ : ℕ → Ev) (t : ℕ) :
    (run j iv all σ t).shown = [] :=
  silent_run j all hiv σ t

/-- Before the search: a size of models greater than the number of groups is refused, and no other request is. Then
`Start` estimates the models of all searchers and does not throw, unless a parallel search is wanted of a build
without OpenMP. -/
theorem C141_prepare (parallel openmp : Bool) (ss : List Srchr) :
    (prepare parallel openmp ss = none ↔ ∃ s ∈ ss, s.groups < s.size) ∧
    ∀ j, prepare parallel openmp ss = some j →
      (j.ends = .throws ↔ parallel = true ∧ openmp = false) ∧
      (j.ends = .ok → j.models = (ss.map Srchr.models).sum) := by
  unfold prepare
  by_cases h : (ss.any fun s => decide (s.groups < s.size)) = true
  · rw [if_pos h]
    simp only [List.any_eq_true, decide_eq_true_eq] at h
    exact ⟨by simpa using h, by simp⟩
  · rw [if_neg h]
    simp only [List.any_eq_true, decide_eq_true_eq] at h
    refine ⟨by simpa using h, ?_⟩
    rintro j hj
    have hj := Option.some.inj hj
    subst hj
    have hn : (ss.find? fun s => decide (s.groups < s.size)) = none := by
      rw [List.find?_eq_none]
      intro s hs
      simpa using fun hlt => h ⟨s, hs, hlt⟩
    unfold start
    rw [hn]
    cases parallel <;> cases openmp <;> simp

/-- Violated: if `Start` throws, `estimating` is never cleared; the loop goes on for ever and the error is not reported,
whatever the schedule is, as long as the user does not interrupt. -/
theorem C141_throws_violated (n : ℕ) (iv : Int) (all : ℕ) (σ : ℕ → Ev) (hc : Calm σ) (t : ℕ) (r : Ret) :
    ¬ Back (run ⟨n, .throws⟩ iv all σ t) r := by
  intro h
  have hi := inv_run ⟨n, .throws⟩ iv all σ t
  cases r with
  | results k => exact absurd (hi.res k (Or.inr h)).2.2 (by simp)
  | cancelled => exact hi.noc.2 h
  | interrupted =>
    have := hi.can.2 (Or.inr h)
    rw [calm_cancel _ iv all σ hc t] at this; cases this

/-- Violated: in a build without OpenMP, a parallel search of any set of models with fitting sizes never comes back. -/
theorem C141_openmp_violated (ss : List Srchr) (h : ∀ s ∈ ss, s.size ≤ s.groups) :
    ∃ j, prepare true false ss = some j ∧ ∀ (iv : Int) (all : ℕ) (σ : ℕ → Ev), Calm σ →
      ∀ t r, ¬ Back (run j iv all σ t) r := by
  refine ⟨⟨0, .throws⟩, ?_, fun iv all σ hc t r => C141_throws_violated 0 iv all σ hc t r⟩
  unfold prepare
  rw [if_neg (by simpa using h)]
  rfl

/-- A schedule: the worker and the main thread take turns. -/
def turns : ℕ → Ev := fun t => if t % 2 = 0 then .worker else .main false

/-- The schedule meets the hypotheses; a search over three models with a report every second second. -/
theorem C141_example :
    (Fair turns ∧ Calm turns) ∧
    prepare false false [⟨1, 3, 2⟩, ⟨2, 3, 1⟩] = some ⟨3, .ok⟩ ∧
    (run ⟨3, .ok⟩ 1 3 turns 15).main = .left (.results 3) ∧
    (run ⟨3, .ok⟩ 1 3 turns 15).shown = [(2, 3)] ∧
    (run ⟨3, .ok⟩ 1 3 (fun t => if t = 3 then .main true else turns t) 3).main = .body ∧
    (run ⟨3, .ok⟩ 1 3 (fun t => if t = 3 then .main true else turns t) 12).main = .left .interrupted ∧
    (run ⟨3, .ok⟩ 1 3 (fun t => if t = 3 then .main true else turns t) 12).done = 2 := by
  refine ⟨⟨⟨fun t => ⟨2 * t, by omega, by simp [turns]⟩, fun t => ⟨2 * t + 1, by omega, false, by
    unfold turns; rw [if_neg (by omega)]⟩⟩, fun t => ?_⟩, by decide +kernel, by decide +kernel, by decide +kernel,
    by decide +kernel, by decide +kernel, by decide +kernel⟩
  unfold turns
  split_ifs <;> simp

end Rs
end LDT
