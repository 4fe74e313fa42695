import Verif.Spec.RSearch
import Mathlib.Tactic.Linarith
import Mathlib.Tactic.SplitIfs
/-!
# Lemmas for C141
-/
namespace LDT
namespace Rs

theorem report_same (iv : Int) (all : ℕ) (s : St) :
    (report iv all s).worker = s.worker ∧ (report iv all s).main = s.main ∧
    (report iv all s).estimating = s.estimating ∧ (report iv all s).cancel = s.cancel ∧
    (report iv all s).done = s.done ∧ (report iv all s).secs = s.secs := by
  unfold report
  dsimp only
  split_ifs <;> simp

/-- What is true of the two threads at every time. -/
structure Inv (j : Job) (s : St) : Prop where
  est : s.estimating = false ↔ s.worker = .finished
  ok : s.worker = .returned ∨ s.worker = .finished → s.cancel = false → j.ends = .ok ∧ s.done = j.models
  fail : s.worker = .failed → j.ends = .throws
  can : s.cancel = true ↔ s.main = .leaving .interrupted ∨ s.main = .left .interrupted
  noc : s.main ≠ .leaving .cancelled ∧ s.main ≠ .left .cancelled
  col : s.main = .collect → s.worker = .finished
  res : ∀ k, s.main = .leaving (.results k) ∨ s.main = .left (.results k) →
    s.worker = .finished ∧ k = j.models ∧ j.ends = .ok
  quiet : ∀ r, s.main = .left r → Quiet s
  run : ∀ n, s.worker = .running n → s.done + n = j.models
  le : s.done ≤ j.models

theorem inv_init (j : Job) : Inv j (init j) := by
  constructor <;> simp [init]

theorem inv_worker {j : Job} {s : St} (h : Inv j s) : Inv j (workerStep j s) := by
  obtain ⟨h1, h2, h3, h4, h5, h6, h7, h8, h9, h10⟩ := h
  obtain ⟨w, m, e, c, d, sc, i, p, sh⟩ := s
  simp only [Quiet] at *
  unfold workerStep
  cases w with
  | running n =>
    have h9' := h9 n rfl
    cases n with
    | zero =>
      cases hj : j.ends <;> constructor <;> simp_all [Quiet]
    | succ n =>
      cases c <;> constructor <;> simp_all [Quiet] <;> omega
  | returned => constructor <;> simp_all [Quiet]
  | finished => exact ⟨h1, h2, h3, h4, h5, h6, h7, h8, h9, h10⟩
  | failed => exact ⟨h1, h2, h3, h4, h5, h6, h7, h8, h9, h10⟩

theorem main_body (iv : Int) (all : ℕ) (s : St) (h : s.main = .body) : mainStep iv all false s =
    { report iv all { s with secs := s.secs + 1 } with main := .test } := by
  cases s; cases h; rfl

theorem main_body' (iv : Int) (all : ℕ) (s : St) (h : s.main = .body) : mainStep iv all true s =
    { s with secs := s.secs + 1, cancel := true, main := .leaving .interrupted } := by
  cases s; cases h; rfl

theorem inv_main {j : Job} {s : St} (iv : Int) (all : ℕ) (b : Bool) (h : Inv j s) :
    Inv j (mainStep iv all b s) := by
  by_cases hb : s.main = .body
  · cases b
    · rw [main_body iv all s hb]
      obtain ⟨r1, r2, r3, r4, r5, r6⟩ := report_same iv all { s with secs := s.secs + 1 }
      generalize report iv all { s with secs := s.secs + 1 } = q at *
      obtain ⟨h1, h2, h3, h4, h5, h6, h7, h8, h9, h10⟩ := h
      obtain ⟨w, m, e, c, d, sc, i, p, sh⟩ := q
      dsimp only at r1 r2 r3 r4 r5 r6 ⊢
      subst r1 r3 r4 r5
      constructor <;> simp_all [Quiet]
    · rw [main_body' iv all s hb]
      obtain ⟨h1, h2, h3, h4, h5, h6, h7, h8, h9, h10⟩ := h
      constructor <;> simp_all [Quiet]
  obtain ⟨h1, h2, h3, h4, h5, h6, h7, h8, h9, h10⟩ := h
  unfold mainStep
  cases hm : s.main with
  | test =>
    cases he : s.estimating <;> cases hc : s.cancel <;> constructor <;> simp_all [Quiet]
  | body => exact absurd hm hb
  | collect => constructor <;> simp_all [Quiet]
  | leaving r =>
    cases hw : s.worker with
    | running n => exact ⟨h1, h2, h3, h4, h5, h6, h7, h8, h9, h10⟩
    | returned => exact ⟨h1, h2, h3, h4, h5, h6, h7, h8, h9, h10⟩
    | finished => constructor <;> simp_all [Quiet]
    | failed => constructor <;> simp_all [Quiet]
  | left r => exact ⟨h1, h2, h3, h4, h5, h6, h7, h8, h9, h10⟩

theorem inv_run (j : Job) (iv : Int) (all : ℕ) (σ : ℕ → Ev) (t : ℕ) : Inv j (run j iv all σ t) := by
  induction t with
  | zero => exact inv_init j
  | succ t ih =>
    show Inv j (step j iv all _ (σ t))
    cases σ t with
    | worker => exact inv_worker ih
    | main b => exact inv_main iv all b ih

theorem main_worker (iv : Int) (all : ℕ) (b : Bool) (s : St) :
    (mainStep iv all b s).worker = s.worker ∧ (mainStep iv all b s).done = s.done := by
  unfold mainStep
  cases hm : s.main with
  | test => dsimp only; split_ifs <;> simp
  | body =>
    obtain ⟨r1, r2, r3, r4, r5, r6⟩ := report_same iv all { s with secs := s.secs + 1 }
    cases b <;> simp_all
  | collect => simp
  | leaving r => cases hw : s.worker <;> simp [hw]
  | left r => simp

theorem worker_main (j : Job) (s : St) : (workerStep j s).main = s.main ∧
    (workerStep j s).cancel = s.cancel := by
  unfold workerStep
  cases hw : s.worker with
  | running n => cases n with
    | zero => cases j.ends <;> simp
    | succ n => cases hc : s.cancel <;> simp [hc]
  | returned => simp
  | finished => simp
  | failed => simp

theorem cancel_main (iv : Int) (all : ℕ) (b : Bool) (s : St) (h : s.cancel = true) :
    (mainStep iv all b s).cancel = true := by
  unfold mainStep
  cases hm : s.main with
  | test => dsimp only; split_ifs <;> simp [h]
  | body =>
    obtain ⟨r1, r2, r3, r4, r5, r6⟩ := report_same iv all { s with secs := s.secs + 1 }
    cases b <;> simp_all
  | collect => simp [h]
  | leaving r => cases hw : s.worker <;> simp [h]
  | left r => simp [h]

theorem left_main (iv : Int) (all : ℕ) (b : Bool) (s : St) (r : Ret) (h : s.main = .left r) :
    mainStep iv all b s = s := by
  unfold mainStep; rw [h]

section
variable (j : Job) (iv : Int) (all : ℕ) (σ : ℕ → Ev)

theorem run_succ (t : ℕ) : run j iv all σ (t + 1) = step j iv all (run j iv all σ t) (σ t) := rfl

/-- What remains for the worker. -/
def todo : Worker → ℕ
  | .running n => n + 2
  | .returned => 1
  | .finished => 0
  | .failed => 0

theorem todo_step (s : St) (e : Ev) : todo (step j iv all s e).worker ≤ todo s.worker := by
  cases e with
  | main b => exact le_of_eq (congrArg todo (main_worker iv all b s).1)
  | worker =>
    show todo (workerStep j s).worker ≤ _
    unfold workerStep
    cases hw : s.worker with
    | running n => cases n with
      | zero => cases j.ends <;> simp [todo]
      | succ n => cases hc : s.cancel <;> simp [todo, hw]
    | returned => simp [todo]
    | finished => simp [todo, hw]
    | failed => simp [todo, hw]

theorem todo_worker (s : St) : todo s.worker = 0 ∨ todo (workerStep j s).worker < todo s.worker := by
  unfold workerStep
  cases hw : s.worker with
  | running n => cases n with
    | zero => cases j.ends <;> simp [todo]
    | succ n => cases hc : s.cancel <;> simp [todo]
  | returned => simp [todo]
  | finished => simp [todo]
  | failed => simp [todo]

theorem todo_mono (t k : ℕ) :
    todo (run j iv all σ (t + k)).worker ≤ todo (run j iv all σ t).worker := by
  induction k with
  | zero => exact le_rfl
  | succ k ih => exact (todo_step j iv all _ _).trans ih

theorem todo_zero (h : ∀ t, ∃ u, t ≤ u ∧ σ u = .worker) :
    ∃ t, todo (run j iv all σ t).worker = 0 := by
  suffices H : ∀ n t, todo (run j iv all σ t).worker ≤ n → ∃ u, todo (run j iv all σ u).worker = 0 from
    H _ 0 le_rfl
  intro n
  induction n with
  | zero => exact fun t ht => ⟨t, by omega⟩
  | succ n ih =>
    intro t ht
    obtain ⟨u, htu, hu⟩ := h t
    have h1 : todo (run j iv all σ u).worker ≤ n + 1 := by
      have := todo_mono j iv all σ t (u - t)
      rw [Nat.add_sub_cancel' htu] at this; omega
    rcases todo_worker j (run j iv all σ u) with h0 | h0
    · exact ⟨u, h0⟩
    · refine ih (u + 1) ?_
      rw [run_succ, hu]
      show todo (workerStep j _).worker ≤ n
      omega

theorem todo_quiet (s : St) (h : todo s.worker = 0) : Quiet s := by
  unfold Quiet
  cases hw : s.worker <;> simp_all [todo]

theorem quiet_todo (s : St) (h : Quiet s) : todo s.worker = 0 := by
  rcases h with h | h <;> simp [h, todo]

/-- The main thread's way out when the worker has cleared the flag. -/
def far : Main → ℕ
  | .body => 4
  | .test => 3
  | .collect => 2
  | .leaving _ => 1
  | .left _ => 0

theorem far_main (s : St) (b : Bool) (hq : Quiet s) (he : s.estimating = false ∨ s.cancel = true)
    (hi : Inv j s) : far s.main = 0 ∨ far (mainStep iv all b s).main < far s.main := by
  unfold mainStep
  cases hm : s.main with
  | test =>
    have hc := hi.can
    rw [hm] at hc
    simp at hc
    have he' : s.estimating = false := by simpa [hc] using he
    simp [he', hc, far]
  | body => cases b <;> simp [far]
  | collect => simp [far]
  | leaving r => rcases hq with h | h <;> simp [h, far]
  | left r => simp [far]

theorem far_worker (s : St) : far (workerStep j s).main = far s.main := by
  rw [(worker_main j s).1]

theorem quiet_step (s : St) (e : Ev) (h : Quiet s) : Quiet (step j iv all s e) :=
  todo_quiet _ (by have := todo_step j iv all s e; have := quiet_todo s h; omega)

theorem worker_quiet (s : St) (h : Quiet s) : workerStep j s = s := by
  unfold workerStep
  rcases h with h | h <;> rw [h]

/-- Nothing is missing for the call to return. -/
def Ready (s : St) : Prop := Quiet s ∧ (s.estimating = false ∨ s.cancel = true)

theorem ready_step (s : St) (e : Ev) (hi : Inv j s) (h : Ready s) : Ready (step j iv all s e) := by
  refine ⟨quiet_step j iv all s e h.1, ?_⟩
  cases e with
  | worker => show (workerStep j s).estimating = false ∨ (workerStep j s).cancel = true; rw [worker_quiet j s h.1]; exact h.2
  | main b =>
    rcases h.2 with h2 | h2
    · left
      have h3 := hi.est.1 h2
      have hi' := inv_main iv all b hi
      exact hi'.est.2 ((main_worker iv all b s).1.trans h3)
    · right; exact cancel_main iv all b s h2

theorem ready_back (hf : ∀ t, ∃ u, t ≤ u ∧ ∃ b, σ u = .main b) (t : ℕ)
    (h : Ready (run j iv all σ t)) : ∃ u r, Back (run j iv all σ u) r := by
  have hr : ∀ k, Ready (run j iv all σ (t + k)) := by
    intro k
    induction k with
    | zero => exact h
    | succ k ih => exact ready_step j iv all _ _ (inv_run j iv all σ _) ih
  have hmono : ∀ k l, far (run j iv all σ (t + k + l)).main ≤ far (run j iv all σ (t + k)).main := by
    intro k l
    induction l with
    | zero => exact le_rfl
    | succ l ih =>
      refine le_trans ?_ ih
      rw [show t + k + (l + 1) = (t + k + l) + 1 from rfl, run_succ]
      have h2 := hr (k + l)
      rw [← Nat.add_assoc] at h2
      cases σ (t + k + l) with
      | worker => exact le_of_eq (far_worker j _)
      | main b =>
        rcases far_main j iv all _ b h2.1 h2.2 (inv_run j iv all σ _) with h3 | h3
        · have h4 : ∃ r, (run j iv all σ (t + k + l)).main = .left r := by
            cases hm : (run j iv all σ (t + k + l)).main <;> simp_all [far]
          obtain ⟨r, h4⟩ := h4
          show far (mainStep iv all b _).main ≤ _
          rw [left_main iv all b _ r h4]
        · exact le_of_lt h3
  suffices H : ∀ n k, far (run j iv all σ (t + k)).main ≤ n → ∃ u r, Back (run j iv all σ u) r from
    H _ 0 le_rfl
  intro n
  induction n with
  | zero =>
    intro k hk
    refine ⟨t + k, ?_⟩
    unfold Back
    cases hm : (run j iv all σ (t + k)).main <;> simp_all [far]
  | succ n ih =>
    intro k hk
    obtain ⟨u, htu, b, hu⟩ := hf (t + k)
    obtain ⟨l, rfl⟩ := Nat.exists_eq_add_of_le htu
    have h1 := hmono k l
    have h2 := hr (k + l)
    rw [← Nat.add_assoc] at h2
    rcases far_main j iv all _ b h2.1 h2.2 (inv_run j iv all σ _) with h3 | h3
    · refine ⟨t + k + l, ?_⟩
      unfold Back
      cases hm : (run j iv all σ (t + k + l)).main <;> simp_all [far]
    · refine ih (k + l + 1) ?_
      rw [show t + (k + l + 1) = (t + k + l) + 1 by omega, run_succ, hu]
      show far (mainStep iv all b _).main ≤ n
      omega

theorem calm_cancel (hc : Calm σ) (t : ℕ) : (run j iv all σ t).cancel = false := by
  induction t with
  | zero => rfl
  | succ t ih =>
    rw [run_succ]
    cases he : σ t with
    | worker => exact ((worker_main j _).2).trans ih
    | main b =>
      have hb : b = false := by
        cases b
        · rfl
        · exact absurd he (hc t)
      subst hb
      show (mainStep iv all false _).cancel = false
      unfold mainStep
      cases hm : (run j iv all σ t).main with
      | test => dsimp only; split_ifs <;> simp [ih]
      | body =>
        obtain ⟨r1, r2, r3, r4, r5, r6⟩ :=
          report_same iv all { run j iv all σ t with secs := (run j iv all σ t).secs + 1 }
        simp_all
      | collect => simp [ih]
      | leaving r => cases hw : (run j iv all σ t).worker <;> simp [ih]
      | left r => simp [ih]

theorem left_stays (t : ℕ) (r : Ret) (h : Back (run j iv all σ t) r) (k : ℕ) :
    Back (run j iv all σ (t + k)) r := by
  induction k with
  | zero => exact h
  | succ k ih =>
    show Back (step j iv all (run j iv all σ (t + k)) (σ (t + k))) r
    cases σ (t + k) with
    | worker => exact (worker_main j _).1.trans ih
    | main b => show Back (mainStep iv all b _) r; rw [left_main iv all b _ r ih]; exact ih

theorem cancel_done (s : St) (e : Ev) (h : s.cancel = true) :
    (step j iv all s e).done = s.done ∧ (step j iv all s e).cancel = true := by
  cases e with
  | main b => exact ⟨(main_worker iv all b s).2, cancel_main iv all b s h⟩
  | worker =>
    refine ⟨?_, (worker_main j s).2.trans h⟩
    show (workerStep j s).done = _
    unfold workerStep
    cases hw : s.worker with
    | running n => cases n with
      | zero => cases j.ends <;> simp
      | succ n => simp [h]
    | returned => simp
    | finished => simp
    | failed => simp

end
end Rs
end LDT

namespace LDT
namespace Rs

/-- The printed percentage, in hundredths. -/
def pc (all c : ℕ) : ℕ := (20000 * c + all) / (2 * all)

theorem pc_mono (all c d : ℕ) (h : c ≤ d) : pc all c ≤ pc all d :=
  Nat.div_le_div_right (by omega)

/-- What is true of the lines that are printed. -/
structure RInv (iv all : ℕ) (s : St) : Prop where
  i : s.i ≤ iv ∧ s.secs % (iv + 1) = s.i
  pre : s.pre = s.shown.head?.map (fun x => pc all x.2)
  mem : ∀ x ∈ s.shown, x.1 % (iv + 1) = 0 ∧ x.1 ≤ s.secs ∧ x.2 ≤ s.done
  ord : s.shown.Pairwise (fun a b => b.1 < a.1 ∧ pc all b.2 < pc all a.2)

theorem pairwise_head {α : Type} {R : α → α → Prop} (tr : ∀ a b c, R a b → R b c → R a c) (x y : α)
    (l : List α) (h : (y :: l).Pairwise R) (hx : R x y) : (x :: y :: l).Pairwise R := by
  refine List.pairwise_cons.2 ⟨fun z hz => ?_, h⟩
  rcases List.mem_cons.1 hz with rfl | hz
  · exact hx
  · exact tr _ _ _ hx ((List.pairwise_cons.1 h).1 z hz)

theorem rinv_main {iv all : ℕ} (hiv : 0 < iv) (hall : 0 < all) {s : St} (b : Bool)
    (h : RInv iv all s) : RInv iv all (mainStep iv all b s) ∨ (mainStep iv all b s).cancel = true := by
  by_cases hm : s.main = .body
  · cases b
    · left
      rw [main_body _ all s hm]
      obtain ⟨⟨h1, h1'⟩, h2, h3, h4⟩ := h
      have hmod : (s.secs + 1) % (iv + 1) = if s.i + 1 ≤ iv then s.i + 1 else 0 := by
        rw [Nat.add_mod, h1']
        split_ifs with hc
        · rw [Nat.mod_eq_of_lt (a := 1) (by omega), Nat.mod_eq_of_lt (by omega)]
        · rw [Nat.mod_eq_of_lt (a := 1) (by omega), show s.i + 1 = iv + 1 by omega, Nat.mod_self]
      unfold report
      dsimp only
      by_cases hc : s.i + 1 ≤ iv
      · rw [if_pos (Or.inr (by exact_mod_cast hc))]
        rw [if_pos hc] at hmod
        exact ⟨⟨hc, hmod⟩, h2, fun x hx => ⟨(h3 x hx).1, by have := (h3 x hx).2.1; dsimp only; omega,
          (h3 x hx).2.2⟩, h4⟩
      · rw [if_neg hc] at hmod
        rw [if_neg (by push_cast; omega)]
        have hp : percentage s.done all = some (pc all s.done) := by
          unfold percentage; rw [if_neg (by omega)]; rfl
        rw [hp]
        by_cases hd : differs (some (pc all s.done)) s.pre = true
        · rw [if_pos hd, if_pos (by exact_mod_cast hiv)]
          refine ⟨⟨Nat.zero_le _, hmod⟩, rfl, ?_, ?_⟩
          · intro x hx
            rcases List.mem_cons.1 hx with rfl | hx
            · exact ⟨hmod, le_rfl, le_rfl⟩
            · exact ⟨(h3 x hx).1, by have := (h3 x hx).2.1; dsimp only; omega, (h3 x hx).2.2⟩
          · show ((s.secs + 1, s.done) :: s.shown).Pairwise _
            revert h2 h3 h4
            cases s.shown with
            | nil => intro _ _ _; exact List.pairwise_singleton _ _
            | cons y l =>
              intro h2 h3 h4
              refine pairwise_head (fun a b c hab hbc => ⟨hbc.1.trans hab.1, hbc.2.trans hab.2⟩) _ _ _ h4 ?_
              obtain ⟨-, hy1, hy2⟩ := h3 y (List.mem_cons_self ..)
              refine ⟨by dsimp only; omega, ?_⟩
              have hne : pc all s.done ≠ pc all y.2 := by
                rw [h2] at hd
                simpa [differs] using hd
              have := pc_mono all _ _ hy2
              dsimp only; omega
        · rw [if_neg hd]
          exact ⟨⟨Nat.zero_le _, hmod⟩, h2, fun x hx => ⟨(h3 x hx).1, by
            have := (h3 x hx).2.1; dsimp only; omega, (h3 x hx).2.2⟩, h4⟩
    · right; rw [main_body' _ all s hm]
  · left
    have hs : (mainStep iv all b s).i = s.i ∧ (mainStep iv all b s).secs = s.secs ∧
        (mainStep iv all b s).pre = s.pre ∧ (mainStep iv all b s).shown = s.shown ∧
        (mainStep iv all b s).done = s.done := by
      unfold mainStep
      cases hm' : s.main with
      | test => dsimp only; split_ifs <;> simp
      | body => exact absurd hm' hm
      | collect => simp
      | leaving r => cases hw : s.worker <;> simp
      | left r => simp
    obtain ⟨e1, e2, e3, e4, e5⟩ := hs
    obtain ⟨h1, h2, h3, h4⟩ := h
    exact ⟨by rw [e1, e2]; exact h1, by rw [e3, e4]; exact h2, by rw [e4, e2, e5]; exact h3,
      by rw [e4]; exact h4⟩

theorem worker_same (j : Job) (s : St) : (workerStep j s).i = s.i ∧ (workerStep j s).secs = s.secs ∧
    (workerStep j s).pre = s.pre ∧ (workerStep j s).shown = s.shown ∧ s.done ≤ (workerStep j s).done := by
  unfold workerStep
  cases hw : s.worker with
  | running n => cases n with
    | zero => cases j.ends <;> simp
    | succ n => cases hc : s.cancel <;> simp [hc]
  | returned => simp
  | finished => simp
  | failed => simp

theorem rinv_worker {iv all : ℕ} (j : Job) {s : St} (h : RInv iv all s) : RInv iv all (workerStep j s) := by
  obtain ⟨e1, e2, e3, e4, e5⟩ := worker_same j s
  obtain ⟨h1, h2, h3, h4⟩ := h
  exact ⟨by rw [e1, e2]; exact h1, by rw [e3, e4]; exact h2,
    by rw [e4, e2]; exact fun x hx => ⟨(h3 x hx).1, (h3 x hx).2.1, (h3 x hx).2.2.trans e5⟩, by rw [e4]; exact h4⟩

/-- The lines and the counters do not change when the search is cancelled. -/
theorem cancelled_shown (iv : Int) (all : ℕ) (j : Job) {s : St} (hi : Inv j s) (hc : s.cancel = true) (e : Ev) :
    (step j iv all s e).shown = s.shown ∧ s.done ≤ (step j iv all s e).done := by
  cases e with
  | worker => exact ⟨(worker_same j s).2.2.2.1, (worker_same j s).2.2.2.2⟩
  | main b =>
    have hm := hi.can.1 hc
    show (mainStep iv all b s).shown = _ ∧ _ ≤ (mainStep iv all b s).done
    unfold mainStep
    rcases hm with hm | hm <;> rw [hm]
    · cases hw : s.worker <;> simp
    · simp

/-- The lines that are printed, at any time. -/
structure Lines (iv all : ℕ) (s : St) : Prop where
  mem : ∀ x ∈ s.shown, x.1 % (iv + 1) = 0 ∧ x.2 ≤ s.done
  ord : s.shown.Pairwise (fun a b => b.1 < a.1 ∧ pc all b.2 < pc all a.2)

theorem lines_run (j : Job) {iv all : ℕ} (hiv : 0 < iv) (hall : 0 < all) (σ : ℕ → Ev) (t : ℕ) :
    Lines iv all (run j iv all σ t) ∧
    ((run j iv all σ t).cancel = false → RInv iv all (run j iv all σ t)) := by
  induction t with
  | zero => exact ⟨⟨by simp [run, init], by simp [run, init]⟩, fun _ => ⟨by simp [run, init], by simp [run, init],
      by simp [run, init], by simp [run, init]⟩⟩
  | succ t ih =>
    obtain ⟨hl, hr⟩ := ih
    have hi := inv_run j iv all σ t
    rw [run_succ]
    cases hc : (run j iv all σ t).cancel with
    | true =>
      obtain ⟨e1, e2⟩ := cancelled_shown iv all j hi hc (σ t)
      refine ⟨⟨by rw [e1]; exact fun x hx => ⟨(hl.mem x hx).1, (hl.mem x hx).2.trans e2⟩, by
        rw [e1]; exact hl.ord⟩, fun h => ?_⟩
      rw [(cancel_done j iv all _ (σ t) hc).2] at h
      cases h
    | false =>
      have hr := hr hc
      have H : RInv iv all (step j iv all (run j iv all σ t) (σ t)) ∨
          ((step j iv all (run j iv all σ t) (σ t)).cancel = true ∧
          (step j iv all (run j iv all σ t) (σ t)).shown = (run j iv all σ t).shown ∧
          (run j iv all σ t).done ≤ (step j iv all (run j iv all σ t) (σ t)).done) := by
        cases σ t with
        | worker => exact Or.inl (rinv_worker j hr)
        | main b =>
          rcases rinv_main hiv hall b hr with h | h
          · exact Or.inl h
          · refine Or.inr ⟨h, ?_, le_of_eq (main_worker iv all b _).2.symm⟩
            show (mainStep iv all b _).shown = _
            change (mainStep iv all b _).cancel = true at h
            by_cases hm : (run j iv all σ t).main = .body
            · cases b
              · rw [main_body _ all _ hm] at h
                obtain ⟨r1, r2, r3, r4, r5, r6⟩ :=
                  report_same iv all { run j iv all σ t with secs := (run j iv all σ t).secs + 1 }
                exact absurd (r4.symm.trans h) (by simp [hc])
              · rw [main_body' _ all _ hm]
            · unfold mainStep
              cases hm' : (run j iv all σ t).main with
              | test => dsimp only; split_ifs <;> rfl
              | body => exact absurd hm' hm
              | collect => rfl
              | leaving r => cases hw : (run j iv all σ t).worker <;> rfl
              | left r => rfl
      rcases H with H | ⟨h1, h2, h3⟩
      · exact ⟨⟨fun x hx => ⟨(H.mem x hx).1, (H.mem x hx).2.2⟩, H.ord⟩, fun _ => H⟩
      · refine ⟨⟨by rw [h2]; exact fun x hx => ⟨(hl.mem x hx).1, (hl.mem x hx).2.trans h3⟩, by
          rw [h2]; exact hl.ord⟩, fun h => ?_⟩
        rw [h1] at h; cases h

theorem silent_run (j : Job) {iv : Int} (all : ℕ) (hiv : iv ≤ 0) (σ : ℕ → Ev) (t : ℕ) :
    (run j iv all σ t).shown = [] := by
  induction t with
  | zero => rfl
  | succ t ih =>
    rw [run_succ]
    cases σ t with
    | worker => exact (worker_same j _).2.2.2.1.trans ih
    | main b =>
      show (mainStep iv all b _).shown = _
      by_cases hm : (run j iv all σ t).main = .body
      · cases b
        · rw [main_body _ all _ hm]
          unfold report
          dsimp only
          rw [if_neg (not_lt.2 hiv)]
          split_ifs <;> exact ih
        · rw [main_body' _ all _ hm]; exact ih
      · unfold mainStep
        cases hm' : (run j iv all σ t).main with
        | test => dsimp only; split_ifs <;> exact ih
        | body => exact absurd hm' hm
        | collect => exact ih
        | leaving r => cases hw : (run j iv all σ t).worker <;> exact ih
        | left r => exact ih

end Rs
end LDT
