import Verif.Props.VarmaSetExt
/-! # C134: a request -/
namespace LDT
namespace Vm
open Op Mx Arr Score

/-- Two series of eight periods, the first one without its last observation. -/
def exM5 : Mat (Val ℝ) := ⟨2, 8, some [some 1, some 10, some 2, some 20, some 4, some 30, some 3, some 40, some 5, some 10, some 2, some 20, some 6, some 30, none, some 40]⟩

/-- The data set. -/
def exD5 : DsTs ℝ := ⟨true, true, 16, exM5, [⟨0, 6⟩, ⟨0, 7⟩], false⟩

/-- One endogenous variable, which is the target, and one exogenous variable. But both are in the partitions of the endogenous variables. Autoregressions of order one, with or
without a seasonal moving average (of four periods) and a difference. -/
noncomputable def exR : SetRequest where
  source := exD5
  numEndo := 1
  numExo := 1
  lambdas := []
  comb := ⟨[[0], [1]], 0, 0⟩
  sizes := [1, 2]
  groups := [[], [1]]
  items := ⟨1, false, false, false, [], 0⟩
  keepModels := true
  targets := 1
  endo := 1
  length1 := 0
  metrics := { metricsIn := [.aic], metricsOut := [], trainRatio := .num 0, seed := 0 }
  minIn := fun _ => none
  minOut := fun _ => none
  checks := { }
  lower := none
  upper := none
  params := [1, 1, 0, 0, 0, 1]
  season := 4
  usePrevious := false
  maxHorizon := 0

theorem exWanted {o : Order} (h : exR.Wanted o) : o.p ≤ 1 ∧ o.d ≤ 1 ∧ o.q ≤ 0 ∧ o.sp ≤ 0 ∧ o.sd ≤ 0 ∧ o.sq ≤ 1 := by
  obtain ⟨-, a, ha, ha'⟩ := h.p
  obtain ⟨-, b, hb, hb'⟩ := h.d
  obtain ⟨-, c, hc, hc'⟩ := h.q
  obtain ⟨-, d, hd, hd'⟩ := h.sp
  obtain ⟨-, e, he, he'⟩ := h.sd
  obtain ⟨-, f, hf, hf'⟩ := h.sq
  cases ha; cases hb; cases hc; cases hd; cases he; cases hf
  exact ⟨ha', hb', hc', hd', he', hf'⟩

theorem exSmall : Small exR := by
  refine ⟨by decide, fun o ho => ?_⟩
  obtain ⟨-, h2, -, -, h5, -⟩ := exWanted ho
  show o.d + 1 ≤ 2147483647 ∧ o.d + o.sd * 4 + 1 ≤ 2147483647
  omega

theorem exAccepted : SetAccepted exR where
  options := by
    intro h
    cases h with
    | noSimulation h => exact h rfl
    | noTraining h => exact absurd h (by decide)
    | noMetric _ h => exact h rfl
    | noHorizon _ _ h => exact h rfl
  simulations := fun h => absurd h.1 (by decide)
  targets := by decide
  forecasts := Or.inl rfl
  partitions := by
    intro b hb a ha
    have : b = [0] ∨ b = [1] := by simpa [exR] using hb
    rcases this with rfl | rfl
    · rw [List.mem_singleton.1 ha]; exact ⟨by decide, by decide⟩
    · rw [List.mem_singleton.1 ha]; exact ⟨by decide, by decide⟩
  params := ⟨rfl, by
    intro m hm
    have : m = 1 ∨ m = 0 := by
      simp [exR] at hm
      omega
    omega⟩
  sizes := by
    intro s hs
    have : s = 1 ∨ s = 2 := by simpa [exR] using hs
    omega
  searchers := by
    refine ⟨⟨0, 6⟩, [⟨0, 7⟩], rfl, fun s hs o ho => ⟨fun h => absurd h (by decide), ?_, Or.inl (by simp [exR]), Or.inl rfl, fun _ h => by (cases h), fun h => absurd h (by decide)⟩⟩
    have : s = 1 ∨ s = 2 := by simpa [exR] using hs
    show (0 : ℤ) ≤ s
    omega

/-- **C134** (violated): the variable behind the endogenous variables is accepted as one of them. In this search the exogenous variable is explained, too, even by itself: there
is a searcher for two endogenous variables with the exogenous variable, which visits the model of both variables. -/
theorem C134_endogenous_violated (junk : ℤ) (w : Varma.Sizes → Needs) (big tiny : ℝ) (parallel : Bool) : ∃ ms, varmaModelset exR junk w big tiny parallel = .ok ms ∧
    ms.searchers.length = 24 ∧ ∃ s ∈ ms.searchers, s.cfg.n = 2 ∧ s.cfg.inner = [1] ∧ s.setup.params = [1, 0, 0, 0, 0, 0] ∧
      ∀ (env : Srch.Env) (fuel : ℕ), env.cancel 0 = false → 0 < fuel → ∃ st, Srch.start exR.comb 2 env false 1 fuel = .ok st ∧ ∃ v ∈ st.log, v.cur = [0, 1] := by
  obtain ⟨ms, h⟩ := (C134_accepted (junk := junk) (w := w) (big := big) (tiny := tiny) (parallel := parallel) exSmall).1.2 exAccepted
  obtain ⟨g, gs, hg, hall⟩ := C134_searchers h exSmall
  refine ⟨ms, h, ?_, ?_⟩
  · rw [hall.length_eq]
    rfl
  · obtain ⟨s, hs, a, b, c, -⟩ := Dc.forall₂_left hall.flip (2, ⟨1, 0, 0, 0, 0, 0⟩, [1]) (by
      refine List.mem_flatMap.2 ⟨2, by simp [exR], List.mem_flatMap.2 ⟨⟨1, 0, 0, 0, 0, 0⟩, ?_, List.mem_map.2 ⟨[1], by simp [SetRequest.innerGroups, exR], rfl⟩⟩⟩
      exact (mem_orders (m := exR.params)).2 ⟨⟨by decide, by decide⟩, ⟨by decide, by decide⟩, ⟨by decide, by decide⟩, ⟨by decide, by decide⟩, ⟨by decide, by decide⟩,
        ⟨by decide, by decide⟩, Or.inl (by decide)⟩)
    refine ⟨s, hs, by omega, c, b, fun env fuel hc hf => ?_⟩
    obtain ⟨f, rfl⟩ : ∃ f, fuel = f + 1 := ⟨fuel - 1, by omega⟩
    refine ⟨Srch.visit exR.comb env false 1 [0, 1] [0, 0] ⟨0, [], [], []⟩, ?_, ⟨[0, 1], [0, 0], [0, 1]⟩, ?_, rfl⟩
    · show (if env.cancel 0 then _ else _) = _
      rw [hc]
      rfl
    · show _ ∈ [_]
      exact List.mem_singleton.2 rfl

end Vm
end LDT
