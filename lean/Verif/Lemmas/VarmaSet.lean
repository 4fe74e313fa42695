import Verif.Spec.VarmaSet
import Verif.Lemmas.SurSet
import Verif.Lemmas.VarmaSim
import Verif.Props.VarmaSizes
/-! # What the constructor of a search over VARMA models accepts -/
namespace LDT
namespace Vm
open Op Mx Arr Score
open Dc (bind_ok Decided)

theorem decided_mapM {α β : Type} {f : α → Outcome β} {P : α → Prop} : ∀ {l : List α}, (∀ a ∈ l, Decided (f a) (P a)) → Decided (l.mapM f) (∀ a ∈ l, P a)
  | [], _ => (Decided.pure _).congr ⟨fun _ => by simp, fun _ => trivial⟩
  | a :: l, h => by
    rw [List.mapM_cons]
    refine (Decided.bind (h a (by simp)) fun _ _ => Decided.bind (decided_mapM fun b hb => h b (by simp [hb])) fun _ _ => Decided.pure _).congr ?_
    rw [List.forall_mem_cons, and_true]

/-! ## Orders -/

theorem mem_orders {m : List ℤ} {o : Order} : o ∈ orders m ↔ (0 ≤ o.p ∧ o.p ≤ m.getD 0 0) ∧ (0 ≤ o.d ∧ o.d ≤ m.getD 1 0) ∧ (0 ≤ o.q ∧ o.q ≤ m.getD 2 0) ∧
    (0 ≤ o.sp ∧ o.sp ≤ m.getD 3 0) ∧ (0 ≤ o.sd ∧ o.sd ≤ m.getD 4 0) ∧ (0 ≤ o.sq ∧ o.sq ≤ m.getD 5 0) ∧ (o.p ≠ 0 ∨ o.q ≠ 0 ∨ o.sp ≠ 0 ∨ o.sq ≠ 0) := by
  unfold orders
  rw [List.mem_filter]
  have hz : (!(decide (o.p = 0) && decide (o.q = 0) && decide (o.sp = 0) && decide (o.sq = 0))) = true ↔ (o.p ≠ 0 ∨ o.q ≠ 0 ∨ o.sp ≠ 0 ∨ o.sq ≠ 0) := by
    simp only [Bool.not_eq_true', Bool.and_eq_false_iff, decide_eq_false_iff_not]
    omega
  rw [hz]
  constructor
  · rintro ⟨h, hl⟩
    obtain ⟨p, hp, h⟩ := List.mem_flatMap.1 h
    obtain ⟨d, hd, h⟩ := List.mem_flatMap.1 h
    obtain ⟨q, hq, h⟩ := List.mem_flatMap.1 h
    obtain ⟨sp, hsp, h⟩ := List.mem_flatMap.1 h
    obtain ⟨sd, hsd, h⟩ := List.mem_flatMap.1 h
    obtain ⟨sq, hsq, rfl⟩ := List.mem_map.1 h
    rw [mem_upTo] at hp hd hq hsp hsd hsq
    dsimp only at hl ⊢
    exact ⟨by omega, by omega, by omega, by omega, by omega, by omega, hl⟩
  · rintro ⟨h1, h2, h3, h4, h5, h6, hl⟩
    refine ⟨List.mem_flatMap.2 ⟨o.p, mem_upTo.2 (by omega), List.mem_flatMap.2 ⟨o.d, mem_upTo.2 (by omega), List.mem_flatMap.2 ⟨o.q, mem_upTo.2 (by omega),
      List.mem_flatMap.2 ⟨o.sp, mem_upTo.2 (by omega), List.mem_flatMap.2 ⟨o.sd, mem_upTo.2 (by omega), List.mem_map.2 ⟨o.sq, mem_upTo.2 (by omega), rfl⟩⟩⟩⟩⟩⟩, hl⟩

theorem upTo_sorted (a b : ℤ) : (upTo a b).Pairwise (· < ·) := by
  unfold upTo
  rw [List.pairwise_map]
  exact List.pairwise_lt_range.imp fun h => by omega

theorem lex_cons {a : ℤ} {l l' : List ℤ} (h : List.Lex (· < ·) l l') : List.Lex (· < ·) (a :: l) (a :: l') := List.Lex.cons h

/-- Lists that begin with increasing values are in order. -/
theorem lex_flatMap {f : ℤ → List Order} {l : List ℤ} (hl : l.Pairwise (· < ·)) (pre : List ℤ)
    (hf : ∀ a ∈ l, (f a).Pairwise Order.before) (hp : ∀ a ∈ l, ∀ o ∈ f a, (pre ++ [a]) <+: o.list) : (l.flatMap f).Pairwise Order.before := by
  rw [List.pairwise_flatMap]
  refine ⟨hf, ?_⟩
  refine List.Pairwise.imp_of_mem ?_ hl
  intro a b ha hb hab x hx y hy
  obtain ⟨t, ht⟩ := hp a ha x hx
  obtain ⟨t', ht'⟩ := hp b hb y hy
  unfold Order.before
  rw [← ht, ← ht', List.append_assoc, List.append_assoc]
  clear ht ht' hp
  induction pre with
  | nil => exact List.Lex.rel hab
  | cons c pre ih => exact List.Lex.cons ih

theorem orders_sorted (m : List ℤ) : (orders m).Pairwise Order.before := by
  unfold orders
  refine List.Pairwise.filter _ (lex_flatMap (upTo_sorted _ _) [] (fun p _ => lex_flatMap (upTo_sorted _ _) [p] (fun d _ => lex_flatMap (upTo_sorted _ _) [p, d]
    (fun q _ => lex_flatMap (upTo_sorted _ _) [p, d, q] (fun sp _ => lex_flatMap (upTo_sorted _ _) [p, d, q, sp] (fun sd _ => ?_) ?_) ?_) ?_) ?_) ?_)
  · rw [List.pairwise_map]
    exact (upTo_sorted _ _).imp fun h => lex_cons (lex_cons (lex_cons (lex_cons (lex_cons (List.Lex.rel h)))))
  · intro a _ o h
    obtain ⟨sq, -, rfl⟩ := List.mem_map.1 h
    exact ⟨[sq], rfl⟩
  · intro a _ o h
    obtain ⟨sd, -, h⟩ := List.mem_flatMap.1 h
    obtain ⟨sq, -, rfl⟩ := List.mem_map.1 h
    exact ⟨[sd, sq], rfl⟩
  · intro a _ o h
    obtain ⟨sp, -, h⟩ := List.mem_flatMap.1 h
    obtain ⟨sd, -, h⟩ := List.mem_flatMap.1 h
    obtain ⟨sq, -, rfl⟩ := List.mem_map.1 h
    exact ⟨[sp, sd, sq], rfl⟩
  · intro a _ o h
    obtain ⟨q, -, h⟩ := List.mem_flatMap.1 h
    obtain ⟨sp, -, h⟩ := List.mem_flatMap.1 h
    obtain ⟨sd, -, h⟩ := List.mem_flatMap.1 h
    obtain ⟨sq, -, rfl⟩ := List.mem_map.1 h
    exact ⟨[q, sp, sd, sq], rfl⟩
  · intro a _ o h
    obtain ⟨d, -, h⟩ := List.mem_flatMap.1 h
    obtain ⟨q, -, h⟩ := List.mem_flatMap.1 h
    obtain ⟨sp, -, h⟩ := List.mem_flatMap.1 h
    obtain ⟨sd, -, h⟩ := List.mem_flatMap.1 h
    obtain ⟨sq, -, rfl⟩ := List.mem_map.1 h
    exact ⟨[d, q, sp, sd, sq], rfl⟩

theorem mem_orders_iff {r : SetRequest} (h6 : r.params.length = 6) {o : Order} : o ∈ orders r.params ↔ r.Wanted o := by
  rw [mem_orders]
  have key : ∀ i < 6, ∀ x : ℤ, (0 ≤ x ∧ x ≤ r.params.getD i 0) ↔ (0 ≤ x ∧ ∃ m, r.params[i]? = some m ∧ x ≤ m) := by
    intro i hi x
    rw [List.getD_eq_getElem?_getD, List.getElem?_eq_getElem (by omega)]
    simp
  rw [key 0 (by omega), key 1 (by omega), key 2 (by omega), key 3 (by omega), key 4 (by omega), key 5 (by omega)]
  constructor
  · rintro ⟨a, b, c, d, e, f, g⟩; exact ⟨a, b, c, d, e, f, g⟩
  · rintro ⟨a, b, c, d, e, f, g⟩; exact ⟨a, b, c, d, e, f, g⟩

/-! ## Sizes -/

theorem last_lag {p P s : ℤ} (hp : 0 ≤ p) (hP : 0 ≤ P) (hs : P ≠ 0 → 0 < s) : ((Varma.expandPoly p P s).getLast?).getD 0 = if P = 0 then p else s * P := by
  rw [Varma.expandPoly_eq hp hP hs]
  by_cases h : P = 0
  · rw [if_pos h, h]
    show ((upTo 1 (p + 1) ++ []).getLast?).getD 0 = p
    rw [List.append_nil, List.getLast?_eq_getElem?, length_upTo, getElem?_upTo]
    by_cases h0 : p = 0
    · rw [h0]; rfl
    · rw [if_pos (by omega)]
      show 1 + _ = p
      omega
  · have hs := hs h
    rw [if_neg h, List.getLast?_append_of_ne_nil _ (by simp; omega), List.getLast?_eq_getElem?, List.length_map, List.length_range, List.getElem?_map,
      List.getElem?_range (by omega)]
    show s + s * ((P.toNat - 1 : ℕ) : ℤ) = s * P
    rw [show ((P.toNat - 1 : ℕ) : ℤ) = P - 1 by omega]
    ring

section
variable {r : SetRequest} {o : Order}

theorem sizes_decided (hs : Small r) (ho : r.Wanted o) (junk T n : ℤ) (e : List ℤ) :
    Decided (r.sizesFor junk T n o e) (r.season < 2 → o.sp = 0 ∧ o.sd = 0 ∧ o.sq = 0) := by
  obtain ⟨h1, h2⟩ := hs.diffs o ho
  have hp := ho.p.1; have hd := ho.d.1; have hq := ho.q.1; have hsp := ho.sp.1; have hsd := ho.sd.1; have hsq := ho.sq.1; have hl := ho.lag
  rcases Varma.C51_sizes junk (obs := T) (eqs := n) (exo := e.length) (p := o.p) (d := o.d) (q := o.q) (P := o.sp) (D := o.sd) (Q := o.sq) h1 hs.season h2 with h | h
  · obtain ⟨-, -, -, -, -, -, hm, -, z, hz, -⟩ := h
    exact ⟨fun _ => ⟨z, hz⟩, fun hn => absurd hm hn⟩
  · exact ⟨fun hy => absurd ⟨hp, hd, hq, hsp, hsd, hsq, hy, by omega⟩ h.1, fun _ => h.2⟩

theorem sizes_of (hs : Small r) (ho : r.Wanted o) {junk T n : ℤ} {e : List ℤ} {z : Varma.Sizes} (h : r.sizesFor junk T n o e = .ok z) :
    SizesOf r T n o e z ∧ z.diffPoly ≠ [] ∧ 0 ≤ z.arMax := by
  obtain ⟨h1, h2⟩ := hs.diffs o ho
  have hp := ho.p.1; have hd := ho.d.1; have hq := ho.q.1; have hsp := ho.sp.1; have hsd := ho.sd.1; have hsq := ho.sq.1; have hl := ho.lag
  have hm : r.season < 2 → o.sp = 0 ∧ o.sd = 0 ∧ o.sq = 0 := by
    by_contra hn
    rw [(sizes_decided hs ho junk T n e).no hn] at h
    cases h
  rcases Varma.C51_sizes junk (obs := T) (eqs := n) (exo := e.length) (p := o.p) (d := o.d) (q := o.q) (P := o.sp) (D := o.sd) (Q := o.sq) h1 hs.season h2 with h' | h'
  swap
  · have := h'.2.symm.trans h
    cases this
  obtain ⟨-, -, -, -, -, -, -, -, z', hz', a1, a2, a3, a4, a5, a6, -⟩ := h'
  obtain rfl := Outcome.ok.inj (hz'.symm.trans h)
  have hsh : ∃ dp, z' = ⟨T, n, e.length, Varma.expandPoly o.p o.sp r.period, Varma.expandPoly o.q o.sq r.period, dp⟩ ∧ Poly.diffPoly junk o.d o.sd r.period = .ok dp := by
    unfold SetRequest.sizesFor Varma.makeSizes at h
    dsimp only at h
    by_cases c1 : o.p < 0 ∨ o.d < 0 ∨ o.sd < 0 ∨ o.sp < 0 ∨ o.q < 0 ∨ o.sq < 0 ∨ (if r.season < 2 then 0 else r.season) < 0
    · rw [if_pos c1] at h; cases h
    rw [if_neg c1] at h
    by_cases c2 : (if r.season < 2 then 0 else r.season) = 0 ∧ (o.sp ≠ 0 ∨ o.sq ≠ 0 ∨ o.sd ≠ 0)
    · rw [if_pos c2] at h; cases h
    rw [if_neg c2] at h
    by_cases c3 : o.p = 0 ∧ o.q = 0 ∧ o.sp = 0 ∧ o.sq = 0
    · rw [if_pos c3] at h; cases h
    rw [if_neg c3] at h
    obtain ⟨dp, e1, h⟩ := bind_ok h
    exact ⟨dp, (Outcome.ok.inj h).symm, e1⟩
  obtain ⟨dp, rfl, hdp⟩ := hsh
  have hper : ∀ x : ℤ, (r.season < 2 → x = 0) → (x ≠ 0 → 0 < r.period ∧ r.period = r.season) := by
    intro x hx hn
    have : ¬ r.season < 2 := fun hh => hn (hx hh)
    unfold SetRequest.period
    rw [if_neg this]
    omega
  have hsp' := hper o.sp fun hh => (hm hh).1
  have hsq' := hper o.sq fun hh => (hm hh).2.2
  have hmem : ∀ (p P : ℤ), 0 ≤ p → 0 ≤ P → (P ≠ 0 → 0 < r.period ∧ r.period = r.season) → ∀ l, l ∈ Varma.expandPoly p P r.period ↔
      (1 ≤ l ∧ l ≤ p) ∨ ∃ k, 1 ≤ k ∧ k ≤ P ∧ l = r.season * k := by
    intro p P hp hP hx l
    rw [Varma.C51_lags_mem hp hP (fun hh => (hx hh).1)]
    refine or_congr Iff.rfl (exists_congr fun k => ?_)
    constructor
    · rintro ⟨u, v, rfl⟩; exact ⟨u, v, by rw [(hx (by omega)).2]⟩
    · rintro ⟨u, v, rfl⟩; exact ⟨u, v, by rw [(hx (by omega)).2]⟩
  have hlast := last_lag (p := o.p) (P := o.sp) (s := r.period) hp hsp fun hh => (hsp' hh).1
  have hne : dp ≠ [] := by
    rintro rfl
    have hsd' := hper o.sd fun hh => (hm hh).2.1
    have hpi : r.period + 1 ≤ Poly.intMax := by
      unfold SetRequest.period
      split
      · decide
      · exact hs.season
    have hm0 : o.d + o.sd * r.period + 1 ≤ Poly.intMax ∧ 0 ≤ o.sd * r.period := by
      by_cases h0 : o.sd = 0
      · rw [h0]; exact ⟨by omega, by omega⟩
      · rw [(hsd' h0).2]
        exact ⟨h2, mul_nonneg hsd (by have := hsd' h0; omega)⟩
    obtain ⟨x, hx, -, hlen⟩ := Poly.C48_diffPoly junk (d := o.d) (D := o.sd) (s := r.period) hd hsd (fun hh => by have := hsd' hh; omega) h1 hpi hm0.1
    rw [hdp] at hx
    obtain rfl := Outcome.ok.inj hx
    rw [List.length_nil] at hlen
    omega
  refine ⟨⟨rfl, rfl, rfl, hmem _ _ hp hsp hsp', hmem _ _ hq hsq hsq', ?_, a6⟩, hne, ?_⟩
  · show (Varma.Sizes.arMax _) + Varma.Sizes.diffDegree _ = _
    rw [a3]
    show ((Varma.expandPoly o.p o.sp r.period).getLast?).getD 0 + _ = _
    rw [hlast]
    unfold Order.lost SetRequest.period
    ring
  · show 0 ≤ ((Varma.expandPoly o.p o.sp r.period).getLast?).getD 0
    rw [hlast]
    split
    · exact hp
    · rename_i hh
      exact mul_nonneg (hsp' hh).1.le hsp

end

/-! ## Searchers -/

theorem reg_decided (c : Srch.RegCfg) (hi : c.innerExo = true) (big tiny : ℝ) :
    Decided (Srch.regConstruct c big tiny) (c.lengthEvals ≠ 0 ∧ c.lengthTargets ≠ 0 ∧ c.lengthEvals = c.pos.length ∧ (c.keepModels = true ∨ c.length1 ≠ 0)) := by
  unfold Srch.regConstruct
  dsimp only
  rw [hi]
  refine (Decided.guard fun _ => Decided.guard fun _ => Decided.guard fun _ => (?_ : Decided _ True)).congr ?_
  · rw [if_pos rfl]
    exact Decided.pure _
  · constructor
    · rintro ⟨a, b, d, -⟩
      refine ⟨fun h => a (Or.inl h), fun h => a (Or.inr h), not_not.1 b, ?_⟩
      cases hk : c.keepModels with
      | true => exact Or.inl rfl
      | false => exact Or.inr fun h => d ⟨hk, h⟩
    · rintro ⟨a, a', b, d⟩
      refine ⟨fun h => h.elim a a', not_not.2 b, fun h => ?_, trivial⟩
      rcases d with d | d
      · rw [h.1] at d; cases d
      · exact d h.2

theorem construct_decided (u : Setup) (w : Needs) (cols : ℤ) (n k : ℕ) : Decided (construct u w cols n k)
    ((u.checks.estimation = true → u.checks.prediction = true → 0 < u.maxHorizon) ∧
      (0 < u.metrics.simFix → u.metrics.metricsOut ≠ [] → u.metrics.simFix < u.sizes.T ∧ u.metrics.horizons ≠ [])) := by
  unfold construct
  have h1 : Decided (checkHorizon u) (u.checks.estimation = true → u.checks.prediction = true → 0 < u.maxHorizon) := by
    unfold checkHorizon
    refine (Decided.guard fun _ => Decided.pure _).congr ?_
    rw [and_true]
    unfold Setup.forecasts
    rw [Bool.and_eq_true]
    constructor
    · intro h a b
      by_contra hn
      exact h ⟨⟨a, b⟩, by omega⟩
    · rintro h ⟨⟨a, b⟩, c⟩
      have := h a b
      omega
  have h2 : Decided (checkSim u) (0 < u.metrics.simFix → u.metrics.metricsOut ≠ [] → u.metrics.simFix < u.sizes.T ∧ u.metrics.horizons ≠ []) := by
    unfold checkSim
    have hsim : u.simulates = true ↔ 0 < u.metrics.simFix ∧ u.metrics.metricsOut ≠ [] := by
      unfold Setup.simulates
      rw [Bool.and_eq_true, decide_eq_true_iff, decide_eq_true_iff, gt_iff_lt, gt_iff_lt, List.length_pos_iff]
    by_cases hs : u.simulates = true
    swap
    · rw [if_neg hs]
      exact (Decided.pure _).congr ⟨fun _ a b => absurd (hsim.2 ⟨a, b⟩) hs, fun _ => trivial⟩
    rw [if_pos hs]
    obtain ⟨p1, p2⟩ := hsim.1 hs
    have hmk : Decided (u.sim.make u.sizes.T) (u.metrics.simFix < u.sizes.T ∧ u.metrics.horizons ≠ []) := by
      unfold Vs.Setup.make
      refine (Decided.guard fun _ => Decided.guard fun _ => Decided.pure _).congr ?_
      show ¬ (u.metrics.simFix = 0 ∨ u.metrics.simFix ≥ u.sizes.T) ∧ ¬ (u.metrics.horizons = []) ∧ True ↔ _
      constructor
      · rintro ⟨a, b, -⟩; exact ⟨by omega, b⟩
      · rintro ⟨a, b⟩; exact ⟨by omega, b, trivial⟩
    refine (Decided.bind hmk fun _ _ => Decided.pure _).congr ?_
    rw [and_true]
    exact ⟨fun h _ _ => h, fun h => h p1 p2⟩
  refine (Decided.bind h1 fun _ _ => Decided.bind h2 fun _ _ => Decided.pure _).congr ?_
  rw [and_true]

section
variable (r : SetRequest) (junk : ℤ) (w : Varma.Sizes → Needs) (big tiny : ℝ) {metrics : SOpt.Metrics ℝ} {checks : SOpt.Checks ℝ} (evals T : ℤ)

/-- What one searcher needs. -/
structure SetFits (r : SetRequest) (metrics : SOpt.Metrics ℝ) (checks : SOpt.Checks ℝ) (evals T n : ℤ) (o : Order) : Prop where
  season : r.season < 2 → o.sp = 0 ∧ o.sd = 0 ∧ o.sq = 0
  room : (r.comb.numFixPartitions : ℤ) ≤ n
  count : evals.toNat ≠ 0
  targets : r.targets ≠ 0
  orient : evals.toNat = metrics.orient.length
  keeps : r.keepModels = true ∨ r.length1 ≠ 0
  horizon : checks.estimation = true → checks.prediction = true → 0 < r.maxHorizon
  simulations : 0 < metrics.simFix → metrics.metricsOut ≠ [] → metrics.simFix < T - o.lost r.period ∧ metrics.horizons ≠ []

theorem set_one_decided (hs : Small r) {n : ℤ} {o : Order} (ho : r.Wanted o) (e : List ℤ) :
    Decided (setSearcher r junk w big tiny metrics checks evals T n o e) (SetFits r metrics checks evals T n o) := by
  unfold setSearcher
  refine (Decided.bind (sizes_decided hs ho junk T n e) (Q := (r.comb.numFixPartitions : ℤ) ≤ n ∧ (evals.toNat ≠ 0 ∧ r.targets ≠ 0 ∧ evals.toNat = metrics.orient.length ∧
    (r.keepModels = true ∨ r.length1 ≠ 0)) ∧ (checks.estimation = true → checks.prediction = true → 0 < r.maxHorizon) ∧ (0 < metrics.simFix → metrics.metricsOut ≠ [] →
    metrics.simFix < T - o.lost r.period ∧ metrics.horizons ≠ [])) fun z hz => ?_).congr ?_
  · obtain ⟨hz, -, -⟩ := sizes_of hs ho hz
    refine (Decided.guard fun _ => Decided.bind (reg_decided (r.cfg metrics evals n e) rfl big tiny) fun st _ =>
      Decided.bind (construct_decided (r.setup metrics checks z o) (w z) r.source.pData.cols n.toNat e.length) fun M _ => Decided.pure _).congr ?_
    rw [not_lt, and_true]
    refine and_congr Iff.rfl (and_congr Iff.rfl (and_congr Iff.rfl ?_))
    show (0 < metrics.simFix → metrics.metricsOut ≠ [] → metrics.simFix < z.T ∧ metrics.horizons ≠ []) ↔ _
    rw [show z.T = T - o.lost r.period by rw [← hz.lost, ← hz.obs]; rfl]
  · constructor
    · rintro ⟨a, b, ⟨c, d, f, g⟩, h, i⟩; exact ⟨a, b, c, d, f, g, h, i⟩
    · rintro ⟨a, b, c, d, f, g, h, i⟩; exact ⟨a, b, ⟨c, d, f, g⟩, h, i⟩

theorem exoGroups_eq : r.exoGroups = r.innerGroups := by
  unfold SetRequest.exoGroups SetRequest.innerGroups
  by_cases h : r.groups = []
  · rw [if_pos h, if_pos (by rw [h]; rfl)]
  · rw [if_neg h, if_neg (by rw [List.length_eq_zero_iff]; exact h)]

theorem innerGroups_ne : ∃ e, e ∈ r.innerGroups := by
  unfold SetRequest.innerGroups
  by_cases h : r.groups = []
  · rw [if_pos h]; exact ⟨[], by simp⟩
  · rw [if_neg h]; exact List.exists_mem_of_ne_nil _ h

theorem set_sizes_decided (hs : Small r) (h6 : r.params.length = 6) : ∀ l : List ℤ, Decided (setSizes r junk w big tiny metrics checks evals T l)
    ((∀ s ∈ l, 0 < s) ∧ ∀ s ∈ l, ∀ o, r.Wanted o → SetFits r metrics checks evals T s o)
  | [] => (Decided.pure _).congr ⟨fun _ => by simp, fun _ => trivial⟩
  | s :: l => by
    rw [setSizes]
    have h1 : Decided ((orders r.params).mapM fun o => r.exoGroups.mapM (setSearcher r junk w big tiny metrics checks evals T s o))
        (∀ o ∈ orders r.params, ∀ e ∈ r.exoGroups, SetFits r metrics checks evals T s o) :=
      decided_mapM fun o ho => decided_mapM fun e _ => set_one_decided r junk w big tiny evals T hs ((mem_orders_iff h6).1 ho) e
    refine (Decided.guard fun _ => Decided.bind h1 fun _ _ => Decided.bind (set_sizes_decided hs h6 l) fun _ _ => Decided.pure _).congr ?_
    rw [List.forall_mem_cons, List.forall_mem_cons, not_le, and_true]
    obtain ⟨e0, he0⟩ := innerGroups_ne r
    rw [← exoGroups_eq] at he0
    constructor
    · rintro ⟨a, b, c, d⟩
      exact ⟨⟨a, c⟩, fun o ho => b o ((mem_orders_iff h6).2 ho) e0 he0, d⟩
    · rintro ⟨⟨a, c⟩, b, d⟩
      exact ⟨a, fun o ho e _ => b o ((mem_orders_iff h6).1 ho), c, d⟩

theorem set_partitions_decided (endo : ℕ) (l : List (List ℤ)) : Decided (checkPartitions endo l) (∀ b ∈ l, ∀ a ∈ b, 0 ≤ a ∧ a ≤ (endo : ℤ)) := by
  unfold checkPartitions
  refine (Decided.guard fun _ => Decided.pure _).congr ?_
  rw [and_true]
  constructor
  · intro h b hb a ha
    by_contra hn
    apply h
    rw [List.any_eq_true]
    refine ⟨b, hb, ?_⟩
    rw [List.any_eq_true]
    refine ⟨a, ha, ?_⟩
    simp only [Bool.or_eq_true, decide_eq_true_eq]
    omega
  · intro h hn
    rw [List.any_eq_true] at hn
    obtain ⟨b, hb, hn⟩ := hn
    rw [List.any_eq_true] at hn
    obtain ⟨a, ha, hn⟩ := hn
    simp only [Bool.or_eq_true, decide_eq_true_eq] at hn
    have := h b hb a ha
    omega

theorem set_params_decided (m : List ℤ) : Decided (checkParams m) (m.length = 6 ∧ ∀ i ∈ m, 0 ≤ i) := by
  unfold checkParams
  refine (Decided.guard fun _ => Decided.guard fun _ => Decided.pure _).congr ?_
  rw [and_true, not_not]
  refine and_congr Iff.rfl ?_
  rw [List.any_eq_true]
  constructor
  · intro h i hi
    by_contra hn
    exact h ⟨i, hi, decide_eq_true (by omega)⟩
  · rintro h ⟨i, hi, hn⟩
    have := h i hi
    have := of_decide_eq_true hn
    omega

theorem set_obs_decided : Decided r.obs (r.source.ranges ≠ []) := by
  unfold SetRequest.obs
  cases h : r.source.ranges with
  | nil => exact Decided.throws.congr ⟨False.elim, fun h => h rfl⟩
  | cons g gs => exact (Decided.pure _).congr ⟨fun _ => by simp, fun _ => trivial⟩

theorem set_obs_ok (h : r.obs = .ok T) : ∃ g gs, r.source.ranges = g :: gs ∧ T = g.stop + 1 := by
  unfold SetRequest.obs at h
  cases hr : r.source.ranges with
  | nil => rw [hr] at h; cases h
  | cons g gs =>
    rw [hr] at h
    exact ⟨g, gs, rfl, (Outcome.ok.inj h).symm⟩

/-- What a searcher that was made consists of. -/
structure SetMade (r : SetRequest) (junk : ℤ) (w : Varma.Sizes → Needs) (big tiny : ℝ) (metrics : SOpt.Metrics ℝ) (checks : SOpt.Checks ℝ) (evals T : ℤ) (s : SetSearcher)
    (n : ℤ) (o : Order) (e : List ℤ) : Prop where
  sizes : r.sizesFor junk T n o e = .ok s.setup.sizes
  cfg : s.cfg = r.cfg metrics evals n e
  setup : s.setup = r.setup metrics checks s.setup.sizes o
  reg : Srch.regConstruct s.cfg big tiny = .ok s.init
  memory : construct s.setup (w s.setup.sizes) r.source.pData.cols n.toNat e.length = .ok s.memory
  room : (r.comb.numFixPartitions : ℤ) ≤ n

theorem set_one_made {n : ℤ} {o : Order} {e : List ℤ} {s : SetSearcher} (h : setSearcher r junk w big tiny metrics checks evals T n o e = .ok s) :
    SetMade r junk w big tiny metrics checks evals T s n o e := by
  unfold setSearcher at h
  obtain ⟨z, h0, h⟩ := bind_ok h
  by_cases hf : (r.comb.numFixPartitions : ℤ) > n
  · rw [if_pos hf] at h; cases h
  rw [if_neg hf] at h
  dsimp only at h
  obtain ⟨st, h1, h⟩ := bind_ok h
  obtain ⟨M, h3, h⟩ := bind_ok h
  obtain rfl := Outcome.ok.inj h
  exact ⟨h0, rfl, rfl, h1, h3, not_lt.1 hf⟩

theorem forall₂_flatten {α β γ : Type} {R : γ → β → Prop} {f : α → List β} : ∀ {l : List α} {a : List (List γ)}, List.Forall₂ (fun x y => List.Forall₂ R y (f x)) l a →
    List.Forall₂ R a.flatten (l.flatMap f)
  | [], _, .nil => List.Forall₂.nil
  | x :: l, _, .cons h hs => by
    rw [List.flatten_cons, List.flatMap_cons]
    exact List.rel_append h (forall₂_flatten hs)

theorem set_sizes_made : ∀ (l : List ℤ) (a : List SetSearcher), setSizes r junk w big tiny metrics checks evals T l = .ok a →
    List.Forall₂ (fun x (p : ℤ × Order × List ℤ) => SetMade r junk w big tiny metrics checks evals T x p.1 p.2.1 p.2.2) a
      (l.flatMap fun s => (orders r.params).flatMap fun o => r.exoGroups.map fun e => (s, o, e))
  | [], a, h => by
    rw [← Outcome.ok.inj (show Outcome.ok [] = Outcome.ok a from h)]
    exact List.Forall₂.nil
  | s :: l, a, h => by
    rw [setSizes] at h
    by_cases h0 : s ≤ 0
    · rw [if_pos h0] at h; cases h
    rw [if_neg h0] at h
    obtain ⟨x, h1, h⟩ := bind_ok h
    obtain ⟨rest, h2, h⟩ := bind_ok h
    obtain rfl := Outcome.ok.inj h
    rw [List.flatMap_cons]
    refine List.rel_append (forall₂_flatten ((Vs.mapM_forall₂ h1).imp fun o y hy => ?_)) (set_sizes_made l rest h2)
    rw [List.forall₂_map_right_iff]
    exact ((Vs.mapM_forall₂ hy).imp fun e s hs => set_one_made r junk w big tiny evals T hs).flip

end
end Vm
end LDT
