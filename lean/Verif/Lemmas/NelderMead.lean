import Verif.Spec.NelderMead
import Verif.Lemmas.Poly
import Mathlib.Tactic
import Mathlib.Data.List.ReduceOption
/-!
# Lemmas for C95 and C96
-/
namespace LDT
namespace Op
open Mx

section
variable {K : Type} [LinearOrder K]

theorem Dbl.lt_irrefl (a : Dbl K) : a.lt a = false := by cases a <;> simp [Dbl.lt]

theorem Dbl.lt_trans {a b c : Dbl K} (h : a.lt b = true) (g : b.lt c = true) : a.lt c = true := by
  cases a <;> cases b <;> cases c <;> simp_all [Dbl.lt]
  exact _root_.lt_trans h g

theorem Dbl.lt_ne_nan {a b : Dbl K} (h : a.lt b = true) : a ≠ .nan ∧ b ≠ .nan := by
  cases a <;> cases b <;> simp_all [Dbl.lt]

theorem Dbl.not_lt_le {a b : Dbl K} (ha : a ≠ .nan) (hb : b ≠ .nan) : a.lt b = false ↔ b.le a = true := by
  cases a <;> cases b <;> simp_all [Dbl.lt, Dbl.le]

theorem Dbl.le_trans {a b c : Dbl K} (h : a.le b = true) (g : b.le c = true) : a.le c = true := by
  cases a <;> cases b <;> cases c <;> simp_all [Dbl.le]
  exact _root_.le_trans h g

theorem Dbl.lt_le {a b : Dbl K} (h : a.lt b = true) : a.le b = true := by
  cases a <;> cases b <;> simp_all [Dbl.lt, Dbl.le]
  exact h.le

theorem Dbl.le_ne_nan {a b : Dbl K} (h : a.le b = true) : a ≠ .nan ∧ b ≠ .nan := by
  cases a <;> cases b <;> simp_all [Dbl.le]

theorem Dbl.le_refl {a : Dbl K} (h : a ≠ .nan) : a.le a = true := by cases a <;> simp_all [Dbl.le]

theorem Dbl.lt_of_lt_of_le {a b c : Dbl K} (h : a.lt b = true) (g : b.le c = true) : a.lt c = true := by
  cases a <;> cases b <;> cases c <;> simp_all [Dbl.lt, Dbl.le]
  exact _root_.lt_of_lt_of_le h g

/-- The loop finds an extreme element or nothing better than the initial value. -/
theorem extremeLoop_spec (better : Dbl K → Dbl K → Bool) (bt : ∀ x y z, better x y = true → better y z = true → better x z = true)
    (all : List (Dbl K)) (init : Dbl K) : ∀ (r : List (Dbl K)) (i : Nat) (s : Dbl K × Int), all.drop i = r → i ≤ all.length →
    ((s = (init, -1) ∧ ∀ x ∈ all.take i, better x init = false) ∨
      ∃ k : Nat, s.2 = (k : Int) ∧ k < i ∧ all[k]? = some s.1 ∧ better s.1 init = true ∧ ∀ x ∈ all.take i, better x s.1 = false) →
    (∀ x, better x x = false) →
    ((extremeLoop better i r s = (init, -1) ∧ ∀ x ∈ all, better x init = false) ∨
      ∃ k : Nat, (extremeLoop better i r s).2 = (k : Int) ∧ all[k]? = some (extremeLoop better i r s).1 ∧
        better (extremeLoop better i r s).1 init = true ∧ ∀ x ∈ all, better x (extremeLoop better i r s).1 = false)
  | [], i, s, hd, hi, hs, _ => by
    have : all.take i = all := List.take_of_length_le (by rw [List.drop_eq_nil_iff] at hd; exact hd)
    rw [this] at hs
    rw [extremeLoop]
    rcases hs with h | ⟨k, a, b, c, d, e⟩
    · exact Or.inl h
    · exact Or.inr ⟨k, a, c, d, e⟩
  | x :: r, i, s, hd, hi, hs, ir => by
    have hx : all[i]? = some x := by
      have := congrArg (fun l => l[0]?) hd
      simpa using this
    have hlt : i < all.length := by
      rw [List.getElem?_eq_some_iff] at hx; exact hx.1
    have hr : all.drop (i + 1) = r := by
      have := congrArg List.tail hd
      simpa [List.tail_drop] using this
    have ht : all.take (i + 1) = all.take i ++ [x] := by
      rw [List.take_succ_eq_append_getElem hlt]
      congr 2
      rw [List.getElem?_eq_getElem hlt] at hx
      exact Option.some.inj hx
    rw [extremeLoop]
    split_ifs with hb
    · refine extremeLoop_spec better bt all init r (i + 1) (x, i) hr hlt ?_ ir
      right
      refine ⟨i, rfl, by omega, hx, ?_, ?_⟩
      · rcases hs with ⟨h, _⟩ | ⟨k, a, b, c, d, e⟩
        · rw [h] at hb; exact hb
        · exact bt _ _ _ hb d
      · intro y hy
        rw [ht] at hy
        rcases List.mem_append.1 hy with hy | hy
        · rw [Bool.eq_false_iff]
          intro hc
          rcases hs with ⟨h, g⟩ | ⟨k, a, b, c, d, e⟩
          · rw [h] at hb
            have := bt _ _ _ hc hb
            rw [g y hy] at this; cases this
          · have := bt _ _ _ hc hb
            rw [e y hy] at this; cases this
        · rw [List.mem_singleton.1 hy]; exact ir x
    · refine extremeLoop_spec better bt all init r (i + 1) s hr hlt ?_ ir
      rcases hs with ⟨h, g⟩ | ⟨k, a, b, c, d, e⟩
      · left
        refine ⟨h, fun y hy => ?_⟩
        rw [ht] at hy
        rcases List.mem_append.1 hy with hy | hy
        · exact g y hy
        · rw [List.mem_singleton.1 hy]; rw [h] at hb; simpa using hb
      · right
        refine ⟨k, a, by omega, c, d, fun y hy => ?_⟩
        rw [ht] at hy
        rcases List.mem_append.1 hy with hy | hy
        · exact e y hy
        · rw [List.mem_singleton.1 hy]; simpa using hb

theorem minIndex_spec {l : List (Dbl K)} (h : ∃ x ∈ l, x.lt .pinf = true) :
    ∃ (k : Nat) (m : Dbl K), minIndex l = k ∧ l[k]? = some m ∧ m.lt .pinf = true ∧ ∀ x ∈ l, x.lt m = false := by
  obtain ⟨x, hx, hlt⟩ := h
  have hl : l.length ≠ 0 := by intro h; rw [List.length_eq_zero_iff] at h; simp [h] at hx
  unfold minIndex; rw [if_neg hl]
  rcases extremeLoop_spec (fun x m : Dbl K => x.lt m) (fun _ _ _ => Dbl.lt_trans) l .pinf l 0 (.pinf, -1) rfl (Nat.zero_le _)
    (Or.inl ⟨rfl, by simp⟩) Dbl.lt_irrefl with ⟨_, g⟩ | ⟨k, a, b, c, d⟩
  · have := g x hx
    simp only [hlt] at this; cases this
  · exact ⟨k, _, a, b, c, d⟩

theorem maxIndex_spec {l : List (Dbl K)} (h : ∃ x ∈ l, Dbl.ninf.lt x = true) :
    ∃ (k : Nat) (m : Dbl K), maxIndex l = k ∧ l[k]? = some m ∧ Dbl.ninf.lt m = true ∧ ∀ x ∈ l, m.lt x = false := by
  obtain ⟨x, hx, hlt⟩ := h
  have hl : l.length ≠ 0 := by intro h; rw [List.length_eq_zero_iff] at h; simp [h] at hx
  unfold maxIndex; rw [if_neg hl]
  rcases extremeLoop_spec (fun x m : Dbl K => m.lt x) (fun _ _ _ h g => Dbl.lt_trans g h) l .ninf l 0 (.ninf, -1) rfl (Nat.zero_le _)
    (Or.inl ⟨rfl, by simp⟩) Dbl.lt_irrefl with ⟨_, g⟩ | ⟨k, a, b, c, d⟩
  · have := g x hx
    simp only [hlt] at this; cases this
  · exact ⟨k, _, a, b, c, d⟩

theorem extremeLoop_none (better : Dbl K → Dbl K → Bool) : ∀ (r : List (Dbl K)) (i : Nat) (s : Dbl K × Int),
    (∀ x ∈ r, better x s.1 = false) → extremeLoop better i r s = s
  | [], _, _, _ => rfl
  | x :: r, i, s, h => by
    rw [extremeLoop, if_neg (by rw [h x List.mem_cons_self]; simp)]
    exact extremeLoop_none better r (i + 1) s fun y hy => h y (List.mem_cons_of_mem _ hy)

/-- Nothing is found among values that are all infinitely large or missing. -/
theorem minIndex_none {l : List (Dbl K)} (h : ∀ x ∈ l, x.lt .pinf = false) : minIndex l = -1 := by
  unfold minIndex
  split_ifs
  · rfl
  · rw [extremeLoop_none _ l 0 _ h]

theorem maxIndex_none {l : List (Dbl K)} (h : ∀ x ∈ l, Dbl.ninf.lt x = false) : maxIndex l = -1 := by
  unfold maxIndex
  split_ifs
  · rfl
  · rw [extremeLoop_none _ l 0 _ h]

/-! ## The penalty -/

theorem read_nat {α : Type} {l : List α} {i : Nat} (h : i < l.length) : Mx.read l (i : Int) = .ok l[i] := by
  rw [read_eq_ok]; exact ⟨by omega, by simp [h]⟩

theorem bound_some {l : List (Dbl K)} {i : Nat} (h : i < l.length) : bound (some l) i = some l[i] := by
  simp [bound, h]

theorem penaltyAt_spec (o : Ops K) {x : List (Dbl K)} {lower upper : Option (List (Dbl K))} (hl : Long lower x.length)
    (hu : Long upper x.length) (p : Dbl K) {i : Nat} (hi : i < x.length) :
    penaltyAt o x lower upper p (i : Int) =
      .ok (match excess o (bound lower i) (bound upper i) x[i] with | some e => o.add p (o.sq e) | none => p) := by
  cases lower with
  | none =>
    cases upper with
    | none => simp [penaltyAt, excess, bound]
    | some up =>
      have hi2 : i < up.length := lt_of_lt_of_le hi (hu up rfl)
      rw [bound_some hi2]
      show (Mx.read x (i : Int) >>= _) = _
      rw [read_nat hi]
      show (Mx.read up (i : Int) >>= _) = _
      rw [read_nat hi2]
      simp only [excess, bound, Option.bind_none, Outcome.ok_bind]
      split_ifs <;> simp_all
  | some lo =>
    have hi1 : i < lo.length := lt_of_lt_of_le hi (hl lo rfl)
    rw [bound_some hi1]
    cases upper with
    | none =>
      show (Mx.read x (i : Int) >>= _) = _
      rw [read_nat hi]
      show (Mx.read lo (i : Int) >>= _) = _
      rw [read_nat hi1]
      simp only [excess, bound, Option.bind_none, Outcome.ok_bind]
      split_ifs <;> simp_all
    | some up =>
      have hi2 : i < up.length := lt_of_lt_of_le hi (hu up rfl)
      rw [bound_some hi2]
      show (Mx.read x (i : Int) >>= _) = _
      rw [read_nat hi]
      show (Mx.read lo (i : Int) >>= _) = _
      rw [read_nat hi1, Outcome.ok_bind]
      split_ifs with h1
      · simp [excess, h1]
      · rw [read_nat hi2, Outcome.ok_bind]
        simp only [excess]
        rw [if_neg h1]
        split_ifs <;> simp_all

theorem penalty_spec (o : Ops K) {x : List (Dbl K)} {lower upper : Option (List (Dbl K))} (hl : Long lower x.length)
    (hu : Long upper x.length) :
    penalty o x lower upper =
      .ok (((x.mapIdx fun i v => excess o (bound lower i) (bound upper i) v).reduceOption.map o.sq).foldl o.add (o.ofInt 0)) := by
  have := loop_inv (a := 0) (b := (x.length : Int)) (by omega) (penaltyAt o x lower upper)
    (fun i s => s = ((((x.mapIdx fun i v => excess o (bound lower i) (bound upper i) v).take i.toNat).reduceOption.map o.sq).foldl
      o.add (o.ofInt 0))) (s := o.ofInt 0) (by simp [List.reduceOption]) (by
      intro i h0 h1 s hs
      obtain ⟨k, rfl⟩ : ∃ k : Nat, i = k := ⟨i.toNat, by omega⟩
      have hk : k < x.length := by omega
      refine ⟨_, penaltyAt_spec o hl hu s hk, ?_⟩
      have hk' : k < (x.mapIdx fun i v => excess o (bound lower i) (bound upper i) v).length := by simpa using hk
      have e : ((k : Int) + 1).toNat = k + 1 := by omega
      rw [e, List.take_succ_eq_append_getElem hk', List.reduceOption_append, List.map_append, List.foldl_append]
      simp only [Int.toNat_natCast] at hs
      rw [← hs, List.getElem_mapIdx]
      cases excess o (bound lower k) (bound upper k) x[k] <;> simp [List.reduceOption])
  obtain ⟨s, e, h⟩ := this
  unfold penalty
  rw [e, h]
  congr 4
  rw [List.take_of_length_le]; simp

theorem goal_spec (o : Ops K) (objective : List (Dbl K) → Option (Dbl K)) (mult : Dbl K) {x : List (Dbl K)}
    {lower upper : Option (List (Dbl K))} (hl : Long lower x.length) (hu : Long upper x.length) :
    goal o objective mult lower upper x = .ok (score o objective mult lower upper x) := by
  unfold goal score
  cases objective x with
  | none => rfl
  | some v =>
    show (penalty o x lower upper >>= _) = _
    rw [penalty_spec o hl hu]; rfl

/-! ## The starting point -/

theorem clampAt_ok {lower upper : Option (List (Dbl K))} {s : List (Dbl K)} (hl : Long lower s.length) (hu : Long upper s.length)
    {i : Nat} (hi : i < s.length) (h1 : s[i] ≠ .nan)
    (h2 : ¬ ∃ l u, bound lower i = some l ∧ bound upper i = some u ∧ u.lt l = true) :
    clampAt lower upper s (i : Int) = .ok (s.set i (nearest (bound lower i) (bound upper i) s[i])) := by
  unfold clampAt
  rw [read_nat hi, Outcome.ok_bind, if_neg h1]
  cases lower with
  | none =>
    cases upper with
    | none => simp [bound, nearest, write, hi]
    | some up =>
      have hi2 : i < up.length := lt_of_lt_of_le hi (hu up rfl)
      rw [bound_some hi2]
      simp [bound, nearest, write, hi, read_nat hi2, Outcome.bind]
      rfl
  | some lo =>
    have hi1 : i < lo.length := lt_of_lt_of_le hi (hl lo rfl)
    cases upper with
    | none =>
      rw [bound_some hi1]
      simp [bound, nearest, write, hi, read_nat hi1, Outcome.bind]
    | some up =>
      have hi2 : i < up.length := lt_of_lt_of_le hi (hu up rfl)
      have h3 : up[i].lt lo[i] = false := by
        rw [Bool.eq_false_iff]; intro h; exact h2 ⟨_, _, bound_some hi1, bound_some hi2, h⟩
      rw [bound_some hi1, bound_some hi2]
      simp [nearest, write, hi, read_nat hi1, read_nat hi2, Outcome.bind, h3]

theorem clampAt_throws {lower upper : Option (List (Dbl K))} {s : List (Dbl K)} (hl : Long lower s.length) (hu : Long upper s.length)
    {i : Nat} (hi : i < s.length)
    (h : s[i] = .nan ∨ ∃ l u, bound lower i = some l ∧ bound upper i = some u ∧ u.lt l = true) :
    clampAt lower upper s (i : Int) = .throws := by
  unfold clampAt
  rw [read_nat hi, Outcome.ok_bind]
  by_cases h1 : s[i] = .nan
  · rw [if_pos h1]
  · rw [if_neg h1]
    obtain ⟨l, u, a, b, c⟩ := h.resolve_left h1
    cases lower with
    | none => simp [bound] at a
    | some lo =>
      cases upper with
      | none => simp [bound] at b
      | some up =>
        have hi1 : i < lo.length := lt_of_lt_of_le hi (hl lo rfl)
        have hi2 : i < up.length := lt_of_lt_of_le hi (hu up rfl)
        rw [bound_some hi1] at a
        rw [bound_some hi2] at b
        cases a; cases b
        simp [read_nat hi1, read_nat hi2, Outcome.bind, c]

theorem nearest_inside {l u : Option (Dbl K)} (h : ¬ ∃ a b, l = some a ∧ u = some b ∧ b.lt a = true) (v : Dbl K) (hv : v ≠ .nan)
    : (∀ a, l = some a → (nearest l u v).lt a = false) ∧ ∀ b, u = some b → b.lt (nearest l u v) = false := by
  cases l with
  | none =>
    cases u with
    | none => simp
    | some b =>
      refine ⟨by simp, fun b' e => ?_⟩
      cases e
      simp only [nearest]
      split_ifs with g
      · exact Dbl.lt_irrefl b
      · simpa using g
  | some a =>
    cases u with
    | none =>
      refine ⟨fun a' e => ?_, by simp⟩
      cases e
      simp only [nearest]
      split_ifs with g
      · exact Dbl.lt_irrefl a
      · simpa using g
    | some b =>
      have hab : b.lt a = false := by
        rw [Bool.eq_false_iff]; intro hh; exact h ⟨a, b, rfl, rfl, hh⟩
      constructor
      · intro a' e; cases e
        simp only [nearest]
        split_ifs with g g2 g3
        · exact hab
        · exact Dbl.lt_irrefl a
        · exact hab
        · simpa using g
      · intro b' e; cases e
        simp only [nearest]
        split_ifs with g g2 g3
        · exact Dbl.lt_irrefl b
        · simpa using g2
        · exact Dbl.lt_irrefl b
        · simpa using g3

theorem clamped_length (lower upper : Option (List (Dbl K))) (x : List (Dbl K)) : (clamped lower upper x).length = x.length := by
  simp [clamped]

/-- The loop over the starting values moves the point into the box. -/
theorem clamp_ok {lower upper : Option (List (Dbl K))} {x : List (Dbl K)} (hl : Long lower x.length) (hu : Long upper x.length)
    (hb : ¬ Bad lower upper x) :
    (upTo 0 (x.length : Int)).foldlM (clampAt lower upper) x = .ok (clamped lower upper x) := by
  have hg : ∀ i (hi : i < x.length), x[i] ≠ .nan ∧ ¬ ∃ l u, bound lower i = some l ∧ bound upper i = some u ∧ u.lt l = true := by
    intro i hi
    constructor
    · intro h; exact hb ⟨i, hi, Or.inl (by rw [List.getElem?_eq_getElem hi, h])⟩
    · intro h; exact hb ⟨i, hi, Or.inr h⟩
  obtain ⟨s, e, h1, h2⟩ := loop_inv (a := 0) (b := (x.length : Int)) (by omega) (clampAt lower upper)
    (fun i s => s.length = x.length ∧ ∀ j (hj : j < x.length), s[j]? = some (if (j : Int) < i then
      nearest (bound lower j) (bound upper j) x[j] else x[j])) (s := x)
    ⟨rfl, fun j hj => by simp [hj]⟩ (by
      rintro i h0 h1 s ⟨h2, h3⟩
      obtain ⟨k, rfl⟩ : ∃ k : Nat, i = k := ⟨i.toNat, by omega⟩
      have hk : k < x.length := by omega
      have hks : k < s.length := by omega
      have hsk : s[k] = x[k] := by
        have := h3 k hk
        rw [List.getElem?_eq_getElem hks, if_neg (by omega)] at this
        exact Option.some.inj this
      refine ⟨_, clampAt_ok (h2 ▸ hl) (h2 ▸ hu) hks (hsk ▸ (hg k hk).1) (hg k hk).2, by simp [h2], fun j hj => ?_⟩
      by_cases hjk : j = k
      · subst hjk
        rw [List.getElem?_set_self hks, if_pos (by omega), hsk]
      · rw [List.getElem?_set_ne (by omega), h3 j hj]
        by_cases g : (j : Int) < k
        · rw [if_pos g, if_pos (by omega)]
        · rw [if_neg g, if_neg (by omega)])
  rw [e]
  congr 1
  apply List.ext_getElem?
  intro j
  by_cases hj : j < x.length
  · rw [h2 j hj, if_pos (by omega)]
    simp [clamped, hj]
  · rw [List.getElem?_eq_none (by omega), List.getElem?_eq_none (by rw [clamped_length]; omega)]

theorem foldlM_throws {σ : Type} {f : σ → Int → Outcome σ} : ∀ {l r : List Int} {i : Int} {s : σ},
    (∃ s', l.foldlM f s = .ok s' ∧ f s' i = .throws) → (l ++ i :: r).foldlM f s = .throws := by
  intro l r i s ⟨s', h, g⟩
  rw [List.foldlM_append]
  show (l.foldlM f s >>= _) = _
  rw [h, Outcome.ok_bind, List.foldlM_cons, g]
  rfl

theorem clamp_throws {lower upper : Option (List (Dbl K))} {x : List (Dbl K)} (hl : Long lower x.length) (hu : Long upper x.length)
    (hb : Bad lower upper x) :
    (upTo 0 (x.length : Int)).foldlM (clampAt lower upper) x = .throws := by
  classical
  have hne : ∃ i, i < x.length ∧ (x[i]? = some .nan ∨ ∃ l u, bound lower i = some l ∧ bound upper i = some u ∧ u.lt l = true) := hb
  obtain ⟨hi, h⟩ := Nat.find_spec hne
  have hmin := fun j => Nat.find_min (H := hne) (m := j)
  generalize Nat.find hne = i at *
  obtain ⟨s, e, h1, h2⟩ := loop_inv (a := 0) (b := (i : Int)) (by omega) (clampAt lower upper)
    (fun i s => s.length = x.length ∧ ∀ j (hj : j < x.length), i ≤ j → s[j]? = some x[j]) (s := x)
    ⟨rfl, fun j hj _ => by simp [hj]⟩ (by
      rintro i' h0 h1 s ⟨h2, h3⟩
      obtain ⟨k, rfl⟩ : ∃ k : Nat, i' = k := ⟨i'.toNat, by omega⟩
      have hk : k < x.length := by omega
      have hks : k < s.length := by omega
      have hsk : s[k] = x[k] := by
        have := h3 k hk (by omega)
        rw [List.getElem?_eq_getElem hks] at this
        exact Option.some.inj this
      have hm := hmin k (by omega)
      refine ⟨_, clampAt_ok (h2 ▸ hl) (h2 ▸ hu) hks ?_ ?_, by simp [h2], fun j hj hjk => ?_⟩
      · rw [hsk]; intro g; exact hm ⟨hk, Or.inl (by rw [List.getElem?_eq_getElem hk, g])⟩
      · intro g; exact hm ⟨hk, Or.inr g⟩
      · rw [List.getElem?_set_ne (by omega)]; exact h3 j hj (by omega))
  have his : i < s.length := by omega
  have hsi : s[i] = x[i] := by
    have := h2 i hi (by omega)
    rw [List.getElem?_eq_getElem his] at this
    exact Option.some.inj this
  have ht := clampAt_throws (lower := lower) (upper := upper) (h1 ▸ hl) (h1 ▸ hu) his (by
    rcases h with h | h
    · left; rw [hsi]; rw [List.getElem?_eq_getElem hi] at h; exact Option.some.inj h
    · right; exact h)
  have hsplit : upTo 0 (x.length : Int) = upTo 0 (i : Int) ++ (i : Int) :: upTo (i + 1 : Int) x.length := by
    apply List.ext_getElem?
    intro j
    have el : (upTo 0 (i : Int)).length = i := by rw [length_upTo]; omega
    rcases lt_trichotomy j i with g | g | g
    · rw [List.getElem?_append_left (by omega)]
      simp only [upTo, List.getElem?_map]
      rw [List.getElem?_range (by omega), List.getElem?_range (by omega)]
    · subst g
      rw [List.getElem?_append_right (by omega), el]
      simp only [upTo, List.getElem?_map]
      rw [List.getElem?_range (by omega)]; simp
    · rw [List.getElem?_append_right (by omega), el]
      obtain ⟨d, rfl⟩ : ∃ d, j = i + 1 + d := ⟨j - i - 1, by omega⟩
      have : i + 1 + d - i = d + 1 := by omega
      rw [this, List.getElem?_cons_succ]
      simp only [upTo, List.getElem?_map]
      by_cases hd : i + 1 + d < x.length
      · rw [List.getElem?_range (by omega), List.getElem?_range (by omega)]
        simp
      · rw [List.getElem?_eq_none (by simp; omega), List.getElem?_eq_none (by simp; omega)]; rfl
  rw [hsplit]
  exact foldlM_throws ⟨s, e, ht⟩

/-! ## The simplex -/

/-- A vertex with the value of the function there. -/
def Valued (g : List (Dbl K) → Dbl K) (n : Nat) (verts : List (List (Dbl K) × Dbl K)) : Prop :=
  verts.length = n + 1 ∧ ∀ p ∈ verts, p.1.length = n ∧ g p.1 = p.2

theorem along_length (o : Ops K) {n : Nat} {a b d : List (Dbl K)} (c : Dbl K) (ha : a.length = n) (hb : b.length = n)
    (hd : d.length = n) : (along o a c b d).length = n := by simp [along, ha, hb, hd]

theorem centroid_length (o : Ops K) {n : Nat} {verts : List (List (Dbl K) × Dbl K)} (w : Int) (h : ∀ p ∈ verts, p.1.length = n) :
    (centroid o n verts w).length = n := by
  unfold centroid
  rw [List.length_map]
  have : ∀ (l : List ((List (Dbl K) × Dbl K) × Nat)) (c : List (Dbl K)), c.length = n → (∀ p ∈ l, p.1.1.length = n) →
      (l.foldl (fun (c : List (Dbl K)) p => if (p.2 : Int) = w then c else List.zipWith o.add c p.1.1) c).length = n := by
    intro l
    induction l with
    | nil => intro c hc _; exact hc
    | cons p l ih =>
      intro c hc hl
      rw [List.foldl_cons]
      refine ih _ ?_ fun q hq => hl q (List.mem_cons_of_mem _ hq)
      split_ifs
      · exact hc
      · rw [List.length_zipWith, hc, hl p List.mem_cons_self, Nat.min_self]
  exact this _ _ (by simp) fun p hp => h p.1 (List.fst_mem_of_mem_zipIdx hp)

theorem valued_set {g : List (Dbl K) → Dbl K} {n : Nat} {verts : List (List (Dbl K) × Dbl K)} (h : Valued g n verts) (w : Nat)
    {x : List (Dbl K)} (hx : x.length = n) : Valued g n (verts.set w (x, g x)) := by
  refine ⟨by simp [h.1], fun p hp => ?_⟩
  rcases List.mem_or_eq_of_mem_set hp with hp | hp
  · exact h.2 p hp
  · rw [hp]; exact ⟨hx, rfl⟩

theorem mapM_spec {α β : Type} {f : α → Outcome β} {g : α → β} : ∀ (l : List α), (∀ a ∈ l, f a = .ok (g a)) →
    l.mapM f = .ok (l.map g)
  | [], _ => rfl
  | a :: l, h => by
    rw [List.mapM_cons, h a List.mem_cons_self, Outcome.ok_bind, mapM_spec l fun b hb => h b (List.mem_cons_of_mem _ hb)]
    rfl

/-- What an iteration leaves: a simplex whose best vertex is not worse. -/
theorem moves_spec (o : Ops K) (P : Params K) {f : List (Dbl K) → Outcome (Dbl K)} {g : List (Dbl K) → Dbl K} {n : Nat}
    (hf : ∀ x : List (Dbl K), x.length = n → f x = .ok (g x)) {verts : List (List (Dbl K) × Dbl K)} (hv : Valued g n verts)
    {w b : Nat} {pw pb : List (Dbl K) × Dbl K} (ew : verts[w]? = some pw) (eb : verts[b]? = some pb)
    (hw : ∀ p ∈ verts, pw.2.lt p.2 = false) (hwn : pw.2 ≠ .nan) :
    ∃ verts', moves o P f n verts w b pw pb = .ok verts' ∧ Valued g n verts' ∧
      ∃ p ∈ verts', p = pb ∨ p.2.lt pb.2 = true := by
  have lw : w < verts.length := by rw [List.getElem?_eq_some_iff] at ew; exact ew.1
  have mw : pw ∈ verts := List.mem_of_getElem? ew
  have mb : pb ∈ verts := List.mem_of_getElem? eb
  have lc : (centroid o n verts w).length = n := centroid_length o _ fun p hp => (hv.2 p hp).1
  have lr := along_length o P.reflection lc lc (hv.2 _ mw).1
  have le := along_length o P.expansion lc lr lc
  have lk := along_length o P.contraction lc (hv.2 _ mw).1 lc
  -- replacing the worst vertex
  have rep : ∀ x : List (Dbl K), x.length = n → (w = b → (g x).lt pb.2 = true) →
      ∃ verts', write verts (w : Int) (x, g x) = .ok verts' ∧ Valued g n verts' ∧ ∃ p ∈ verts', p = pb ∨ p.2.lt pb.2 = true := by
    intro x hx hb
    refine ⟨_, write_ok_of _ (by omega) (by omega), valued_set hv _ hx, ?_⟩
    simp only [Int.toNat_natCast]
    by_cases h : w = b
    · exact ⟨(x, g x), List.mem_set lw _, Or.inr (hb h)⟩
    · refine ⟨pb, ?_, Or.inl rfl⟩
      apply List.mem_of_getElem? (i := b)
      rw [List.getElem?_set_ne h]; exact eb
  have same : w = b → pw = pb := by
    intro h; subst h; rw [ew] at eb; exact Option.some.inj eb
  unfold moves
  simp only []
  rw [hf _ lr, Outcome.ok_bind]
  split_ifs with h1 h2
  · rw [hf _ le, Outcome.ok_bind]
    split_ifs with h3
    · exact rep _ le fun _ => Dbl.lt_trans h3 h1
    · exact rep _ lr fun _ => h1
  · refine rep _ lr fun e => ?_
    exfalso
    obtain ⟨p, hp, hq⟩ := List.any_eq_true.1 h2
    rw [Bool.and_eq_true] at hq
    have hm : p.1 ∈ verts := List.fst_mem_of_mem_zipIdx hp
    have h4 := hw _ hm
    have hn := Dbl.lt_ne_nan hq.2
    rw [same e] at h4
    have hb2 : pb.2 ≠ .nan := same e ▸ hwn
    exact h1 (Dbl.lt_of_lt_of_le hq.2 ((Dbl.not_lt_le hb2 hn.2).1 h4))
  · rw [hf _ lk, Outcome.ok_bind]
    split_ifs with h3
    · exact rep _ lk fun e => same e ▸ h3
    · let sh : (List (Dbl K) × Dbl K) × Nat → List (Dbl K) × Dbl K := fun p =>
        if (p.2 : Int) = b then p.1 else (along o pb.1 P.shrink p.1.1 pb.1, g (along o pb.1 P.shrink p.1.1 pb.1))
      have lb : pb.1.length = n := (hv.2 _ mb).1
      refine ⟨verts.zipIdx.map sh, mapM_spec _ fun p hp => ?_, ⟨by simp [hv.1], fun q hq => ?_⟩, pb, ?_, Or.inl rfl⟩
      · have hm : p.1 ∈ verts := List.fst_mem_of_mem_zipIdx hp
        simp only [sh, shrinkAt]
        split_ifs
        · rfl
        · rw [hf _ (along_length o _ lb (hv.2 _ hm).1 lb)]; rfl
      · obtain ⟨p, hp, rfl⟩ := List.mem_map.1 hq
        have hm : p.1 ∈ verts := List.fst_mem_of_mem_zipIdx hp
        simp only [sh]
        split_ifs
        · exact hv.2 _ hm
        · exact ⟨along_length o _ lb (hv.2 _ hm).1 lb, rfl⟩
      · refine List.mem_map.2 ⟨(pb, b), ?_, by simp [sh]⟩
        rw [List.mem_zipIdx_iff_getElem?]
        exact eb

/-- The state of the search: the vertices carry the value of the function and one of them is at most `a`. -/
def Good (g : List (Dbl K) → Dbl K) (n : Nat) (a : K) (verts : List (List (Dbl K) × Dbl K)) : Prop :=
  Valued g n verts ∧ ∃ p ∈ verts, ∃ v, p.2 = .num v ∧ v ≤ a

/-- In a good simplex the best and the worst vertices are found. -/
theorem good_ends {g : List (Dbl K) → Dbl K} {n : Nat} {a : K} {verts : List (List (Dbl K) × Dbl K)} (h : Good g n a verts)
    (hm : ∀ x : List (Dbl K), x.length = n → g x ≠ .ninf) :
    ∃ (w b : Nat) (pw pb : List (Dbl K) × Dbl K), maxIndex (verts.map Prod.snd) = w ∧ minIndex (verts.map Prod.snd) = b ∧
      verts[w]? = some pw ∧ verts[b]? = some pb ∧ pw.2 ≠ .nan ∧ (∀ p ∈ verts, pw.2.lt p.2 = false) ∧
      (∀ p ∈ verts, p.2.lt pb.2 = false) ∧ ∃ v, pb.2 = .num v ∧ v ≤ a := by
  obtain ⟨hv, p, hp, v, e, hva⟩ := h
  obtain ⟨w, mw, e1, e2, e3, e4⟩ := maxIndex_spec (l := verts.map Prod.snd) ⟨p.2, List.mem_map_of_mem hp, by rw [e]; rfl⟩
  obtain ⟨b, mb, f1, f2, f3, f4⟩ := minIndex_spec (l := verts.map Prod.snd) ⟨p.2, List.mem_map_of_mem hp, by rw [e]; rfl⟩
  rw [List.getElem?_map] at e2 f2
  obtain ⟨pw, ew, rfl⟩ := Option.map_eq_some_iff.1 e2
  obtain ⟨pb, eb, rfl⟩ := Option.map_eq_some_iff.1 f2
  refine ⟨w, b, pw, pb, e1, f1, ew, eb, (Dbl.lt_ne_nan e3).2, fun q hq => e4 _ (List.mem_map_of_mem hq),
    fun q hq => f4 _ (List.mem_map_of_mem hq), ?_⟩
  have hb := f4 p.2 (List.mem_map_of_mem hp)
  have hvb := hv.2 _ (List.mem_of_getElem? eb)
  have hn := hm _ hvb.1
  rw [hvb.2] at hn
  rw [e] at hb
  cases hq : pb.2 with
  | nan => rw [hq] at f3; simp [Dbl.lt] at f3
  | pinf => rw [hq] at f3; simp [Dbl.lt] at f3
  | ninf => exact absurd hq hn
  | num u =>
    rw [hq] at hb
    simp only [Dbl.lt, decide_eq_false_iff_not, not_lt] at hb
    exact ⟨u, rfl, hb.trans hva⟩

/-- The best value of a simplex. -/
def Best (verts : List (List (Dbl K) × Dbl K)) (v : K) : Prop :=
  (∃ p ∈ verts, p.2 = .num v) ∧ ∀ p ∈ verts, p.2.lt (.num v) = false

theorem loop_spec (o : Ops K) (P : Params K) {f : List (Dbl K) → Outcome (Dbl K)} {g : List (Dbl K) → Dbl K} {n : Nat}
    (hf : ∀ x : List (Dbl K), x.length = n → f x = .ok (g x)) (hm : ∀ x : List (Dbl K), x.length = n → g x ≠ .ninf) {a : K} :
    ∀ (fuel : Nat) (s : State K), Good g n a s.verts →
      ∃ s', loop o P f n fuel s = .ok s' ∧ Good g n a s'.verts ∧ s.iter ≤ s'.iter ∧ s'.iter ≤ s.iter + fuel ∧
        (s'.iter < s.iter + fuel → s'.diff.lt P.tolerance = true ∧ ∃ pw ∈ s'.verts, ∃ pb ∈ s'.verts,
          (∀ p ∈ s'.verts, pw.2.lt p.2 = false ∧ p.2.lt pb.2 = false) ∧ s'.diff = o.abs (o.sub pw.2 pb.2))
  | 0, s, h => ⟨s, rfl, h, le_refl _, by omega, fun h => by omega⟩
  | fuel + 1, s, h => by
    obtain ⟨w, b, pw, pb, e1, e2, e3, e4, e5, e6, e7, v, e8, e9⟩ := good_ends h hm
    have rw' : ∀ {k : Nat} {p : List (Dbl K) × Dbl K}, s.verts[k]? = some p → Mx.read s.verts (k : Int) = .ok p := by
      intro k p hk; rw [read_eq_ok]; exact ⟨by omega, by simpa using hk⟩
    rw [loop]
    simp only []
    rw [e1, e2, rw' e3, Outcome.ok_bind, rw' e4, Outcome.ok_bind]
    split_ifs with hd
    · refine ⟨_, rfl, h, le_refl _, by simp; omega, fun _ => ⟨hd, pw, List.mem_of_getElem? e3, pb, List.mem_of_getElem? e4,
        fun p hp => ⟨e6 p hp, e7 p hp⟩, rfl⟩⟩
    · obtain ⟨verts', g1, g2, p, hp, g3⟩ := moves_spec o P hf h.1 e3 e4 e6 e5
      rw [g1, Outcome.ok_bind]
      have hgood : Good g n a verts' := by
        refine ⟨g2, p, hp, ?_⟩
        rcases g3 with g3 | g3
        · rw [g3]; exact ⟨v, e8, e9⟩
        · have hq := g2.2 p hp
          have hn := hm _ hq.1
          rw [hq.2] at hn
          rw [e8] at g3
          cases hu : p.2 with
          | nan => rw [hu] at g3; simp [Dbl.lt] at g3
          | pinf => rw [hu] at g3; simp [Dbl.lt] at g3
          | ninf => exact absurd hu hn
          | num u =>
            rw [hu] at g3
            simp only [Dbl.lt, decide_eq_true_eq] at g3
            exact ⟨u, rfl, (g3.trans_le e9).le⟩
      obtain ⟨s', h1, h2, h3, h4, h5⟩ := loop_spec o P hf hm fuel ⟨verts', s.iter + 1, o.abs (o.sub pw.2 pb.2)⟩ hgood
      refine ⟨s', h1, h2, ?_, ?_, ?_⟩
      · simp only [] at h3; omega
      · simp only [] at h4; push_cast; omega
      · intro h; exact h5 (by simp only []; push_cast at h; omega)

/-- A longer search goes on from where a shorter one has stopped. -/
theorem loop_add (o : Ops K) (P : Params K) (f : List (Dbl K) → Outcome (Dbl K)) (n : Nat) :
    ∀ (i j : Nat) (s : State K), (∃ s', loop o P f n (i + j) s = .ok s' ∧ loop o P f n i s = .ok s') ∨
      loop o P f n (i + j) s = loop o P f n i s >>= loop o P f n j
  | 0, j, s => by right; rw [Nat.zero_add]; rfl
  | i + 1, j, s => by
    rw [show i + 1 + j = (i + j) + 1 by omega, loop, loop]
    simp only []
    cases Mx.read s.verts (maxIndex (s.verts.map Prod.snd)) <;> simp only [Outcome.ok_bind, Outcome.throws_bind, Outcome.ub_bind,
      Outcome.diverges_bind] <;> try (right; trivial)
    cases Mx.read s.verts (minIndex (s.verts.map Prod.snd)) <;> simp only [Outcome.ok_bind, Outcome.throws_bind, Outcome.ub_bind,
      Outcome.diverges_bind] <;> try (right; trivial)
    split_ifs
    · left; exact ⟨_, rfl, rfl⟩
    · rename_i pw pb _
      cases moves o P f n s.verts (maxIndex (s.verts.map Prod.snd)) (minIndex (s.verts.map Prod.snd)) pw pb <;>
        simp only [Outcome.ok_bind, Outcome.throws_bind, Outcome.ub_bind, Outcome.diverges_bind] <;> try (right; trivial)
      exact loop_add o P f n i j _

end
end Op
end LDT
