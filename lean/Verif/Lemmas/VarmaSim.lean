import Verif.Spec.VarmaSim
import Verif.Lemmas.SurSim
/-! # Lemmas on the scores of forecasts -/
namespace LDT
namespace Vs
open Mx Op Score
open Dc (bind_ok)
open Su (backD sqrtD lambda lambdasOk Results cell requiresVariance)

theorem mapM_forall₂ {α β : Type} {f : α → Outcome β} : ∀ {l : List α} {r : List β}, l.mapM f = .ok r → List.Forall₂ (fun a b => f a = .ok b) l r
  | [], r, h => by
    rw [List.mapM_nil] at h
    obtain rfl := Outcome.ok.inj h
    exact .nil
  | a :: l, r, h => by
    rw [List.mapM_cons] at h
    obtain ⟨b, h1, h⟩ := bind_ok h
    obtain ⟨r', h2, h⟩ := bind_ok h
    obtain rfl := Outcome.ok.inj h
    exact .cons h1 (mapM_forall₂ h2)

theorem mapM_of_forall₂ {α β : Type} {f : α → Outcome β} {l : List α} {r : List β} (h : List.Forall₂ (fun a b => f a = .ok b) l r) : l.mapM f = .ok r := by
  induction h with
  | nil => rfl
  | cons h1 _ ih => rw [List.mapM_cons, h1, Outcome.ok_bind, ih, Outcome.ok_bind]; rfl

theorem read_at {d : Cols} {k : ℤ} {v : ℕ → Dbl ℝ} (h : Mx.read d k = .ok v) (j : ℕ) : at_ d k j = v j := by
  unfold Mx.read at h
  by_cases h0 : 0 ≤ k
  · rw [if_pos h0] at h
    cases he : d[k.toNat]? with
    | none => rw [he] at h; cases h
    | some w =>
      rw [he] at h
      obtain rfl := Outcome.ok.inj h
      unfold at_
      rw [he]; rfl
  · rw [if_neg h0] at h; cases h

theorem read_mid {α : Type} (pre : List α) (t : α) (ts : List α) : Mx.read (pre ++ t :: ts) (pre.length : ℤ) = .ok t := by
  unfold Mx.read
  rw [if_pos (by omega)]
  have : (pre ++ t :: ts)[(pre.length : ℤ).toNat]? = some t := by
    rw [Int.toNat_natCast, List.getElem?_append_right (le_refl _), Nat.sub_self]; rfl
  rw [this]

theorem addHorizons_skip {H : ℤ} {temp : List (Dbl ℝ)} : ∀ (hs : List ℤ) (k : ℤ) (v : Dbl ℝ), (∀ h ∈ hs, h > H) → addHorizons H temp hs k v = .ok v
  | [], k, v, _ => by rw [addHorizons]
  | h :: r, k, v, hh => by
    rw [addHorizons, if_pos (hh h List.mem_cons_self)]
    exact addHorizons_skip r k v fun x hx => hh x (List.mem_cons_of_mem _ hx)

/-- The sum over ascending horizons. -/
theorem addHorizons_sum {H : ℤ} {S : ℤ → Outcome (Dbl ℝ)} : ∀ (hs : List ℤ) (pre ts : List (Dbl ℝ)) (v : Dbl ℝ), hs.Pairwise (· < ·) →
    List.Forall₂ (fun h t => h ≤ H → S h = .ok t) hs ts →
    ∃ Ts, List.Forall₂ (fun h t => S h = .ok t) (hs.filter fun h => h ≤ H) Ts ∧
      addHorizons H (pre ++ ts) hs pre.length v = .ok (Ts.foldl (exact : Ops ℝ).add v)
  | [], pre, ts, v, _, _ => ⟨[], .nil, by rw [addHorizons]; rfl⟩
  | h :: r, pre, ts, v, hp, hT => by
    obtain ⟨hp1, hp2⟩ := List.pairwise_cons.1 hp
    by_cases hh : h > H
    · have hnil : (h :: r).filter (fun h => decide (h ≤ H)) = [] := by
        rw [List.filter_eq_nil_iff]
        intro x hx
        rcases List.mem_cons.1 hx with rfl | hx
        · simpa using hh
        · have := hp1 x hx
          simp only [decide_eq_true_eq, not_le]; omega
      rw [hnil]
      refine ⟨[], .nil, ?_⟩
      rw [addHorizons_skip]
      · rfl
      intro x hx
      rcases List.mem_cons.1 hx with rfl | hx
      · exact hh
      · have := hp1 x hx; omega
    · have hle : h ≤ H := by omega
      rw [List.filter_cons_of_pos (by simpa using hle)]
      cases hT with
      | @cons _ t _ ts' t1 t2 =>
        obtain ⟨Ts, k1, k2⟩ := addHorizons_sum r (pre ++ [t]) ts' ((exact : Ops ℝ).add v t) hp2 t2
        refine ⟨t :: Ts, .cons (t1 hle) k1, ?_⟩
        rw [addHorizons, if_neg hh, read_mid, Outcome.ok_bind]
        rw [List.append_assoc, List.singleton_append, List.length_append, List.length_singleton] at k2
        push_cast at k2
        rw [k2]; rfl

section
variable {crps : Dbl ℝ → Dbl ℝ → Outcome (Dbl ℝ)} {u : Setup} {data : Cols} {c : ℝ → ℝ → ℝ}

/-- The score of a point. -/
noncomputable def Point.score (crps : Dbl ℝ → Dbl ℝ → Outcome (Dbl ℝ)) (e : Sco) (x : Point) : Outcome (Dbl ℝ) :=
  Vs.score crps e x.last x.actual x.forecast ((exact : Ops ℝ).sub x.actual x.forecast) x.std

theorem score_std {e : Sco} (h : e ≠ .crps) (l a f r s s' : Dbl ℝ) : score crps e l a f r s = score crps e l a f r s' := by
  cases e <;> first | rfl | exact absurd rfl h

theorem filter_min (ha : u.horizons.Pairwise (· < ·)) (se : ℤ) : u.horizons.filter (fun h => h ≤ min se u.hMax) = within u se := by
  unfold within
  refine List.filter_congr fun x hx => ?_
  have : x ≤ u.hMax := by
    unfold Setup.hMax
    obtain ⟨i, hi, rfl⟩ := List.getElem_of_mem hx
    have hne : u.horizons ≠ [] := List.ne_nil_of_mem hx
    rw [List.getLastD_eq_getLast?, List.getLast?_eq_some_getLast hne, Option.getD_some, List.getLast_eq_getElem]
    by_cases he : i = u.horizons.length - 1
    · simp only [he]; exact le_refl _
    · exact le_of_lt (List.pairwise_iff_getElem.1 ha i _ hi (by omega) (by omega))
  rw [decide_eq_decide]
  omega

theorem column_point {p : Fit} {final se H h : ℤ} {k : Column} (hh : h ≤ H) (hk : column u data p (final - se) H h = .ok k) {e : Sco}
    (he : e = .crps → u.doVar = true) (j : ℕ) {last : ℕ → Dbl ℝ} (hl : Mx.read data (final - se) = .ok last) :
    score crps e (backD (lambda u.lambdas j) (last j)) ((k.back u).act j) ((k.back u).forc j) ((k.back u).err j) ((k.back u).std j) =
      Point.score crps e (point u data final j (se, p) h) := by
  unfold column at hk
  rw [if_pos hh] at hk
  obtain ⟨a, h1, hk⟩ := bind_ok hk
  obtain ⟨f, h2, hk⟩ := bind_ok hk
  obtain ⟨v, h3, hk⟩ := bind_ok hk
  obtain rfl := Outcome.ok.inj hk
  unfold Point.score
  have e1 : (point u data final j (se, p) h).last = backD (lambda u.lambdas j) (last j) := by
    show backD _ (at_ data (final - se) j) = _
    rw [read_at hl]
  have e2 : (point u data final j (se, p) h).actual = backD (lambda u.lambdas j) (a j) := by
    show backD _ (at_ data (final - se + h) j) = _
    rw [read_at h1]
  have e3 : (point u data final j (se, p) h).forecast = backD (lambda u.lambdas j) (f j) := by
    show backD _ (at_ p.forecast (p.start - 1 + h) j) = _
    rw [read_at h2]
  rw [e1, e2, e3]
  by_cases hc : e = .crps
  · have hd := he hc
    rw [variances, hd, if_pos rfl] at h3
    have e4 : (point u data final j (se, p) h).std = backD (lambda u.lambdas j) (sqrtD (v j)) := by
      show backD _ (sqrtD (at_ p.variance (p.start - 1 + h) j)) = _
      rw [read_at h3]
    rw [e4]
    have e5 : (Column.back u ⟨a, f, v⟩).std j = backD (lambda u.lambdas j) (sqrtD (v j)) := by
      show (if u.doVar then _ else _) = _
      rw [hd, if_pos rfl]
    rw [e5]; rfl
  · rw [score_std hc _ _ _ _ ((Column.back u ⟨a, f, v⟩).std j) (point u data final j (se, p) h).std]; rfl

/-- The columns of a simulation. -/
def Filled (u : Setup) (data : Cols) (p : Fit) (actIndex H : ℤ) (last : ℕ → Dbl ℝ) (cols : List Column) : Prop :=
  ∃ l ks, Mx.read data actIndex = .ok l ∧ last = (fun i => backD (lambda u.lambdas i) (l i)) ∧
    List.Forall₂ (fun h k => column u data p actIndex H h = .ok k) u.horizons ks ∧ cols = ks.map fun k => k.back u

theorem simulate_parts {p : Fit} {actIndex H : ℤ} {t : Results} {r : Results × (ℕ → Dbl ℝ) × List Column} (h : simulate crps u data p actIndex H t = .ok r) :
    lambdasOk u.lambdas u.eqs = true ∧ Filled u data p actIndex H r.2.1 r.2.2 ∧ addScores crps u H r.2.1 r.2.2 u.metrics t = .ok r.1 := by
  unfold simulate at h
  obtain ⟨l, h1, h⟩ := bind_ok h
  obtain ⟨ks, h2, h⟩ := bind_ok h
  by_cases hl : lambdasOk u.lambdas u.eqs = false
  · rw [if_pos hl] at h; cases h
  rw [if_neg hl] at h
  obtain ⟨t', h3, h⟩ := bind_ok h
  obtain rfl := Outcome.ok.inj h
  exact ⟨by simpa using hl, ⟨l, ks, h1, rfl, mapM_forall₂ h2, rfl⟩, h3⟩

theorem addEquation_fold {p : Fit} {final se : ℤ} {last : ℕ → Dbl ℝ} {cols : List Column} (ha : u.horizons.Pairwise (· < ·))
    (hf : Filled u data p (final - se) (min se u.hMax) last cols) {e : Sco} (he : e = .crps → u.doVar = true) {j : ℕ} {a : Dbl ℝ} {v : Dbl ℝ}
    (h : addEquation crps e u (min se u.hMax) last cols j a = .ok v) :
    ∃ Ts, List.Forall₂ (fun x t => Point.score crps e x = .ok t) ((within u se).map (point u data final j (se, p))) Ts ∧
      v = Ts.foldl (exact : Ops ℝ).add a := by
  obtain ⟨l, ks, f1, rfl, f3, rfl⟩ := hf
  unfold addEquation at h
  obtain ⟨temp, h1, h⟩ := bind_ok h
  have h2 := mapM_forall₂ h1
  rw [List.forall₂_map_left_iff] at h2
  have h3 : List.Forall₂ (fun h t => h ≤ min se u.hMax → Point.score crps e (point u data final j (se, p) h) = .ok t) u.horizons temp := by
    have key : ∀ (hs : List ℤ) (ks : List Column) (temp : List (Dbl ℝ)),
        List.Forall₂ (fun h k => column u data p (final - se) (min se u.hMax) h = .ok k) hs ks →
        List.Forall₂ (fun (k : Column) t => score crps e (backD (lambda u.lambdas j) (l j)) ((k.back u).act j) ((k.back u).forc j) ((k.back u).err j)
          ((k.back u).std j) = .ok t) ks temp →
        List.Forall₂ (fun h t => h ≤ min se u.hMax → Point.score crps e (point u data final j (se, p) h) = .ok t) hs temp := by
      intro hs
      induction hs with
      | nil => intro ks temp g1 g2; cases g1; cases g2; exact .nil
      | cons h hs ih =>
        intro ks temp g1 g2
        cases g1 with
        | cons a1 a2 =>
          cases g2 with
          | cons b1 b2 => exact .cons (fun hh => by rw [← column_point hh a1 he j f1]; exact b1) (ih _ _ a2 b2)
    exact key _ _ _ f3 h2
  obtain ⟨Ts, k1, k2⟩ := addHorizons_sum u.horizons [] temp a ha h3
  rw [List.nil_append, List.length_nil, show ((0 : ℕ) : ℤ) = 0 from rfl, h] at k2
  rw [filter_min ha] at k1
  exact ⟨Ts, List.forall₂_map_left_iff.2 k1, Outcome.ok.inj k2⟩

theorem addRow_spec {e : Sco} {H : ℤ} {last : ℕ → Dbl ℝ} {cols : List Column} : ∀ (v : List (Dbl ℝ)) (k : ℕ) (v' : List (Dbl ℝ)),
    addRow crps e u H last cols k v = .ok v' →
    v'.length = v.length ∧ ∀ j x, v[j]? = some x → ∃ y, addEquation crps e u H last cols (k + j) x = .ok y ∧ v'[j]? = some y
  | [], k, v', h => by
    rw [addRow] at h
    obtain rfl := Outcome.ok.inj h
    exact ⟨rfl, fun j x hx => by simp at hx⟩
  | a :: r, k, v', h => by
    rw [addRow] at h
    obtain ⟨s, h1, h⟩ := bind_ok h
    obtain ⟨r', h2, h⟩ := bind_ok h
    obtain rfl := Outcome.ok.inj h
    obtain ⟨l1, l2⟩ := addRow_spec r (k + 1) r' h2
    refine ⟨by rw [List.length_cons, List.length_cons, l1], fun j x hx => ?_⟩
    cases j with
    | zero =>
      simp only [List.getElem?_cons_zero, Option.some.injEq] at hx
      subst hx
      exact ⟨s, h1, rfl⟩
    | succ j =>
      rw [List.getElem?_cons_succ] at hx
      obtain ⟨s', e1, e2⟩ := l2 j x hx
      exact ⟨s', by rw [← e1]; congr 1; omega, e2⟩

theorem addScores_spec {H : ℤ} {last : ℕ → Dbl ℝ} {cols : List Column} : ∀ (es : List Sco) (t t' : Results), t.length = es.length →
    addScores crps u H last cols es t = .ok t' →
    t'.length = es.length ∧ ∀ i e, es[i]? = some e → ∀ j x, cell t i j = some x → ∃ y, addEquation crps e u H last cols j x = .ok y ∧ cell t' i j = some y
  | [], t, t', hl, h => by
    rw [addScores] at h
    obtain rfl := Outcome.ok.inj h
    · exact ⟨rfl, fun i e he => by simp at he⟩
    · intro e es v r h1; cases h1
  | e :: es, [], t', hl, h => by simp at hl
  | e :: es, v :: r, t', hl, h => by
    rw [addScores] at h
    obtain ⟨v', h1, h⟩ := bind_ok h
    obtain ⟨r', h2, h⟩ := bind_ok h
    obtain rfl := Outcome.ok.inj h
    obtain ⟨l1, l2⟩ := addScores_spec es r r' (by simpa using hl) h2
    obtain ⟨-, m2⟩ := addRow_spec v 0 v' h1
    refine ⟨by rw [List.length_cons, List.length_cons, l1], fun i e' he j x hx => ?_⟩
    cases i with
    | zero =>
      simp only [List.getElem?_cons_zero, Option.some.injEq] at he
      subst he
      obtain ⟨s, e1, e2⟩ := m2 j x hx
      exact ⟨s, by rw [zero_add] at e1; exact e1, e2⟩
    | succ i => exact l2 i e' (by simpa using he) j x hx

/-- The simulations, one after the other. -/
noncomputable def sums (crps : Dbl ℝ → Dbl ℝ → Outcome (Dbl ℝ)) (u : Setup) (data : Cols) (final : ℤ) : List (ℤ × Fit) → Results → Outcome Results
  | [], t => .ok t
  | s :: g, t => do
    let r ← simulate crps u data s.2 (final - s.1) (min s.1 u.hMax) t
    sums crps u data final g r.1

theorem sums_fold {final : ℤ} (ha : u.horizons.Pairwise (· < ·)) : ∀ (g : List (ℤ × Fit)) (t t' : Results), t.length = u.metrics.length →
    sums crps u data final g t = .ok t' → t'.length = u.metrics.length ∧ ∀ i e, u.metrics[i]? = some e → ∀ (j : ℕ) (a : Dbl ℝ),
      cell t i j = some a → ∃ Ts, List.Forall₂ (fun x t => Point.score crps e x = .ok t) (points u data final j g) Ts ∧
      cell t' i j = some (Ts.foldl (exact : Ops ℝ).add a)
  | [], t, t', hl, h => by
    rw [sums] at h
    obtain rfl := Outcome.ok.inj h
    exact ⟨hl, fun i e _ j a hx => ⟨[], .nil, hx⟩⟩
  | s :: g, t, t', hl, h => by
    rw [sums] at h
    obtain ⟨r, h1, h⟩ := bind_ok h
    obtain ⟨-, f1, f2⟩ := simulate_parts h1
    obtain ⟨l1, l2⟩ := addScores_spec _ _ _ hl f2
    obtain ⟨k1, k2⟩ := sums_fold ha g r.1 t' l1 h
    refine ⟨k1, fun i e he j a hx => ?_⟩
    obtain ⟨y, e1, e2⟩ := l2 i e he j _ hx
    have hd : e = .crps → u.doVar = true := fun hc => by
      unfold Setup.doVar
      rw [List.any_eq_true]
      exact ⟨e, List.mem_of_getElem? he, by rw [hc]; rfl⟩
    obtain ⟨C1, c1, rfl⟩ := addEquation_fold ha f1 hd e1
    obtain ⟨C2, c2, e3⟩ := k2 i e he j _ e2
    exact ⟨C1 ++ C2, List.rel_append c1 c2, by rw [e3, List.foldl_append]⟩

theorem foldl_num : ∀ (C : List ℝ) (a : ℝ), (C.map Dbl.num).foldl (exact : Ops ℝ).add (.num a) = .num (a + C.sum)
  | [], a => by simp
  | x :: C, a => by
    rw [List.map_cons, List.foldl_cons, List.sum_cons, ← add_assoc]
    exact foldl_num C (a + x)

theorem add_nan (a : Dbl ℝ) : (exact : Ops ℝ).add a .nan = .nan := by cases a <;> rfl

theorem nan_add (a : Dbl ℝ) : (exact : Ops ℝ).add .nan a = .nan := by cases a <;> rfl

theorem foldl_nan : ∀ (C : List (Dbl ℝ)) (a : Dbl ℝ), (a = .nan ∨ Dbl.nan ∈ C) → C.foldl (exact : Ops ℝ).add a = .nan
  | [], a, h => by
    rcases h with h | h
    · exact h
    · cases h
  | x :: C, a, h => by
    rw [List.foldl_cons]
    refine foldl_nan C _ ?_
    rcases h with h | h
    · exact Or.inl (by rw [h, nan_add])
    · rcases List.mem_cons.1 h with h | h
      · exact Or.inl (by rw [← h, add_nan])
      · exact Or.inr h

end
end Vs
end LDT
