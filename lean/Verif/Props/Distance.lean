import Verif.Spec.Distance
import Verif.Props.MatrixCov
import Verif.Props.MatrixStd
import Verif.Lemmas.Cluster
import Mathlib.Analysis.InnerProductSpace.PiL2
/-!
# C73: distances between columns
-/
namespace LDT
namespace Ds
open Mx Stat
open Arr (Val sqrtV)

/-! ## The double loop -/

theorem symSize_mono {n N : Nat} (h : n ≤ N) : symLength false n ≤ symLength false N := by
  unfold symLength
  simp only [Bool.false_eq_true, if_false]
  have e : ∀ k : Nat, (k : Int) * ((k : Int) - 1) = ((k * (k - 1) : Nat) : Int) := by
    intro k; cases k <;> simp
  rw [e, e]
  apply Int.tdiv_le_tdiv (by norm_num)
  exact_mod_cast Nat.mul_le_mul h (by omega)

/-- What the double loop does: the pairs of columns get their values and nothing else changes. -/
theorem setPairs_spec {α : Type} (pd : Nat → Nat → Outcome α) (v : Nat → Nat → α) {n N : Nat} (hnN : n ≤ N) (d : SymMat α)
    (g : Cl.Good N d) (hpd : ∀ i j, i < j → j < n → pd i j = .ok (v i j)) :
    ∃ res, setPairs pd n d = .ok res ∧ Cl.Good N res ∧
      (∀ i j : Nat, i < j → j < n → res.get false i j = .ok (v i j) ∧ res.get false j i = .ok (v i j)) ∧
      ∀ i j : Nat, i < j → n ≤ j → res.get false i j = d.get false i j := by
  -- the inner loop over any list of columns
  have inner : ∀ (i : Nat), i < n → ∀ (l : List Nat), (∀ j ∈ l, j < n) → ∀ d : SymMat α, Cl.Good N d →
      ∃ res, l.foldlM (setPair pd i) d = .ok res ∧ Cl.Good N res ∧
        (∀ j : Nat, i < j → j ∈ l → res.get false i j = .ok (v i j)) ∧
        ∀ a b : Nat, a < b → ¬ (a = i ∧ b ∈ l) → res.get false a b = d.get false a b := by
    intro i hi l
    induction l with
    | nil => intro _ d g; exact ⟨d, rfl, g, by simp, fun _ _ _ _ => rfl⟩
    | cons j l ih =>
      intro hl d g
      have hj : j < n := hl j (by simp)
      by_cases hij : i < j
      · have hs : (d.data.length : Int) = symLength false d.rows := by rw [g.rows]; exact g.size
        obtain ⟨d1, e1, r1, l1, h1, -, h3⟩ := (C34_set_get false d hs i j (v i j)).1
          (by rw [g.rows]; left; exact ⟨by omega, by omega, by simpa using hij⟩)
        have g1 : Cl.Good N d1 := ⟨by rw [r1, g.rows], by rw [l1, g.size]⟩
        obtain ⟨res, e, gr, hv, hk⟩ := ih (fun x hx => hl x (by simp [hx])) d1 g1
        refine ⟨res, ?_, gr, ?_, ?_⟩
        · rw [List.foldlM_cons]
          unfold setPair
          rw [if_pos hij, hpd i j hij hj, Outcome.ok_bind, Cl.symSet0_set d N g.rows _ (by omega) (by omega), e1, Outcome.ok_bind]
          exact e
        · intro x hix hx
          rcases List.mem_cons.1 hx with rfl | hx
          · by_cases hx' : x ∈ l
            · exact hv x hix hx'
            · rw [hk i x hix (by tauto)]; exact h1
          · exact hv x hix hx
        · intro a b hab hn
          rw [hk a b hab (fun hc => hn ⟨hc.1, by simp [hc.2]⟩), h3 a b]
          · intro hc; simp only [Prod.mk.injEq] at hc
            exact hn ⟨by omega, by simp; omega⟩
          · intro hc; simp only [Prod.mk.injEq] at hc; omega
      · obtain ⟨res, e, gr, hv, hk⟩ := ih (fun x hx => hl x (by simp [hx])) d g
        refine ⟨res, ?_, gr, ?_, ?_⟩
        · rw [List.foldlM_cons]
          unfold setPair
          rw [if_neg hij, Outcome.ok_bind]
          exact e
        · intro x hix hx
          rcases List.mem_cons.1 hx with rfl | hx
          · omega
          · exact hv x hix hx
        · intro a b hab hn
          exact hk a b hab (fun hc => hn ⟨hc.1, by simp [hc.2]⟩)
  have outer : ∀ (l : List Nat), (∀ i ∈ l, i < n) → ∀ d : SymMat α, Cl.Good N d →
      ∃ res, l.foldlM (fun d i => (List.range n).foldlM (setPair pd i) d) d = .ok res ∧ Cl.Good N res ∧
        (∀ i j : Nat, i ∈ l → i < j → j < n → res.get false i j = .ok (v i j)) ∧
        ∀ a b : Nat, a < b → ¬ (a ∈ l ∧ b < n) → res.get false a b = d.get false a b := by
    intro l
    induction l with
    | nil => intro _ d g; exact ⟨d, rfl, g, by simp, fun _ _ _ _ => rfl⟩
    | cons i l ih =>
      intro hl d g
      obtain ⟨d1, e1, g1, v1, k1⟩ := inner i (hl i (by simp)) (List.range n) (fun j hj => List.mem_range.1 hj) d g
      obtain ⟨res, e, gr, hv, hk⟩ := ih (fun x hx => hl x (by simp [hx])) d1 g1
      refine ⟨res, by rw [List.foldlM_cons, e1, Outcome.ok_bind]; exact e, gr, ?_, ?_⟩
      · intro a b ha hab hb
        by_cases ha' : a ∈ l
        · exact hv a b ha' hab hb
        · have : a = i := by simpa [ha'] using ha
          subst this
          rw [hk a b hab (fun hc => ha' hc.1)]
          exact v1 b hab (List.mem_range.2 hb)
      · intro a b hab hn
        rw [hk a b hab (fun hc => hn ⟨by simp [hc.1], hc.2⟩), k1 a b hab (fun hc => hn ⟨by simp [hc.1], List.mem_range.1 hc.2⟩)]
  obtain ⟨res, e, gr, hv, hk⟩ := outer (List.range n) (fun i hi => List.mem_range.1 hi) d g
  refine ⟨res, e, gr, fun i j hij hj => ?_, fun i j hij hj => hk i j hij (by omega)⟩
  have h := hv i j (List.mem_range.2 (by omega)) hij hj
  refine ⟨h, ?_⟩
  rw [← Cl.symGet0_get res N gr.rows (by omega) (by omega)] at h ⊢
  unfold Cl.symGet0 at h ⊢
  rw [Cl.symIndex_comm]; exact h

/-! ## One pair of columns -/

section
variable {xs ys : List (Val ℝ)} {m : Mat (Val ℝ)} {i j : Int}

theorem scan_pair {σ : Type} (h1 : IsColumn m i xs) (h2 : IsColumn m j ys) (step : σ → Int → Val ℝ → Val ℝ → σ) (s : σ) :
    scanPairs m.mem (m.rows * i) (m.rows * j) m.rows step s =
      .ok (foldPos (fun s i p => step s i p.1 p.2) s (xs.zip ys) 0) := by
  have e := scanPairs_eq m.mem (m.rows * i) (m.rows * j) step s (xs.zip ys) (zip_get h1 h2)
  have hl : ((xs.zip ys).length : Int) = m.rows := by
    rw [List.length_zip]; have := h1.len; have := h2.len; omega
  rw [hl] at e; exact e

theorem fm_left (y : Val ℝ) : [((none : Val ℝ), y)].filterMap complete = [] := by cases y <;> rfl
theorem fm_right (x : Val ℝ) : [(x, (none : Val ℝ))].filterMap complete = [] := by cases x <;> rfl
theorem fm_both (x y : ℝ) : [((some x : Val ℝ), (some y : Val ℝ))].filterMap complete = [(x, y)] := rfl

theorem sumFold_true (f : ℝ → ℝ) (ps : List (Val ℝ × Val ℝ)) :
    foldPos (fun s i p => sumStep f true s i p.1 p.2) (some 0) ps 0 =
      some ((ps.filterMap complete).map (fun p => f (p.1 - p.2))).sum := by
  induction ps using List.reverseRecOn with
  | nil => simp [foldPos]
  | append_singleton ps p ih =>
    rw [foldPos_snoc, ih, List.filterMap_append, List.map_append, List.sum_append]
    obtain ⟨x, y⟩ := p
    cases x <;> cases y <;> simp [sumStep, vsub, vadd, complete, fm_left, fm_right]

theorem sumFold_false (f : ℝ → ℝ) (ps : List (Val ℝ × Val ℝ)) :
    foldPos (fun s i p => sumStep f false s i p.1 p.2) (some 0) ps 0 =
      if ∃ p ∈ ps, complete p = none then none else some ((ps.filterMap complete).map (fun p => f (p.1 - p.2))).sum := by
  classical
  induction ps using List.reverseRecOn with
  | nil => simp [foldPos]
  | append_singleton ps p ih =>
    rw [foldPos_snoc, ih, List.filterMap_append, List.map_append, List.sum_append]
    by_cases h : ∃ p ∈ ps, complete p = none
    · obtain ⟨q, hq, e⟩ := h
      rw [if_pos ⟨q, hq, e⟩, if_pos ⟨q, by simp [hq], e⟩]
      simp [sumStep, vadd]
    · rw [if_neg h]
      have h' : (∃ q ∈ ps ++ [p], complete q = none) ↔ complete p = none := by
        constructor
        · rintro ⟨q, hq, e⟩
          rcases List.mem_append.1 hq with hq | hq
          · exact absurd ⟨q, hq, e⟩ h
          · rw [List.mem_singleton] at hq; subst hq; exact e
        · intro e; exact ⟨p, by simp, e⟩
      simp only [h']
      obtain ⟨x, y⟩ := p
      cases x <;> cases y <;> simp [sumStep, vsub, vadd, complete, fm_left, fm_right]

/-- The running maximum of a list of pairs. -/
def MaxOf (l : List (ℝ × ℝ)) (v : Fl ℝ) : Prop := (l = [] ∧ v = .ninf) ∨ ∃ x, v = .num x ∧ IsMaxDist l x

theorem maxFold (c : Bool) (ps : List (Val ℝ × Val ℝ)) :
    MaxOf (ps.filterMap complete) (foldPos (fun s i p => maxStep c s i p.1 p.2) .ninf ps 0) := by
  induction ps using List.reverseRecOn with
  | nil => left; simp [foldPos]
  | append_singleton ps p ih =>
    rw [foldPos_snoc, List.filterMap_append]
    obtain ⟨x, y⟩ := p
    cases x with
    | none =>
      have e : ∀ s i, maxStep c s i none y = s := by intro s i; unfold maxStep; cases c <;> simp [vsub, maxWith]
      rw [e, fm_left, List.append_nil]; exact ih
    | some x =>
      cases y with
      | none =>
        have e : ∀ s i, maxStep c s i (some x) none = s := by intro s i; unfold maxStep; cases c <;> simp [vsub, maxWith]
        rw [e, fm_right, List.append_nil]; exact ih
      | some y =>
        have e : ∀ s i, maxStep c s i (some x) (some y) = maxWith s (some |x - y|) := by
          intro s i; unfold maxStep; simp [vsub]
        rw [e]
        generalize foldPos (fun s i p => maxStep c s i p.1 p.2) .ninf ps 0 = s at ih ⊢
        generalize ps.filterMap complete = l at ih ⊢
        right
        rcases ih with ⟨rfl, rfl⟩ | ⟨b, rfl, ⟨q, hq, eq⟩, hb⟩
        · exact ⟨|x - y|, rfl, ⟨(x, y), by simp [complete], rfl⟩, by simp [complete]⟩
        · unfold maxWith
          by_cases hlt : b < |x - y|
          · refine ⟨|x - y|, by simp [hlt], ⟨(x, y), by simp [complete], rfl⟩, ?_⟩
            intro p hp
            rcases List.mem_append.1 hp with hp | hp
            · exact (hb p hp).trans hlt.le
            · simp [complete] at hp; rw [hp]
          · refine ⟨b, by simp [hlt], ⟨q, by simp [hq], eq⟩, ?_⟩
            intro p hp
            rcases List.mem_append.1 hp with hp | hp
            · exact hb p hp
            · simp [complete] at hp; rw [hp]; exact not_lt.1 hlt

theorem rsqrt_some {x : ℝ} (h : 0 ≤ x) : rsqrt (some x) = some (Real.sqrt x) := by
  unfold rsqrt sqrtV
  rw [Option.bind_some, if_neg (not_lt.2 h)]

theorem sum_sq_nonneg (l : List (ℝ × ℝ)) : 0 ≤ (l.map (fun p => (p.1 - p.2) ^ 2)).sum := by
  apply List.sum_nonneg
  intro x hx
  obtain ⟨p, -, rfl⟩ := List.mem_map.1 hx
  positivity

/-- With the check for NaN the incomplete pairs are left out. -/
theorem pairDist_true (metric : Metric) (h1 : IsColumn m i xs) (h2 : IsColumn m j ys) :
    ∃ v, pairDist rsqrt true metric m i j = .ok v ∧ IsDistance metric (pairs xs ys) v := by
  unfold pairDist
  cases metric
  · simp only
    rw [scan_pair h1 h2, Outcome.ok_bind, sumFold_true, rsqrt_some (sum_sq_nonneg _)]
    exact ⟨_, rfl, rfl⟩
  · simp only
    rw [scan_pair h1 h2, Outcome.ok_bind, sumFold_true]
    exact ⟨_, rfl, rfl⟩
  · simp only
    rw [scan_pair h1 h2]
    exact ⟨_, rfl, maxFold true (xs.zip ys)⟩

theorem complete_none {ps : List (Val ℝ × Val ℝ)} (xs ys : List (Val ℝ)) (hl : xs.length = ys.length) (e : ps = xs.zip ys) :
    (∃ p ∈ ps, complete p = none) ↔ none ∈ xs ∨ none ∈ ys := by
  subst e
  induction xs generalizing ys with
  | nil => cases ys with
    | nil => simp
    | cons y t => simp at hl
  | cons x t ih =>
    cases ys with
    | nil => simp at hl
    | cons y u =>
      have := ih u (by simpa using hl)
      simp only [List.zip_cons_cons, List.mem_cons, exists_eq_or_imp, this]
      cases x <;> cases y <;> simp [complete] <;> tauto

/-- Without the check a missing cell makes the Euclidean and the Manhattan distance missing, but not the maximum one. -/
theorem pairDist_false (metric : Metric) (h1 : IsColumn m i xs) (h2 : IsColumn m j ys) :
    ∃ v, pairDist rsqrt false metric m i j = .ok v ∧
      ((metric = .maximum ∨ (none ∉ xs ∧ none ∉ ys)) → IsDistance metric (pairs xs ys) v) ∧
      (metric ≠ .maximum → (none ∈ xs ∨ none ∈ ys) → v = .nan) := by
  have hl : xs.length = ys.length := by have := h1.len; have := h2.len; omega
  have hc := complete_none xs ys hl rfl
  unfold pairDist
  cases metric
  · simp only
    rw [scan_pair h1 h2, Outcome.ok_bind, sumFold_false]
    by_cases h : none ∈ xs ∨ none ∈ ys
    · rw [if_pos (hc.2 h)]
      refine ⟨_, rfl, ?_, fun _ _ => rfl⟩
      rintro (h' | h')
      · cases h'
      · tauto
    · rw [if_neg (fun h' => h (hc.1 h')), rsqrt_some (sum_sq_nonneg _)]
      exact ⟨_, rfl, fun _ => rfl, fun _ h' => absurd h' h⟩
  · simp only
    rw [scan_pair h1 h2, Outcome.ok_bind, sumFold_false]
    by_cases h : none ∈ xs ∨ none ∈ ys
    · rw [if_pos (hc.2 h)]
      refine ⟨_, rfl, ?_, fun _ _ => rfl⟩
      rintro (h' | h')
      · cases h'
      · tauto
    · rw [if_neg (fun h' => h (hc.1 h'))]
      exact ⟨_, rfl, fun _ => rfl, fun _ h' => absurd h' h⟩
  · simp only
    rw [scan_pair h1 h2]
    exact ⟨_, rfl, fun _ => maxFold false (xs.zip ys), fun h => absurd rfl h⟩

end

/-! ## C73 -/

theorem pairs_swap (xs ys : List (Val ℝ)) : pairs ys xs = (pairs xs ys).map Prod.swap := by
  unfold pairs
  induction xs generalizing ys with
  | nil => simp
  | cons x t ih =>
    cases ys with
    | nil => simp
    | cons y u =>
      simp only [List.zip_cons_cons, List.filterMap_cons]
      cases x <;> cases y <;> simp [complete, ih u]

theorem isDistance_swap {metric : Metric} {l : List (ℝ × ℝ)} {v : Fl ℝ} (h : IsDistance metric l v) :
    IsDistance metric (l.map Prod.swap) v := by
  cases metric
  · simp only [IsDistance, euclid, List.map_map] at *
    rw [h]
    congr 4
    funext p
    simp only [Function.comp, Prod.fst_swap, Prod.snd_swap]; ring
  · simp only [IsDistance, manhattan, List.map_map] at *
    rw [h]
    congr 3
    funext p
    simp only [Function.comp, Prod.fst_swap, Prod.snd_swap]; exact abs_sub_comm _ _
  · rcases h with ⟨rfl, h⟩ | ⟨x, e, ⟨p, hp, ep⟩, hx⟩
    · left; exact ⟨rfl, h⟩
    · right
      refine ⟨x, e, ⟨p.swap, List.mem_map.2 ⟨p, hp, rfl⟩, by rw [← ep]; exact abs_sub_comm _ _⟩, ?_⟩
      intro q hq
      obtain ⟨p, hp, rfl⟩ := List.mem_map.1 hq
      rw [Prod.fst_swap, Prod.snd_swap, abs_sub_comm]; exact hx p hp

theorem storageSize_eq (n : Nat) : storageSize n = symLength false n := by
  unfold storageSize symLength
  simp

theorem storageSize_mono {n N : Int} (h0 : 0 ≤ n) (h : n ≤ N) : ¬ storageSize n > storageSize N := by
  obtain ⟨n, rfl⟩ := Int.eq_ofNat_of_zero_le h0
  obtain ⟨N, rfl⟩ := Int.eq_ofNat_of_zero_le (h0.trans h)
  rw [storageSize_eq, storageSize_eq, not_lt]
  exact symSize_mono (by omega)

/-- The general form: what one pair gives, all pairs give. -/
theorem distances_spec (c : Bool) (metric : Metric) (m : Mat (Val ℝ)) (w : m.Wf) {maxCols : Nat} (hc : m.cols ≤ maxCols)
    (storage : List (Fl ℝ)) (hs : (storage.length : Int) = storageSize maxCols) :
    ∃ res, distances rsqrt c metric maxCols m storage = .ok res ∧ res.rows = maxCols ∧
      (∀ i j : Nat, i < j → (j : Int) < m.cols → ∃ v, pairDist rsqrt c metric m i j = .ok v ∧
        res.get false i j = .ok v ∧ res.get false j i = .ok v) ∧
      ∀ i j : Nat, i < j → m.cols ≤ j → res.get false i j = (⟨maxCols, storage⟩ : SymMat (Fl ℝ)).get false i j := by
  have hn : ∀ i j : Nat, ∃ v : Fl ℝ, i < j → (j : Int) < m.cols → pairDist rsqrt c metric m i j = .ok v := by
    intro i j
    by_cases h : i < j ∧ (j : Int) < m.cols
    · obtain ⟨xs, hx⟩ := exists_isColumn w (j := (i : Int)) (by omega) (by omega)
      obtain ⟨ys, hy⟩ := exists_isColumn w (j := (j : Int)) (by omega) (by omega)
      cases c
      · obtain ⟨v, hv, -⟩ := pairDist_false metric hx hy
        exact ⟨v, fun _ _ => hv⟩
      · obtain ⟨v, hv, -⟩ := pairDist_true metric hx hy
        exact ⟨v, fun _ _ => hv⟩
    · exact ⟨.nan, fun h1 h2 => absurd ⟨h1, h2⟩ h⟩
  choose v hv using hn
  have h0 := w.cols_nonneg
  obtain ⟨res, e, g, h1, h2⟩ := setPairs_spec (fun i j => pairDist rsqrt c metric m i j) v (n := m.cols.toNat) (N := maxCols)
    (by omega) ⟨maxCols, storage⟩ ⟨rfl, by rw [hs, storageSize_eq]⟩ (fun i j hij hj => hv i j hij (by omega))
  refine ⟨res, ?_, g.rows, fun i j hij hj => ?_, fun i j hij hj => h2 i j hij (by omega)⟩
  · unfold distances
    rw [if_neg (storageSize_mono h0 hc)]
    exact e
  · exact ⟨v i j, hv i j hij hj, h1 i j hij (by omega)⟩

/-- C73, with the check for NaN: the stored distance of every pair of columns is the Euclidean, Manhattan or maximum distance
over the rows in which both cells are numbers. -/
theorem C73_checked (metric : Metric) (m : Mat (Val ℝ)) (w : m.Wf) {maxCols : Nat} (hc : m.cols ≤ maxCols)
    (storage : List (Fl ℝ)) (hs : (storage.length : Int) = storageSize maxCols) :
    ∃ res, distances rsqrt true metric maxCols m storage = .ok res ∧
      ∀ i j : Nat, (i : Int) < m.cols → (j : Int) < m.cols → i ≠ j → ∀ xs ys, IsColumn m i xs → IsColumn m j ys →
        ∃ v, res.get false i j = .ok v ∧ IsDistance metric (pairs xs ys) v := by
  obtain ⟨res, e, -, h, -⟩ := distances_spec true metric m w hc storage hs
  refine ⟨res, e, fun i j hi hj hij xs ys hx hy => ?_⟩
  rcases lt_or_gt_of_ne hij with hlt | hlt
  · obtain ⟨v, hv, h1, -⟩ := h i j hlt hj
    obtain ⟨v', hv', hd⟩ := pairDist_true metric hx hy
    rw [hv] at hv'; cases hv'
    exact ⟨v, h1, hd⟩
  · obtain ⟨v, hv, -, h1⟩ := h j i hlt hi
    obtain ⟨v', hv', hd⟩ := pairDist_true metric hy hx
    rw [hv] at hv'; cases hv'
    exact ⟨v, h1, by rw [pairs_swap]; exact isDistance_swap hd⟩

/-- C73, without the check: the same for columns of numbers; a missing cell makes the Euclidean and the Manhattan distance
missing. -/
theorem C73_unchecked (metric : Metric) (m : Mat (Val ℝ)) (w : m.Wf) {maxCols : Nat} (hc : m.cols ≤ maxCols)
    (storage : List (Fl ℝ)) (hs : (storage.length : Int) = storageSize maxCols) :
    ∃ res, distances rsqrt false metric maxCols m storage = .ok res ∧
      ∀ i j : Nat, (i : Int) < m.cols → (j : Int) < m.cols → i ≠ j → ∀ xs ys, IsColumn m i xs → IsColumn m j ys →
        ∃ v, res.get false i j = .ok v ∧ (none ∉ xs → none ∉ ys → IsDistance metric (pairs xs ys) v) ∧
          (metric ≠ .maximum → none ∈ xs ∨ none ∈ ys → v = .nan) := by
  obtain ⟨res, e, -, h, -⟩ := distances_spec false metric m w hc storage hs
  refine ⟨res, e, fun i j hi hj hij xs ys hx hy => ?_⟩
  rcases lt_or_gt_of_ne hij with hlt | hlt
  · obtain ⟨v, hv, h1, -⟩ := h i j hlt hj
    obtain ⟨v', hv', hd, hn⟩ := pairDist_false metric hx hy
    rw [hv] at hv'; cases hv'
    exact ⟨v, h1, fun a b => hd (Or.inr ⟨a, b⟩), hn⟩
  · obtain ⟨v, hv, -, h1⟩ := h j i hlt hi
    obtain ⟨v', hv', hd, hn⟩ := pairDist_false metric hy hx
    rw [hv] at hv'; cases hv'
    exact ⟨v, h1, fun a b => by rw [pairs_swap]; exact isDistance_swap (hd (Or.inr ⟨b, a⟩)), fun a b => hn a b.symm⟩

/-- C73. Data with more columns than announced are refused. -/
theorem C73_refuses (c : Bool) (metric : Metric) (m : Mat (Val ℝ)) {maxCols : Nat} (h1 : 1 ≤ maxCols) (hc : (maxCols : Int) < m.cols)
    (storage : List (Fl ℝ)) : distances rsqrt c metric maxCols m storage = .throws := by
  unfold distances
  rw [if_pos]
  obtain ⟨n, hn⟩ := Int.eq_ofNat_of_zero_le (show 0 ≤ m.cols by omega)
  rw [hn]
  unfold storageSize
  obtain ⟨k, rfl⟩ := Nat.exists_eq_add_of_lt (show maxCols < n by omega)
  obtain ⟨N, rfl⟩ := Nat.exists_eq_add_of_le h1
  rw [Int.tdiv_eq_ediv_of_nonneg (by apply mul_nonneg <;> push_cast <;> omega),
    Int.tdiv_eq_ediv_of_nonneg (by apply mul_nonneg <;> push_cast <;> omega)]
  have e : ((1 + N + k + 1 : Nat) : Int) * (((1 + N + k + 1 : Nat) : Int) - 1) =
      ((1 + N : Nat) : Int) * (((1 + N : Nat) : Int) - 1) + ((k : Int) * (k + 2 * N + 3) + 2 * N + 2) := by push_cast; ring
  rw [e]
  have : (0 : Int) ≤ (k : Int) * (k + 2 * N + 3) := by positivity
  omega

/-- C73, violated: an object made for more columns than the data have ("maximum expected number of columns") reports a result
for all of them, whose surplus cells it has never written. -/
theorem C73_violated_fewer_columns (c : Bool) (metric : Metric) (m : Mat (Val ℝ)) (w : m.Wf) {maxCols : Nat}
    (hc : m.cols < maxCols) (storage : List (Fl ℝ)) (hs : (storage.length : Int) = storageSize maxCols) :
    ∃ res, distances rsqrt c metric maxCols m storage = .ok res ∧ res.rows ≠ m.cols ∧
      ∀ i j : Nat, i < j → m.cols ≤ j → res.get false i j = (⟨maxCols, storage⟩ : SymMat (Fl ℝ)).get false i j := by
  obtain ⟨res, e, hr, -, h⟩ := distances_spec c metric m w (le_of_lt hc) storage hs
  exact ⟨res, e, by rw [hr]; omega, h⟩

/-! ### They are metrics -/

theorem zip_sum {n : Nat} (a b : List ℝ) (ha : a.length = n) (hb : b.length = n) (f : ℝ × ℝ → ℝ) :
    ((a.zip b).map f).sum = ∑ i : Fin n, f (a[i], b[i]) := by
  subst ha
  rw [← List.sum_ofFn]
  congr 1
  apply List.ext_getElem
  · simp [hb]
  · intro k h1 h2
    simp

theorem eq_of_cells {n : Nat} {a b : List ℝ} (ha : a.length = n) (hb : b.length = n) (h : ∀ i : Fin n, a[i] = b[i]) : a = b := by
  apply List.ext_getElem (by omega)
  intro k h1 h2
  exact h ⟨k, by omega⟩

theorem euclid_eq_dist {n : Nat} (a b : List ℝ) (ha : a.length = n) (hb : b.length = n) :
    euclid (a.zip b) = dist (WithLp.toLp 2 (fun i : Fin n => a[i]) : EuclideanSpace ℝ (Fin n))
      (WithLp.toLp 2 (fun i : Fin n => b[i])) := by
  unfold euclid
  rw [EuclideanSpace.dist_eq, zip_sum a b ha hb]
  congr 1
  apply Finset.sum_congr rfl
  intro i _
  rw [Real.dist_eq, sq_abs]

/-- C73. Over columns of numbers each of the three is a metric: not negative, zero exactly for equal columns, and it obeys the
triangle inequality. -/
theorem C73_metric (metric : Metric) {n : Nat} {a b c : List ℝ} (ha : a.length = n) (hb : b.length = n) (hc : c.length = n)
    {x y z : ℝ} (hx : IsDistance metric (a.zip b) (.num x)) (hy : IsDistance metric (b.zip c) (.num y))
    (hz : IsDistance metric (a.zip c) (.num z)) : 0 ≤ x ∧ (x = 0 ↔ a = b) ∧ z ≤ x + y := by
  cases metric
  · simp only [IsDistance, Fl.num.injEq] at hx hy hz
    subst hx hy hz
    rw [euclid_eq_dist a b ha hb, euclid_eq_dist b c hb hc, euclid_eq_dist a c ha hc]
    refine ⟨dist_nonneg, ?_, dist_triangle _ _ _⟩
    rw [dist_eq_zero]
    constructor
    · intro h
      apply eq_of_cells ha hb
      intro i
      have := congrArg (fun v : EuclideanSpace ℝ (Fin n) => v i) h
      simpa using this
    · rintro rfl; rfl
  · simp only [IsDistance, Fl.num.injEq] at hx hy hz
    subst hx hy hz
    unfold manhattan
    rw [zip_sum a b ha hb, zip_sum b c hb hc, zip_sum a c ha hc]
    refine ⟨Finset.sum_nonneg (fun i _ => abs_nonneg _), ?_, ?_⟩
    · rw [Finset.sum_eq_zero_iff_of_nonneg (fun i _ => abs_nonneg _)]
      constructor
      · intro h
        apply eq_of_cells ha hb
        intro i
        have := h i (Finset.mem_univ _)
        simp only [abs_eq_zero] at this; linarith
      · rintro rfl; simp
    · rw [← Finset.sum_add_distrib]
      exact Finset.sum_le_sum (fun i _ => abs_sub_le _ _ _)
  · have get : ∀ {u v : List ℝ} {t : ℝ} (hu : u.length = n) (hv : v.length = n), IsDistance .maximum (u.zip v) (.num t) →
        (∃ i : Fin n, |u[i] - v[i]| = t) ∧ ∀ i : Fin n, |u[i] - v[i]| ≤ t := by
      intro u v t hu hv h
      rcases h with ⟨-, h⟩ | ⟨t', e, ⟨p, hp, ep⟩, hm⟩
      · cases h
      · cases e
        constructor
        · obtain ⟨k, hk, e⟩ := List.getElem_of_mem hp
          have hk' : k < n := by simp at hk; omega
          refine ⟨⟨k, hk'⟩, ?_⟩
          rw [← ep, ← e]; simp
        · intro i
          apply hm (u[i], v[i])
          rw [List.mem_iff_getElem]
          exact ⟨i, by simp [hu, hv], by simp⟩
    obtain ⟨⟨i, hi⟩, hx⟩ := get ha hb hx
    obtain ⟨-, hy⟩ := get hb hc hy
    obtain ⟨⟨k, hk⟩, -⟩ := get ha hc hz
    refine ⟨by rw [← hi]; exact abs_nonneg _, ?_, ?_⟩
    · constructor
      · intro h
        apply eq_of_cells ha hb
        intro i
        have := hx i
        rw [h] at this
        have := abs_eq_zero.1 (le_antisymm this (abs_nonneg _)); linarith
      · rintro rfl; rw [← hi]; simp
    · rw [← hk]
      have := hx k
      have := hy k
      have := abs_sub_le a[k] b[k] c[k]
      linarith

/-! ### Concrete cases -/

/-- Three columns, two of them with a missing cell. -/
def threeCols : Mat (Val Rat) := ⟨3, 3, some [some 1, some 2, some 4, some 2, none, some 1, some 0, some 5, none]⟩

example : (distances id true .manhattan 3 threeCols [.nan, .nan, .nan]).bind
    (fun r => .ok r.data) = .ok [.num 4, .num 4, .num 2] := by decide +kernel
example : (distances id true .maximum 3 threeCols [.nan, .nan, .nan]).bind
    (fun r => .ok r.data) = .ok [.num 3, .num 3, .num 2] := by decide +kernel
example : (distances id false .manhattan 3 threeCols [.ninf, .ninf, .ninf]).bind
    (fun r => .ok r.data) = .ok [.nan, .nan, .nan] := by decide +kernel
/-- The maximum ignores missing cells even if it is told not to. -/
example : (distances id false .maximum 3 threeCols [.nan, .nan, .nan]).bind
    (fun r => .ok r.data) = .ok [.num 3, .num 3, .num 2] := by decide +kernel
/-- Columns without a common row are at distance 0, or minus infinity. -/
example : pairDist id true .manhattan (⟨2, 2, some [some (1 : Rat), none, none, some 5]⟩) 0 1 = .ok (.num 0) ∧
    pairDist id true .maximum (⟨2, 2, some [some (1 : Rat), none, none, some 5]⟩) 0 1 = .ok .ninf := by decide +kernel
/-- The hypotheses of the theorems above are met. -/
example : Mat.Wf threeCols ∧ threeCols.cols ≤ ((3 : Nat) : Int) ∧ (([.nan, .nan, .nan] : List (Fl Rat)).length : Int) = storageSize ((3 : Nat) : Int) :=
  ⟨wf_mk 3 3 _ rfl, le_refl _, by decide⟩

end Ds
end LDT
