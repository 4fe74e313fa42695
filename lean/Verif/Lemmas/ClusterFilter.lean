import Verif.Lemmas.ClusterGroup
/-!
# The filter of `GroupData::Calculate`
-/
namespace LDT
namespace Cl
open Mx

section
variable {K : Type} [Field K] [LinearOrder K] [IsStrictOrderedRing K]

theorem pair_loop {n : Nat} {dist : SymMat K} (good : Good n dist) (thr : K) {g : List Nat} (hg : ∀ a ∈ g, a < n) (hnd : g.Nodup)
    {i : Nat} (hi : i < g.length) : ∀ (l rem : List Nat), (∀ j ∈ l, i < j ∧ j < g.length) → rem.Pairwise (· < ·) →
      ∃ rem', l.foldlM (pairStep dist thr g i) rem = .ok rem' ∧ rem'.Pairwise (· < ·) ∧
        ∀ c, c ∈ rem' ↔ c ∈ rem ∨ (c ∈ l ∧ Near dist thr g i c) := by
  intro l
  induction l with
  | nil => intro rem _ hs; exact ⟨rem, rfl, hs, by simp⟩
  | cons j l ih =>
    intro rem hl hs
    obtain ⟨hij, hj⟩ := hl j (by simp)
    have ei : g[i]? = some g[i] := List.getElem?_eq_getElem hi
    have ej : g[j]? = some g[j] := List.getElem?_eq_getElem hj
    have hne : g[i] ≠ g[j] := by
      intro e
      have := (hnd.getElem_inj_iff (hi := hi) (hj := hj)).1 e
      omega
    have hd := symGet0_ok good (hg _ (List.getElem_mem hi)) (hg _ (List.getElem_mem hj)) hne
    have hstep : pairStep dist thr g i rem j = .ok (if sval dist g[i] g[j] < thr then setInsert j rem else rem) := by
      unfold pairStep
      rw [atV_ok ei, Outcome.ok_bind, atV_ok ej, Outcome.ok_bind, hd]
      rfl
    have hnear : Near dist thr g i j ↔ sval dist g[i] g[j] < thr := by
      constructor
      · rintro ⟨a, b, ha, hb, h⟩
        rw [ei] at ha; rw [ej] at hb; cases ha; cases hb; exact h
      · intro h; exact ⟨_, _, ei, ej, h⟩
    obtain ⟨rem', e, h1, h2⟩ := ih (if sval dist g[i] g[j] < thr then setInsert j rem else rem)
      (fun c hc => hl c (List.mem_cons_of_mem _ hc)) (by split; exacts [setInsert_sorted j hs, hs])
    refine ⟨rem', by rw [List.foldlM_cons, hstep, Outcome.ok_bind, e], h1, fun c => ?_⟩
    rw [h2, List.mem_cons]
    by_cases hlt : sval dist g[i] g[j] < thr
    · rw [if_pos hlt, mem_setInsert]
      constructor
      · rintro ((h | h) | h)
        · exact Or.inr ⟨Or.inl h, by rw [h]; exact hnear.2 hlt⟩
        · exact Or.inl h
        · exact Or.inr ⟨Or.inr h.1, h.2⟩
      · rintro (h | ⟨h | h, h'⟩)
        · exact Or.inl (Or.inr h)
        · exact Or.inl (Or.inl h)
        · exact Or.inr ⟨h, h'⟩
    · rw [if_neg hlt]
      constructor
      · rintro (h | h)
        · exact Or.inl h
        · exact Or.inr ⟨Or.inr h.1, h.2⟩
      · rintro (h | ⟨h | h, h'⟩)
        · exact Or.inl h
        · rw [h] at h'; exact absurd (hnear.1 h') hlt
        · exact Or.inr ⟨h, h'⟩

theorem toRemove_spec {n : Nat} {dist : SymMat K} (good : Good n dist) (thr : K) {g : List Nat} (hg : ∀ a ∈ g, a < n) (hnd : g.Nodup) :
    ∃ rem, toRemove dist thr g = .ok rem ∧ rem.Pairwise (· < ·) ∧
      ∀ j, j ∈ rem ↔ j < g.length ∧ ∃ i, i < j ∧ Near dist thr g i j := by
  have key : ∀ (l rem : List Nat), (∀ i ∈ l, i < g.length) → rem.Pairwise (· < ·) →
      ∃ rem', l.foldlM (fun rem i => (List.range' (i + 1) (g.length - (i + 1))).foldlM (pairStep dist thr g i) rem) rem = .ok rem' ∧
        rem'.Pairwise (· < ·) ∧ ∀ j, j ∈ rem' ↔ j ∈ rem ∨ (j < g.length ∧ ∃ i ∈ l, i < j ∧ Near dist thr g i j) := by
    intro l
    induction l with
    | nil => intro rem _ hs; exact ⟨rem, rfl, hs, by simp⟩
    | cons i l ih =>
      intro rem hl hs
      have hi := hl i (by simp)
      have hmem : ∀ j, j ∈ List.range' (i + 1) (g.length - (i + 1)) ↔ i < j ∧ j < g.length := by
        intro j; rw [List.mem_range'_1]; omega
      obtain ⟨r1, e1, s1, m1⟩ := pair_loop good thr hg hnd hi (List.range' (i + 1) (g.length - (i + 1))) rem
        (fun j hj => (hmem j).1 hj) hs
      obtain ⟨r2, e2, s2, m2⟩ := ih r1 (fun c hc => hl c (List.mem_cons_of_mem _ hc)) s1
      refine ⟨r2, by rw [List.foldlM_cons, e1, Outcome.ok_bind, e2], s2, fun j => ?_⟩
      rw [m2, m1, hmem]
      constructor
      · rintro ((h | ⟨⟨h, h'⟩, h''⟩) | ⟨h, i', hi', h'⟩)
        · exact Or.inl h
        · exact Or.inr ⟨h', i, by simp, h, h''⟩
        · exact Or.inr ⟨h, i', List.mem_cons_of_mem _ hi', h'⟩
      · rintro (h | ⟨h, i', hi', h', h''⟩)
        · exact Or.inl (Or.inl h)
        · rcases List.mem_cons.1 hi' with e | hi'
          · subst e; exact Or.inl (Or.inr ⟨⟨h', h⟩, h''⟩)
          · exact Or.inr ⟨h, i', hi', h', h''⟩
  obtain ⟨rem, e, s, m⟩ := key (List.range g.length) [] (by simp) (by simp)
  refine ⟨rem, e, s, fun j => ?_⟩
  rw [m]
  constructor
  · rintro (h | ⟨h, i, -, h'⟩)
    · cases h
    · exact ⟨h, i, h'⟩
  · rintro ⟨h, i, h'⟩
    exact Or.inr ⟨h, i, by simp; omega, h'⟩

theorem eraseAll_spec (rem : List Nat) : ∀ g : List Nat, rem.Pairwise (· < ·) →
    eraseAll g rem = (g.zipIdx.filter (fun p => decide (p.2 ∉ rem))).map (fun p => p.1) := by
  induction rem using List.reverseRecOn with
  | nil =>
    intro g _
    simp only [eraseAll, List.reverse_nil, List.foldl_nil, List.not_mem_nil, not_false_eq_true, decide_true, List.filter_true]
    exact (List.zipIdx_map_fst 0 g).symm
  | append_singleton rem j ih =>
    intro g h
    rw [List.pairwise_append] at h
    obtain ⟨h1, -, h2⟩ := h
    have hlt : ∀ c ∈ rem, c < j := fun c hc => h2 c hc j (by simp)
    have e : eraseAll g (rem ++ [j]) = eraseAll (g.eraseIdx j) rem := by
      unfold eraseAll; rw [List.reverse_append]; rfl
    rw [e, ih _ h1]
    by_cases hj : j < g.length
    · have hg : g = g.take j ++ g[j] :: g.drop (j + 1) := by
        rw [List.getElem_cons_drop, List.take_append_drop]
      have hlen : (g.take j).length = j := by simp; omega
      have hall : ∀ (s : List Nat) (k : Nat) (r : List Nat), (∀ c ∈ r, c < k) →
          ((s.zipIdx k).filter (fun p => decide (p.2 ∉ r))).map (fun p => p.1) = s := by
        intro s k r hr
        rw [List.filter_eq_self.2]
        · exact List.zipIdx_map_fst k s
        · intro p hp
          have := List.le_snd_of_mem_zipIdx hp
          rw [decide_eq_true_eq]
          intro hc
          have := hr _ hc
          omega
      have hfront : ((g.take j).zipIdx.filter (fun p => decide (p.2 ∉ rem))) =
          ((g.take j).zipIdx.filter (fun p => decide (p.2 ∉ rem ++ [j]))) := by
        apply List.filter_congr
        intro p hp
        have := List.snd_lt_of_mem_zipIdx hp
        rw [hlen] at this
        congr 1
        rw [List.mem_append, List.mem_singleton]
        apply propext
        constructor
        · rintro h1 (h2 | h2)
          · exact h1 h2
          · omega
        · intro h1 h2; exact h1 (Or.inl h2)
      have e1 : g.eraseIdx j = g.take j ++ g.drop (j + 1) := List.eraseIdx_eq_take_drop_succ g j
      rw [e1]
      conv_rhs => rw [hg]
      rw [List.zipIdx_append, List.zipIdx_append, List.filter_append, List.filter_append, List.map_append, List.map_append,
        List.zipIdx_cons, hfront]
      congr 1
      rw [hlen, hall _ _ _ (by intro c hc; have := hlt c hc; omega), List.filter_cons_of_neg, hall]
      · intro c hc
        rcases List.mem_append.1 hc with h | h
        · have := hlt c h; omega
        · simp at h; omega
      · simp
    · rw [List.eraseIdx_of_length_le (by omega)]
      congr 1
      apply List.filter_congr
      intro p hp
      have := List.snd_lt_of_mem_zipIdx hp
      congr 1
      rw [List.mem_append, List.mem_singleton]
      apply propext
      constructor
      · rintro h1 (h2 | h2)
        · exact h1 h2
        · omega
      · intro h1 h2; exact h1 (Or.inl h2)

theorem erase_kept {n : Nat} {dist : SymMat K} (good : Good n dist) (thr : K) {g : List Nat} (hg : ∀ a ∈ g, a < n) (hnd : g.Nodup) :
    ∃ rem, toRemove dist thr g = .ok rem ∧ eraseAll g rem = kept dist thr g := by
  obtain ⟨rem, e, hs, hm⟩ := toRemove_spec good thr hg hnd
  refine ⟨rem, e, ?_⟩
  rw [eraseAll_spec rem g hs]
  unfold kept
  congr 1
  apply List.filter_congr
  intro p hp
  have := List.snd_lt_of_mem_zipIdx hp
  congr 1
  apply propext
  rw [hm]
  constructor
  · intro h1 h2; exact h1 ⟨by omega, h2⟩
  · intro h1 h2; exact h1 h2.2

theorem filterGroups_spec {n : Nat} {dist : SymMat K} (good : Good n dist) (thr : K) (gs : List (List Nat))
    (hg : ∀ g ∈ gs, (∀ a ∈ g, a < n) ∧ g.Nodup) :
    ∃ removed, filterGroups dist thr gs = .ok (gs.map (kept dist thr), removed) := by
  have key : ∀ (gs : List (List Nat)) (s : List (List Nat) × List Nat), (∀ g ∈ gs, (∀ a ∈ g, a < n) ∧ g.Nodup) →
      ∃ removed, gs.foldlM (fun (s : List (List Nat) × List Nat) g => do
        let rem ← toRemove dist thr g
        pure (s.1 ++ [eraseAll g rem], rem.foldl (fun r j => setInsert j r) s.2)) s = .ok (s.1 ++ gs.map (kept dist thr), removed) := by
    intro gs
    induction gs with
    | nil => intro s _; exact ⟨s.2, by simp⟩
    | cons g gs ih =>
      intro s h
      obtain ⟨h1, h2⟩ := h g (by simp)
      obtain ⟨rem, e, ek⟩ := erase_kept good thr h1 h2
      obtain ⟨removed, e2⟩ := ih (s.1 ++ [eraseAll g rem], rem.foldl (fun r j => setInsert j r) s.2)
        (fun x hx => h x (List.mem_cons_of_mem _ hx))
      refine ⟨removed, ?_⟩
      rw [List.foldlM_cons, e, Outcome.ok_bind]
      show (Outcome.ok (s.1 ++ [eraseAll g rem], rem.foldl (fun r j => setInsert j r) s.2) >>= _) = _
      rw [Outcome.ok_bind, e2, ek]
      simp
  obtain ⟨removed, e⟩ := key gs ([], []) hg
  exact ⟨removed, by unfold filterGroups; simpa using e⟩

end
end Cl
end LDT
