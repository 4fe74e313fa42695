import Verif.Spec.Cluster
import Verif.Model.Cluster
import Verif.Props.Matrix
/-!
# Lemmas for clustering: packed distances, nearest neighbours, merging
-/
namespace LDT
namespace Cl
open Mx

theorem atV_ok {α : Type} {l : List α} {k : Nat} {a : α} (h : l[k]? = some a) : atV l k = .ok a := by
  unfold atV; rw [h]

theorem atV_inv {α : Type} {l : List α} {k : Nat} {a : α} (h : atV l k = .ok a) : l[k]? = some a := by
  unfold atV at h
  cases hk : l[k]? with
  | none => rw [hk] at h; simp at h
  | some b => rw [hk] at h; simpa using h

/-! ## Packed distances -/

/-- The memory has the size the row count asks for. -/
structure Good {K : Type} (n : Nat) (m : SymMat K) : Prop where
  rows : m.rows = n
  size : (m.data.length : Int) = symLength false n

theorem symGet0_get {α : Type} (m : SymMat α) (n : Nat) (hr : m.rows = n) {i j : Nat} (hi : i < n) (hj : j < n) :
    symGet0 m i j = m.get false i j := by
  unfold symGet0 SymMat.get
  rw [if_neg (by omega)]
  cases symIndex false m.rows i j <;> rfl

theorem symSet0_set {α : Type} (m : SymMat α) (n : Nat) (hr : m.rows = n) {i j : Nat} (v : α) (hi : i < n) (hj : j < n) :
    symSet0 m i j v = m.set false i j v := by
  unfold symSet0 SymMat.set
  rw [if_neg (by omega)]
  cases symIndex false m.rows i j <;> rfl

section
variable {K : Type} [Zero K]

theorem symIndex_comm (n i j : Int) : symIndex false n i j = symIndex false n j i := by
  unfold symIndex
  simp only [Bool.false_eq_true, if_false]
  rcases lt_trichotomy i j with h | h | h
  · rw [if_neg (by omega), if_neg (by omega), if_neg (by omega), if_pos h]
  · subst h; rfl
  · rw [if_neg (by omega), if_pos h, if_neg (by omega), if_neg (by omega)]

theorem sval_comm (m : SymMat K) (i j : Nat) : sval m i j = sval m j i := by
  unfold sval symGet0
  rw [symIndex_comm]

theorem orderedPair {n i j : Nat} (hi : i < n) (hj : j < n) (h : i ≠ j) :
    OrderedPair false n i j ∨ OrderedPair false n j i := by
  rcases lt_or_gt_of_ne h with h | h
  · left; exact ⟨by omega, by omega, by simpa using h⟩
  · right; exact ⟨by omega, by omega, by simpa using h⟩

theorem symGet0_ok {n : Nat} {m : SymMat K} (g : Good n m) {i j : Nat} (hi : i < n) (hj : j < n) (h : i ≠ j) :
    symGet0 m i j = .ok (sval m i j) := by
  have : ∃ v, symGet0 m i j = .ok v := by
    have hk : ∃ k, symIndex false m.rows i j = some k ∧ 0 ≤ k ∧ k < symLength false m.rows := by
      rw [g.rows]
      rcases orderedPair hi hj h with h | h
      · obtain ⟨k, a, _, c⟩ := C34_in_range false _ _ _ h; exact ⟨k, a, c⟩
      · obtain ⟨k, _, b, c⟩ := C34_in_range false _ _ _ h; exact ⟨k, b, c⟩
    obtain ⟨k, e, b0, b1⟩ := hk
    unfold symGet0
    rw [e]
    rw [g.rows, ← g.size] at b1
    exact read_ok_of b0 b1
  obtain ⟨v, hv⟩ := this
  unfold sval
  rw [hv]

theorem symSet0_ok {n : Nat} {m : SymMat K} (g : Good n m) {i j : Nat} (v : K) (hi : i < n) (hj : j < n) (h : i ≠ j) :
    ∃ m', symSet0 m i j v = .ok m' ∧ Good n m' ∧ sval m' i j = v ∧
      ∀ a b, a < n → b < n → ¬ (a = i ∧ b = j) → ¬ (a = j ∧ b = i) → sval m' a b = sval m a b := by
  have hs : (m.data.length : Int) = symLength false m.rows := by rw [g.rows]; exact g.size
  obtain ⟨m', e, hr, hl, h1, -, h3⟩ := (C34_set_get false m hs i j v).1 (by rw [g.rows]; exact orderedPair hi hj h)
  have g' : Good n m' := ⟨by rw [hr, g.rows], by rw [hl, g.size]⟩
  refine ⟨m', by rw [symSet0_set m n g.rows v hi hj, e], g', ?_, ?_⟩
  · unfold sval; rw [symGet0_get m' n g'.rows hi hj, h1]
  · intro a b ha hb n1 n2
    unfold sval
    rw [symGet0_get m' n g'.rows ha hb, symGet0_get m n g.rows ha hb, h3 a b]
    · intro hc
      simp only [Prod.mk.injEq] at hc
      exact n1 ⟨by omega, by omega⟩
    · intro hc
      simp only [Prod.mk.injEq] at hc
      exact n2 ⟨by omega, by omega⟩

end

section
variable {K : Type} [Field K] [LinearOrder K]

/-- Node `k` exists and is not merged. -/
def Act (nodes : List (Node K)) (k : Nat) : Prop := ∃ a, nodes[k]? = some a ∧ a.isMerged = false

/-- The distance index of node `k`. -/
def di (nodes : List (Node K)) (k : Nat) : Nat := ((nodes[k]?).map Node.distanceIndex).getD 0

/-- The number of points in node `k`. -/
def sz (nodes : List (Node K)) (k : Nat) : Nat := ((nodes[k]?).map Node.nodesWithin).getD 0

/-- The stored distance of two nodes. -/
def D (nodes : List (Node K)) (dist : SymMat K) (x y : Nat) : K := sval dist (di nodes x) (di nodes y)

theorem D_comm (nodes : List (Node K)) (dist : SymMat K) (x y : Nat) : D nodes dist x y = D nodes dist y x :=
  sval_comm _ _ _

/-- The distances of the active nodes are stored at different places. -/
structure Wf (n : Nat) (nodes : List (Node K)) (dist : SymMat K) : Prop where
  good : Good n dist
  ids : ∀ (k : Nat) a, nodes[k]? = some a → a.id = k
  lt : ∀ k, Act nodes k → di nodes k < n
  inj : ∀ x y, Act nodes x → Act nodes y → di nodes x = di nodes y → x = y

theorem Act.lt_len {nodes : List (Node K)} {k : Nat} (h : Act nodes k) : k < nodes.length := by
  obtain ⟨a, h, -⟩ := h
  rw [List.getElem?_eq_some_iff] at h; exact h.1

/-- `p` is the nearest active neighbour of `x`, the first one among equals. -/
structure IsNN (nodes : List (Node K)) (dist : SymMat K) (x p : Nat) : Prop where
  act : Act nodes p
  ne : p ≠ x
  best : ∀ w, Act nodes w → w ≠ x → D nodes dist x p < D nodes dist x w ∨ (D nodes dist x p = D nodes dist x w ∧ p ≤ w)

theorem IsNN.le {nodes : List (Node K)} {dist : SymMat K} {x p : Nat} (h : IsNN nodes dist x p) {w : Nat}
    (hw : Act nodes w) (hx : w ≠ x) : D nodes dist x p ≤ D nodes dist x w := by
  rcases h.best w hw hx with h | h
  · exact h.le
  · exact h.1.le

theorem IsNN.unique {nodes : List (Node K)} {dist : SymMat K} {x p q : Nat} (h : IsNN nodes dist x p)
    (h' : IsNN nodes dist x q) : p = q := by
  rcases h.best q h'.act h'.ne with a | a <;> rcases h'.best p h.act h.ne with b | b
  · exact absurd (lt_trans a b) (lt_irrefl _)
  · rw [b.1] at a; exact absurd a (lt_irrefl _)
  · rw [a.1] at b; exact absurd b (lt_irrefl _)
  · exact le_antisymm a.2 b.2

/-- Best of the nodes below `m`. -/
def BestTo (nodes : List (Node K)) (dist : SymMat K) (x m : Nat) (s : Option (Nat × K)) : Prop :=
  match s with
  | none => ∀ w, w < m → Act nodes w → w = x
  | some (p, d) => p < m ∧ Act nodes p ∧ p ≠ x ∧ d = D nodes dist x p ∧
      ∀ w, w < m → Act nodes w → w ≠ x →
        D nodes dist x p < D nodes dist x w ∨ (D nodes dist x p = D nodes dist x w ∧ p ≤ w)

theorem zipIdx_snoc {α : Type} (l : List α) (a : α) : (l ++ [a]).zipIdx = l.zipIdx ++ [(a, l.length)] := by
  simp [List.zipIdx_append]

theorem nearest_loop {n : Nat} {nodes : List (Node K)} {dist : SymMat K} (w : Wf n nodes dist) {x : Nat}
    (hx : Act nodes x) (pre : List (Node K)) :
    ∀ suf, nodes = pre ++ suf → ∃ s, pre.zipIdx.foldlM (nearStep dist x (di nodes x)) none = .ok s ∧
      BestTo nodes dist x pre.length s := by
  induction pre using List.reverseRecOn with
  | nil => intro suf _; exact ⟨none, rfl, fun w hw => absurd hw (by simp)⟩
  | append_singleton pre a ih =>
    intro suf hs
    obtain ⟨s, e, hb⟩ := ih (a :: suf) (by rw [hs]; simp)
    rw [zipIdx_snoc, List.foldlM_append, e, Outcome.ok_bind]
    have ha : nodes[pre.length]? = some a := by rw [hs]; simp
    have hlen : (pre ++ [a]).length = pre.length + 1 := by simp
    by_cases hc : pre.length = x ∨ a.isMerged = true
    · refine ⟨s, by simp [nearStep, hc], ?_⟩
      rw [hlen]
      have hskip : ∀ w, w < pre.length + 1 → Act nodes w → w ≠ x → w < pre.length := by
        intro v hv hav hvx
        rcases Nat.lt_succ_iff_lt_or_eq.1 hv with h | h
        · exact h
        · exfalso
          subst h
          obtain ⟨b, hb1, hb2⟩ := hav
          rw [ha] at hb1; cases hb1
          rcases hc with hc | hc
          · exact hvx hc
          · rw [hb2] at hc; cases hc
      cases s with
      | none =>
        intro v hv hav
        by_contra hvx
        exact hvx (hb v (hskip v hv hav hvx) hav)
      | some r =>
        obtain ⟨h1, h2, h3, h4, h5⟩ := hb
        exact ⟨by omega, h2, h3, h4, fun v hv hav hvx => h5 v (hskip v hv hav hvx) hav hvx⟩
    · push_neg at hc
      have hact : Act nodes pre.length := ⟨a, ha, by simpa using hc.2⟩
      have hdi : di nodes pre.length = a.distanceIndex := by simp [di, ha]
      have hne : di nodes x ≠ di nodes pre.length := fun h => hc.1 (w.inj _ _ hx hact h).symm
      have hg := symGet0_ok w.good (w.lt _ hx) (w.lt _ hact) hne
      refine ⟨nearer s pre.length (D nodes dist x pre.length), ?_, ?_⟩
      · have e1 : nearStep dist x (di nodes x) s (a, pre.length) =
            .ok (nearer s pre.length (D nodes dist x pre.length)) := by
          unfold nearStep
          rw [if_neg (by simpa using hc)]
          show (symGet0 dist (di nodes x) a.distanceIndex >>= _) = _
          rw [← hdi, hg]
          rfl
        rw [List.foldlM_cons, e1]
        rfl
      · rw [hlen]
        cases s with
        | none =>
          refine ⟨by omega, hact, hc.1, rfl, fun v hv hav hvx => ?_⟩
          rcases Nat.lt_succ_iff_lt_or_eq.1 hv with h | h
          · exact absurd (hb v h hav) hvx
          · right; rw [h]; exact ⟨rfl, le_refl _⟩
        | some r =>
          obtain ⟨h1, h2, h3, h4, h5⟩ := hb
          show BestTo nodes dist x (pre.length + 1)
            (if D nodes dist x pre.length < r.2 then some (pre.length, D nodes dist x pre.length) else some r)
          by_cases hlt : D nodes dist x pre.length < r.2
          · rw [if_pos hlt]
            rw [h4] at hlt
            refine ⟨by omega, hact, hc.1, rfl, fun v hv hav hvx => ?_⟩
            rcases Nat.lt_succ_iff_lt_or_eq.1 hv with h | h
            · left
              rcases h5 v h hav hvx with h6 | h6
              · exact lt_trans hlt h6
              · rw [← h6.1]; exact hlt
            · right; rw [h]; exact ⟨rfl, le_refl _⟩
          · rw [if_neg hlt]
            rw [h4] at hlt
            refine ⟨by omega, h2, h3, h4, fun v hv hav hvx => ?_⟩
            rcases Nat.lt_succ_iff_lt_or_eq.1 hv with h | h
            · exact h5 v h hav hvx
            · rw [h]
              rcases lt_or_eq_of_le (not_lt.1 hlt) with h6 | h6
              · exact Or.inl h6
              · exact Or.inr ⟨h6, by omega⟩

/-- `GetNearestNeighbor` finds the nearest active neighbour; none only if there is no other active node. -/
theorem nearest_spec {n : Nat} {nodes : List (Node K)} {dist : SymMat K} (w : Wf n nodes dist) {x : Nat}
    (hx : Act nodes x) :
    ((∀ v, Act nodes v → v = x) ∧ nearest nodes dist x = .ok none) ∨
    ∃ p, nearest nodes dist x = .ok (some (p, D nodes dist x p)) ∧ IsNN nodes dist x p := by
  obtain ⟨a, ha, -⟩ := id hx
  obtain ⟨s, e, hb⟩ := nearest_loop w hx nodes [] (by simp)
  have hn : nearest nodes dist x = .ok s := by
    unfold nearest
    rw [atV_ok ha, Outcome.ok_bind, ← e]
    have : di nodes x = a.distanceIndex := by simp [di, ha]
    rw [this]
  cases s with
  | none => exact Or.inl ⟨fun v hv => hb v hv.lt_len hv, hn⟩
  | some r =>
    obtain ⟨p, d⟩ := r
    obtain ⟨h1, h2, h3, h4, h5⟩ := hb
    right
    refine ⟨p, by rw [hn, h4], h2, h3, fun v hv hvx => h5 v hv.lt_len hv hvx⟩

/-! ## Merging -/

theorem setMerged_get (nodes : List (Node K)) (k j : Nat) :
    (setMerged nodes k)[j]? = (nodes[j]?).map (fun a => if j = k then { a with isMerged := true } else a) := by
  unfold setMerged
  rw [List.getElem?_modify]
  by_cases h : k = j
  · subst h; simp
  · simp [h, Ne.symm h]

theorem merged2_get (nodes : List (Node K)) (l r j : Nat) :
    (setMerged (setMerged nodes l) r)[j]? =
      (nodes[j]?).map (fun a => if j = l ∨ j = r then { a with isMerged := true } else a) := by
  rw [setMerged_get, setMerged_get]
  cases nodes[j]? with
  | none => rfl
  | some a =>
    simp only [Option.map_some]
    by_cases h1 : j = l <;> by_cases h2 : j = r
    · rw [if_pos h1, if_pos h2, if_pos (Or.inl h1)]
    · rw [if_pos h1, if_neg h2, if_pos (Or.inl h1)]
    · rw [if_neg h1, if_pos h2, if_pos (Or.inr h2)]
    · rw [if_neg h1, if_neg h2, if_neg (by rintro (h | h) <;> contradiction)]

theorem merged2_length (nodes : List (Node K)) (l r : Nat) : (setMerged (setMerged nodes l) r).length = nodes.length := by
  simp [setMerged]

/-- What `Merge2` does to the nodes and to the distances. -/
structure Merged (link : Linkage) (n : Nat) (nodes : List (Node K)) (dist : SymMat K) (l r : Nat) (h : K)
    (nodes' : List (Node K)) (dist' : SymMat K) : Prop where
  len : nodes'.length = nodes.length + 1
  old : ∀ j, j < nodes.length →
    nodes'[j]? = (nodes[j]?).map (fun a => if j = l ∨ j = r then { a with isMerged := true } else a)
  new : ∃ a, nodes'[nodes.length]? = some a ∧ a.id = nodes.length ∧ a.idLeft = l ∧ a.idRight = r ∧
    a.nodesWithin = sz nodes l + sz nodes r ∧ a.isMerged = false ∧ a.height = h
  wf : Wf n nodes' dist'
  act : ∀ k, Act nodes' k ↔ (Act nodes k ∧ k ≠ l ∧ k ≠ r) ∨ k = nodes.length
  keep : ∀ x y, Act nodes x → Act nodes y → x ≠ l → x ≠ r → y ≠ l → y ≠ r → x ≠ y →
    D nodes' dist' x y = D nodes dist x y
  link : ∀ x, Act nodes x → x ≠ l → x ≠ r → D nodes' dist' x nodes.length =
    calcDist link (sz nodes l) (sz nodes r) (sz nodes x) (D nodes dist l x) (D nodes dist r x) h

theorem mergeLoop {n : Nat} {nodes : List (Node K)} {dist : SymMat K} (w : Wf n nodes dist) (link : Linkage) {l r : Nat}
    (hl : Act nodes l) (hr : Act nodes r) (ln rn : Node K) (el : nodes[l]? = some ln)
    (er : nodes[r]? = some rn) (h : K) (pre : List (Node K)) :
    ∀ suf, setMerged (setMerged nodes l) r = pre ++ suf →
    ∃ dist', pre.foldlM (mergeStep link ln rn (min ln.distanceIndex rn.distanceIndex) h) dist = .ok dist' ∧
      Good n dist' ∧
      (∀ x, pre.length ≤ x → Act nodes x → x ≠ l → x ≠ r →
        sval dist' (di nodes l) (di nodes x) = D nodes dist l x ∧ sval dist' (di nodes r) (di nodes x) = D nodes dist r x) ∧
      (∀ x y, Act nodes x → Act nodes y → x ≠ l → x ≠ r → y ≠ l → y ≠ r →
        sval dist' (di nodes x) (di nodes y) = D nodes dist x y) ∧
      (∀ x, x < pre.length → Act nodes x → x ≠ l → x ≠ r →
        sval dist' (di nodes x) (min (di nodes l) (di nodes r)) =
          calcDist link (sz nodes l) (sz nodes r) (sz nodes x) (D nodes dist l x) (D nodes dist r x) h) := by
  have dl : ln.distanceIndex = di nodes l := by simp [di, el]
  have dr : rn.distanceIndex = di nodes r := by simp [di, er]
  have sl : ln.nodesWithin = sz nodes l := by simp [sz, el]
  have sr : rn.nodesWithin = sz nodes r := by simp [sz, er]
  have hmin : min (di nodes l) (di nodes r) < n := lt_of_le_of_lt (min_le_left _ _) (w.lt _ hl)
  have nmin : ∀ x, Act nodes x → x ≠ l → x ≠ r → di nodes x ≠ min (di nodes l) (di nodes r) := by
    intro x hx h1 h2 hc
    rcases min_choice (di nodes l) (di nodes r) with h | h
    · rw [h] at hc; exact h1 (w.inj _ _ hx hl hc)
    · rw [h] at hc; exact h2 (w.inj _ _ hx hr hc)
  rw [dl, dr]
  induction pre using List.reverseRecOn with
  | nil =>
    intro suf _
    exact ⟨dist, rfl, w.good, fun x _ _ _ _ => ⟨rfl, rfl⟩, fun _ _ _ _ _ _ _ _ => rfl, fun x hx => absurd hx (by simp)⟩
  | append_singleton pre a ih =>
    intro suf hs
    obtain ⟨d1, e, g, h1, h2, h3⟩ := ih (a :: suf) (by rw [hs]; simp)
    have ha : (setMerged (setMerged nodes l) r)[pre.length]? = some a := by rw [hs]; simp
    rw [merged2_get] at ha
    have hlen : (pre ++ [a]).length = pre.length + 1 := by simp
    rw [List.foldlM_append, e, Outcome.ok_bind, List.foldlM_cons]
    obtain ⟨b, hb, hba⟩ := Option.map_eq_some_iff.1 ha
    by_cases hm : a.isMerged = true
    · refine ⟨d1, by simp [mergeStep, hm], g, fun x hx => h1 x (by omega), h2, fun x hx hax hxl hxr => ?_⟩
      rw [hlen] at hx
      rcases Nat.lt_succ_iff_lt_or_eq.1 hx with hx | hx
      · exact h3 x hx hax hxl hxr
      · exfalso
        subst hx
        obtain ⟨c, hc1, hc2⟩ := hax
        rw [hb] at hc1; cases hc1
        rw [if_neg (by rintro (h | h) <;> contradiction)] at hba
        rw [← hba, hc2] at hm; cases hm
    · have hpos : ¬ (pre.length = l ∨ pre.length = r) := by
        intro hc; rw [if_pos hc] at hba; rw [← hba] at hm; exact hm rfl
      rw [if_neg hpos] at hba
      subst hba
      push_neg at hpos
      have hact : Act nodes pre.length := ⟨b, hb, by simpa using hm⟩
      have db : b.distanceIndex = di nodes pre.length := by simp [di, hb]
      have sb : b.nodesWithin = sz nodes pre.length := by simp [sz, hb]
      have nl : di nodes l ≠ di nodes pre.length := fun hc => hpos.1 (w.inj _ _ hl hact hc).symm
      have nr : di nodes r ≠ di nodes pre.length := fun hc => hpos.2 (w.inj _ _ hr hact hc).symm
      have gl := symGet0_ok g (w.lt _ hl) (w.lt _ hact) nl
      have gr := symGet0_ok g (w.lt _ hr) (w.lt _ hact) nr
      have hv := h1 pre.length (le_refl _) hact hpos.1 hpos.2
      rw [hv.1] at gl; rw [hv.2] at gr
      obtain ⟨d2, e2, g2, k1, k2⟩ := symSet0_ok g (calcDist link (sz nodes l) (sz nodes r) (sz nodes pre.length)
        (D nodes dist l pre.length) (D nodes dist r pre.length) h) (w.lt _ hact) hmin
        (nmin _ hact hpos.1 hpos.2)
      have e3 : mergeStep link ln rn (min (di nodes l) (di nodes r)) h d1 b = .ok d2 := by
        unfold mergeStep
        rw [if_neg hm, dl, dr, db, gl, Outcome.ok_bind, gr, Outcome.ok_bind, sl, sr, sb, e2]
      rw [e3, Outcome.ok_bind]
      refine ⟨d2, rfl, g2, ?_, ?_, ?_⟩
      · intro x hx hax hxl hxr
        rw [hlen] at hx
        have hne : di nodes x ≠ di nodes pre.length := fun hc => by
          have := w.inj _ _ hax hact hc; omega
        have old := h1 x (by omega) hax hxl hxr
        have nx := nmin x hax hxl hxr
        rw [← old.1, ← old.2]
        constructor
        · apply k2 _ _ (w.lt _ hl) (w.lt _ hax) (fun hc => nl hc.1) (fun hc => hne hc.2)
        · apply k2 _ _ (w.lt _ hr) (w.lt _ hax) (fun hc => nr hc.1) (fun hc => hne hc.2)
      · intro x y hax hay hxl hxr hyl hyr
        rw [← h2 x y hax hay hxl hxr hyl hyr]
        exact k2 _ _ (w.lt _ hax) (w.lt _ hay) (fun hc => nmin y hay hyl hyr hc.2) (fun hc => nmin x hax hxl hxr hc.1)
      · intro x hx hax hxl hxr
        rw [hlen] at hx
        rcases Nat.lt_succ_iff_lt_or_eq.1 hx with hx | hx
        · rw [← h3 x hx hax hxl hxr]
          have hne : di nodes x ≠ di nodes pre.length := fun hc => by
            have := w.inj _ _ hax hact hc; omega
          exact k2 _ _ (w.lt _ hax) hmin (fun hc => hne hc.1) (fun hc => nmin x hax hxl hxr hc.1)
        · subst hx; exact k1

theorem merge2_spec {n : Nat} {nodes : List (Node K)} {dist : SymMat K} (w : Wf n nodes dist) (link : Linkage) {l r : Nat}
    (hl : Act nodes l) (hr : Act nodes r) (hne : l ≠ r) (h : K) :
    ∃ nodes' dist', merge2 link nodes dist nodes.length l r h = .ok (nodes', dist') ∧
      Merged link n nodes dist l r h nodes' dist' := by
  obtain ⟨ln, el, ml⟩ := id hl
  obtain ⟨rn, er, mr⟩ := id hr
  have dl : ln.distanceIndex = di nodes l := by simp [di, el]
  have dr : rn.distanceIndex = di nodes r := by simp [di, er]
  obtain ⟨d', e, g, -, h2, h3⟩ := mergeLoop w link hl hr ln rn el er h (setMerged (setMerged nodes l) r) [] (by simp)
  rw [merged2_length] at h3
  refine ⟨setMerged (setMerged nodes l) r ++ [mergedNode nodes.length ln rn h], d', ?_, ?_⟩
  · unfold merge2
    rw [atV_ok el, Outcome.ok_bind, atV_ok er, Outcome.ok_bind]
    show (List.foldlM (mergeStep link ln rn (min ln.distanceIndex rn.distanceIndex) h) dist _ >>= _) = _
    rw [e]; rfl
  · have hlen : (setMerged (setMerged nodes l) r ++ [mergedNode nodes.length ln rn h]).length = nodes.length + 1 := by
      simp [merged2_length]
    have hnew : (setMerged (setMerged nodes l) r ++ [mergedNode nodes.length ln rn h])[nodes.length]? =
        some (mergedNode nodes.length ln rn h) := by
      rw [List.getElem?_append_right (by rw [merged2_length]), merged2_length]; simp
    have hold : ∀ j, j < nodes.length →
        (setMerged (setMerged nodes l) r ++ [mergedNode nodes.length ln rn h])[j]? =
          (nodes[j]?).map (fun a => if j = l ∨ j = r then { a with isMerged := true } else a) := by
      intro j hj
      rw [List.getElem?_append_left (by rw [merged2_length]; exact hj), merged2_get]
    generalize hN : setMerged (setMerged nodes l) r ++ [mergedNode nodes.length ln rn h] = nodes' at hlen hnew hold
    have dold : ∀ j, j < nodes.length → di nodes' j = di nodes j := by
      intro j hj
      unfold di
      rw [hold j hj]
      cases nodes[j]? with
      | none => rfl
      | some a => by_cases hc : j = l ∨ j = r <;> simp [hc]
    have dnew : di nodes' nodes.length = min (di nodes l) (di nodes r) := by
      simp [di, hnew, mergedNode, el, er]
    have hact : ∀ k, Act nodes' k ↔ (Act nodes k ∧ k ≠ l ∧ k ≠ r) ∨ k = nodes.length := by
      intro k
      rcases lt_trichotomy k nodes.length with hk | hk | hk
      · unfold Act
        rw [hold k hk]
        constructor
        · rintro ⟨a, ha, hm⟩
          obtain ⟨b, hb, hba⟩ := Option.map_eq_some_iff.1 ha
          by_cases hc : k = l ∨ k = r
          · rw [if_pos hc] at hba; rw [← hba] at hm; cases hm
          · rw [if_neg hc] at hba; subst hba
            push_neg at hc
            exact Or.inl ⟨⟨b, hb, hm⟩, hc⟩
        · rintro (⟨⟨a, ha, hm⟩, hc⟩ | hc)
          · refine ⟨a, ?_, hm⟩
            rw [ha, Option.map_some, if_neg (by rintro (h | h); exacts [hc.1 h, hc.2 h])]
          · omega
      · subst hk
        exact ⟨fun _ => Or.inr rfl, fun _ => ⟨_, hnew, rfl⟩⟩
      · constructor
        · intro hc; have := hc.lt_len; omega
        · rintro (⟨hc, -⟩ | hc)
          · have := hc.lt_len; omega
          · omega
    have nmin : ∀ x, Act nodes x → x ≠ l → x ≠ r → di nodes x ≠ min (di nodes l) (di nodes r) := by
      intro x hx h1 h2 hc
      rcases min_choice (di nodes l) (di nodes r) with h | h
      · rw [h] at hc; exact h1 (w.inj _ _ hx hl hc)
      · rw [h] at hc; exact h2 (w.inj _ _ hx hr hc)
    refine ⟨hlen, hold, ⟨_, hnew, rfl, w.ids _ _ el, w.ids _ _ er, ?_, rfl, rfl⟩, ⟨g, ?_, ?_, ?_⟩, hact, ?_, ?_⟩
    · simp [mergedNode, sz, el, er]
    · intro k a ha
      rcases lt_trichotomy k nodes.length with hk | hk | hk
      · rw [hold k hk] at ha
        obtain ⟨b, hb, hba⟩ := Option.map_eq_some_iff.1 ha
        have := w.ids k b hb
        rw [← hba]
        by_cases hc : k = l ∨ k = r
        · rw [if_pos hc]; exact this
        · rw [if_neg hc]; exact this
      · subst hk; rw [hnew] at ha; cases ha; rfl
      · rw [List.getElem?_eq_none (by omega)] at ha; cases ha
    · intro k hk
      rcases (hact k).1 hk with ⟨hk, -⟩ | hk
      · rw [dold k hk.lt_len]; exact w.lt k hk
      · rw [hk, dnew]; exact lt_of_le_of_lt (min_le_left _ _) (w.lt _ hl)
    · intro x y hx hy hxy
      rcases (hact x).1 hx with ⟨hx, x1, x2⟩ | hx <;> rcases (hact y).1 hy with ⟨hy, y1, y2⟩ | hy
      · rw [dold x hx.lt_len, dold y hy.lt_len] at hxy; exact w.inj _ _ hx hy hxy
      · rw [dold x hx.lt_len, hy, dnew] at hxy; exact absurd hxy (nmin x hx x1 x2)
      · rw [dold y hy.lt_len, hx, dnew] at hxy; exact absurd hxy.symm (nmin y hy y1 y2)
      · rw [hx, hy]
    · intro x y hx hy x1 x2 y1 y2 _
      unfold D
      rw [dold x hx.lt_len, dold y hy.lt_len]
      exact h2 x y hx hy x1 x2 y1 y2
    · intro x hx x1 x2
      unfold D
      rw [dold x hx.lt_len, dnew]
      exact h3 x hx.lt_len hx x1 x2

end
end Cl
end LDT
