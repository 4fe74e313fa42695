import Verif.Lemmas.Api
/-!
# C139: combining two series
-/
namespace LDT
namespace Var
open Fq Arr Op
open Mx (read write upTo)

section
variable {K : Type} [Field K] [LinearOrder K]

/-- C139: two series with observations, on a common grid, of `n` periods together: with room for them, the combined series, the start, the number of periods and the largest
change; with too little room, nothing is written but the number of periods that are needed.

Partial: the grid is of a class for which the order and the differences of dates are right (C02, C03), and both series have an observation. -/
theorem C139_combined_partial {f0 : Freq} (hf : Grid f0) (v1 v2 : Variable K) (h1 : ∃ a, f0.next a = .ok v1.start) (h2 : ∃ a, f0.next a = .ok v2.start)
    (o1 : ∃ i, Obs v1.data i) (o2 : ∃ i, Obs v2.data i) (buf : List (Val K)) :
    ∃ (start : Freq) (n : ℕ), (∀ len : Int, len < n → combine v1 v2 buf len = .ok ⟨none, n, buf, .num 0⟩) ∧
      ∀ len : Int, n ≤ len → len ≤ buf.length → ∃ out m, combine v1 v2 buf len = .ok ⟨some start, n, out, m⟩ ∧ Combines v1 v2 start n out ∧
        LargestChange v1 v2 m ∧ out.length = buf.length ∧ ∀ i : ℕ, n ≤ i → out[i]? = buf[i]? := by
  have wf : ∀ {f : Freq}, (∃ a, f0.next a = .ok f) → f.WF := by
    rintro f ⟨a, ha⟩
    obtain ⟨g, hg, hw, -⟩ := freq_next f0 hf.wf a
    rw [ha] at hg; cases hg
    exact hw
  obtain ⟨a, ra, ta, ga, va, la, lena, fa, lsa⟩ := trim_grid hf v1 h1 o1 (wf h1)
  obtain ⟨b, rb, tb, gb, vb, lb, lenb, fb, lsb⟩ := trim_grid hf v2 h2 o2 (wf h2)
  have hall : ∀ v ∈ [a, b], ∃ p, f0.next p = .ok v.start := by
    intro v hv
    rcases List.mem_pair.1 hv with rfl | rfl
    exacts [ga, gb]
  obtain ⟨t, et, -, -, hst, -, hlast, hcell, hmis⟩ := C13_table_partial f0 hf a [b] hall ⟨a, by simp, by intro h; rw [h] at lena; simp at lena⟩
  have gt : ∃ m, f0.next m = .ok t.start := by
    obtain ⟨v, hv, he⟩ := hst
    obtain ⟨p, hp⟩ := hall v hv
    exact ⟨p, by rw [← he]; exact hp⟩
  have row : ∀ (i : ℕ) (v : Variable K), [a, b][i]? = some v → ∀ r : ℕ, r < t.numObs → ∀ g, t.start.next r = .ok g → ∃ c, t.cell i r = some c ∧ CellOf v g c := by
    intro i v hv r hr g hg
    exact cellOf_row hf gt (hall v (List.mem_of_getElem? hv)) (hcell i v hv) (hmis i v hv) hr hg
  have dates : ∀ r : ℕ, ∃ g, t.start.next r = .ok g := by
    intro r
    obtain ⟨g, hg, -⟩ := freq_next t.start (wf gt) r
    exact ⟨g, hg⟩
  have cov : ∀ g x, ValueAt a g x ∨ ValueAt b g x → ∃ r, r < t.numObs ∧ Dated t.start r g := by
    rintro g x (⟨j, hj, hg⟩ | ⟨j, hj, hg⟩)
    · obtain ⟨r, hr, ⟨g', h3, h4⟩, -⟩ := hcell 0 a rfl j _ hj
      rw [hg] at h4; cases h4
      exact ⟨r, hr, h3⟩
    · obtain ⟨r, hr, ⟨g', h3, h4⟩, -⟩ := hcell 1 b rfl j _ hj
      rw [hg] at h4; cases h4
      exact ⟨r, hr, h3⟩
  have hpos : 0 < t.numObs := by
    obtain ⟨x, hx⟩ := fa
    obtain ⟨g, hg, -⟩ := freq_next a.start (wf ga) ((0 : ℕ) : Int)
    obtain ⟨r, hr, -⟩ := cov g x (.inl ⟨0, hx, hg⟩)
    omega
  have ex : ∀ r : ℕ, ∃ c : Val K × Val K, r < t.numObs → t.data[r]? = some c.1 ∧ t.data[t.numObs + r]? = some c.2 ∧
      ∀ g, t.start.next r = .ok g → CellOf v1 g c.1 ∧ CellOf v2 g c.2 := by
    intro r
    by_cases hr : r < t.numObs
    · obtain ⟨g, hg⟩ := dates r
      obtain ⟨c, hc, c'⟩ := row 0 a rfl r hr g hg
      obtain ⟨d, hd, d'⟩ := row 1 b rfl r hr g hg
      refine ⟨(c, d), fun _ => ⟨?_, ?_, fun g' hg' => ?_⟩⟩
      · unfold Table.cell at hc; rwa [Nat.mul_zero, Nat.zero_add] at hc
      · unfold Table.cell at hd; rwa [Nat.mul_one] at hd
      · rw [hg] at hg'; cases hg'
        exact ⟨fun x => (va g x).symm.trans (c' x), fun x => (vb g x).symm.trans (d' x)⟩
    · exact ⟨(none, none), fun h => absurd h hr⟩
  choose c hc using ex
  refine ⟨t.start, t.numObs, fun len hlen => ?_, fun len hlen hbuf => ?_⟩
  · have : combineBody v1 v2 buf len = .ok ⟨none, t.numObs, buf, .num 0⟩ := by
      unfold combineBody
      rw [ta, Outcome.ok_bind, tb, Outcome.ok_bind, et, Outcome.ok_bind, if_pos (by omega)]
      rfl
    unfold combine
    rw [this]
  · obtain ⟨s, es, hs⟩ := combine_loop (t := t) (c1 := fun i => (c i).1) (c2 := fun i => (c i).2) rfl (fun i hi => (hc i hi).1) (fun i hi => (hc i hi).2.1) buf
      (by omega) t.numObs le_rfl
    have body : combineBody v1 v2 buf len = .ok ⟨some t.start, t.numObs, s.1, s.2⟩ := by
      unfold combineBody
      rw [ta, Outcome.ok_bind, tb, Outcome.ok_bind, et, Outcome.ok_bind, if_neg (by omega), es]
      rfl
    refine ⟨s.1, s.2, by unfold combine; rw [body], ⟨fun g x h => cov g x (by rw [va, vb]; exact h), ?_, ?_, ?_, ?_, ?_⟩, ⟨?_, ?_⟩, hs.len, fun i hi => hs.rest i hi⟩
    · obtain ⟨v, hv, he⟩ := hst
      have h0 : v.start.next ((0 : ℕ) : Int) = .ok t.start := by
        obtain ⟨p, hp⟩ := hall v hv
        rw [← he]
        exact next_zero_eq (wf (hall v hv)) (next_notList hf.notList hp)
      rcases List.mem_pair.1 hv with rfl | rfl
      · obtain ⟨x, hx⟩ := fa
        exact ⟨x, .inl ((va _ _).1 ⟨0, hx, h0⟩)⟩
      · obtain ⟨x, hx⟩ := fb
        exact ⟨x, .inr ((vb _ _).1 ⟨0, hx, h0⟩)⟩
    · obtain ⟨last, hl, ⟨v, hv, hev⟩, -⟩ := hlast
      obtain ⟨m, hm⟩ := gt
      obtain ⟨p, hp⟩ := hall v hv
      obtain ⟨e, he1, he2⟩ := grid_end hf v hp
      rw [hev] at he1; cases he1
      have key : m + t.numObs = p + v.data.length := by
        obtain ⟨g, hg⟩ := grid_next hf (m + t.numObs)
        have := grid_next_add hf hm hg
        rw [hl] at this; cases this
        exact grid_inj hf hg he2
      have fin : ∀ l : ℕ, v.data.length = l + 1 → ∃ g, t.start.next ((t.numObs - 1 : ℕ) : Int) = .ok g ∧ v.start.next (l : Int) = .ok g := by
        intro l hl'
        obtain ⟨g, hg⟩ := grid_next hf (p + l)
        exact ⟨g, grid_next_add hf hm (by rw [show m + ((t.numObs - 1 : ℕ) : Int) = p + l by omega]; exact hg), grid_next_add hf hp hg⟩
      rcases List.mem_pair.1 hv with rfl | rfl
      · obtain ⟨g, g1, g2⟩ := fin la lena
        obtain ⟨x, hx⟩ := lsa
        exact ⟨g, x, hpos, g1, .inl ((va _ _).1 ⟨la, hx, g2⟩)⟩
      · obtain ⟨g, g1, g2⟩ := fin lb lenb
        obtain ⟨x, hx⟩ := lsb
        exact ⟨g, x, hpos, g1, .inr ((vb _ _).1 ⟨lb, hx, g2⟩)⟩
    · intro r g y hr hg hy
      have := ((hc r hr).2.2 g hg).2 y
      rw [hs.done r hr, this.1 hy]
      rfl
    · intro r g x hr hg hx hy
      obtain ⟨p, q⟩ := (hc r hr).2.2 g hg
      have q0 : (c r).2 = none := by
        cases hq : (c r).2 with
        | none => rfl
        | some y => exact absurd ((q y).2 hq) (hy y)
      rw [hs.done r hr, q0, (p x).1 hx]
      rfl
    · intro r g hr hg hx hy
      obtain ⟨p, q⟩ := (hc r hr).2.2 g hg
      have q0 : (c r).2 = none := by
        cases hq : (c r).2 with
        | none => rfl
        | some y => exact absurd ((q y).2 hq) (hy y)
      have p0 : (c r).1 = none := by
        cases hp : (c r).1 with
        | none => rfl
        | some y => exact absurd ((p y).2 hp) (hx y)
      rw [hs.done r hr, q0, p0]
      rfl
    · intro g x y hx hy hne
      obtain ⟨r, hr, hg⟩ := cov g x (by rw [va]; exact .inl hx)
      obtain ⟨p, q⟩ := (hc r hr).2.2 g hg
      exact hs.above r x y hr ((p x).1 hx) ((q y).1 hy) hne
    · rcases hs.value with h | ⟨r, x, y, hr, hx, hy, hne, e⟩
      · exact .inl h
      · obtain ⟨g, hg⟩ := dates r
        obtain ⟨p, q⟩ := (hc r hr).2.2 g hg
        exact .inr ⟨g, x, y, (p x).2 hx, (q y).2 hy, hne, e⟩

/-- C139: the result is determined: two combinations of the same series from the same date agree. -/
theorem C139_unique {f0 : Freq} (hf : Grid f0) {v1 v2 : Variable K} {start : Freq} {n n' : ℕ} {out out' : List (Val K)} (hs : ∃ m, f0.next m = .ok start)
    (h : Combines v1 v2 start n out) (h' : Combines v1 v2 start n' out') : n = n' ∧ ∀ r, r < n → out[r]? = out'[r]? := by
  have inj : ∀ {i j : ℕ} {g : Freq}, start.next i = .ok g → start.next j = .ok g → i = j := by
    intro i j g e1 e2
    obtain ⟨m, hm⟩ := hs
    obtain ⟨g1, k1⟩ := grid_next hf (m + i)
    obtain ⟨g2, k2⟩ := grid_next hf (m + j)
    have l1 := grid_next_add hf hm k1
    have l2 := grid_next_add hf hm k2
    rw [e1] at l1; rw [e2] at l2
    cases l1; cases l2
    have := grid_inj hf k1 k2
    omega
  have half : ∀ {n n' : ℕ} {out out' : List (Val K)}, Combines v1 v2 start n out → Combines v1 v2 start n' out' → n ≤ n' := by
    intro n n' out out' h h'
    obtain ⟨g, x, h1, h2, h3⟩ := h.last
    obtain ⟨r, h4, h5⟩ := h'.covers g x h3
    have h2 : start.next ((n - 1 : ℕ) : Int) = .ok g := h2
    have := inj h2 h5
    omega
  have e : n = n' := le_antisymm (half h h') (half h' h)
  refine ⟨e, fun r hr => ?_⟩
  obtain ⟨m, hm⟩ := hs
  obtain ⟨g', k1⟩ := grid_next hf (m + r)
  have hg := grid_next_add hf hm k1
  by_cases hy : ∃ y, ValueAt v2 g' y
  · obtain ⟨y, hy⟩ := hy
    rw [h.second r g' y hr hg hy, h'.second r g' y (e ▸ hr) hg hy]
  · by_cases hx : ∃ x, ValueAt v1 g' x
    · obtain ⟨x, hx⟩ := hx
      rw [h.other r g' x hr hg hx fun y h => hy ⟨y, h⟩, h'.other r g' x (e ▸ hr) hg hx fun y h => hy ⟨y, h⟩]
    · rw [h.neither r g' hr hg (fun x h => hx ⟨x, h⟩) fun y h => hy ⟨y, h⟩, h'.neither r g' (e ▸ hr) hg (fun x h => hx ⟨x, h⟩) fun y h => hy ⟨y, h⟩]

/-- C139: series of different classes are refused: null, and nothing else changes. -/
theorem C139_classes (v1 v2 : Variable K) (w1 : v1.start.WF) (l1 : v1.start.NotList) (w2 : v2.start.WF) (hc : v1.start.cls ≠ v2.start.cls)
    (o1 : ∃ i, Obs v1.data i) (o2 : ∃ i, Obs v2.data i) (buf : List (Val K)) (len : Int) : combine v1 v2 buf len = .ok ⟨none, len, buf, .num 0⟩ := by
  obtain ⟨a, s, e, ta, -, -, -, -, -, -, -, ca⟩ := C10_trim v1 w1 o1
  obtain ⟨b, s', e', tb, -⟩ := C10_trim v2 w2 o2
  have keep : ∀ {v v' : Variable K} {r : Range}, v.start.WF → v.trim = .ok (v', r) → v'.start.cls = v.start.cls ∧ v'.start.WF ∧ (v.start.NotList → v'.start.NotList) := by
    intro v v' r hw h
    rcases trim_start h with h | h
    · rw [h]; exact ⟨rfl, hw, fun h => h⟩
    · obtain ⟨g, hg, hw', hcl⟩ := freq_next v.start hw r.start
      rw [h] at hg; cases hg
      exact ⟨hcl.1, hw', fun hl => next_notList hl h⟩
  obtain ⟨k1, k2, k3⟩ := keep w1 ta
  obtain ⟨k4, -, -⟩ := keep w2 tb
  have ht : Table.make [a, b] = .throws := C13_mixed_class a b [] k2 (k3 l1) (by rw [k1, k4]; exact hc)
  have : combineBody v1 v2 buf len = .throws := by
    unfold combineBody
    rw [ta, Outcome.ok_bind, tb, Outcome.ok_bind, ht]; rfl
  unfold combine
  rw [this]

/-- C139 does not hold of the program for a series without cells: memory outside of it is read. -/
theorem C139_empty_violated (v1 v2 : Variable K) (h : v1.data = []) (buf : List (Val K)) (len : Int) : combine v1 v2 buf len = .ub := by
  have : combineBody v1 v2 buf len = .ub := by
    unfold combineBody
    rw [C10_empty_undefined v1 h]; rfl
  unfold combine
  rw [this]

end

/-- C139 does not hold of the program for a series without observations: its missing cells are kept, so the combined series does not begin with an observation. -/
theorem C139_missing_violated :
    combine (⟨[], [some 1], .year ⟨.yearly, 2003, 1, 1, 1⟩⟩ : Variable Rat) ⟨[], [none, none], .year ⟨.yearly, 2001, 1, 1, 1⟩⟩ [none, none, none] 3
      = .ok ⟨some (.year ⟨.yearly, 2001, 1, 1, 1⟩), 3, [none, none, some 1], .num 0⟩ := by decide +kernel

/-- C139 does not hold of the program for weekly series that begin at different weekdays: they are not refused, the second one is moved and continued with a zero, which
replaces an observation. -/
theorem C139_off_grid_violated :
    combine (⟨[], [some 1, some 2], .week ⟨.weekly, 2451600, DRange.default, 1⟩⟩ : Variable Rat) ⟨[], [some 10], .week ⟨.weekly, 2451603, DRange.default, 1⟩⟩ [none, none] 2
      = .ok ⟨some (.week ⟨.weekly, 2451600, DRange.default, 1⟩), 2, [some 10, some 0], .num 900⟩ := by decide +kernel

/-- Two monthly series: the second one has priority, and the change from 2 to 3 is 50 percent. -/
example : combine (⟨[], [none, some 1, some 2, none, some 5], .year ⟨.monthly, 2000, 12, 12, 1⟩⟩ : Variable Rat)
      ⟨[], [some 3, none, none, some 7, none], .year ⟨.monthly, 2001, 12, 2, 1⟩⟩ [none, none, none, none, none] 5
    = .ok ⟨some (.year ⟨.monthly, 2001, 12, 1, 1⟩), 5, [some 1, some 3, none, some 5, some 7], .num 50⟩ := by decide +kernel

end Var
end LDT
