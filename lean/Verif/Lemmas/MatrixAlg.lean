import Verif.Model.MatrixAlg
import Verif.Lemmas.Varma
import Mathlib.Dynamics.PeriodicPts.Defs
import Mathlib.FieldTheory.Finite.Basic
namespace LDT
namespace Mx
variable {α : Type}

theorem read_nat {l : List α} {k : Nat} (h : k < l.length) : read l (k : Int) = .ok l[k] := by
  rw [read_eq_ok]; exact ⟨by omega, by simp [h]⟩

/-- Swapping two cells. -/
theorem swapCells_spec {l : List α} {a b : Nat} (ha : a < l.length) (hb : b < l.length) :
    ∃ l', swapCells l a b = .ok l' ∧ l'.length = l.length ∧
      ∀ k : Nat, l'[k]? = if k = a then l[b]? else if k = b then l[a]? else l[k]? := by
  refine ⟨(l.set a l[b]).set b l[a], ?_, by simp, fun k => ?_⟩
  · unfold swapCells
    rw [read_nat ha, Outcome.ok_bind, read_nat hb, Outcome.ok_bind, write_ok_of _ (by omega) (by omega), Outcome.ok_bind,
      write_ok_of _ (by omega) (by simp; omega)]
    simp
  · rw [List.getElem?_set, List.getElem?_set]
    by_cases hka : k = a
    · subst hka
      by_cases hkb : b = k
      · subst hkb; simp [ha]
      · simp [hkb, ha, hb]
    · by_cases hkb : k = b
      · subst hkb; simp [hka, hb, ha]
      · rw [if_neg (by omega), if_neg (by omega), if_neg hka, if_neg hkb]

section cycle

/-- The index map of a transposition, `a ↦ C * a mod N`. -/
def sig (N C : Nat) (a : Nat) : Nat := (C * a) % N

theorem sig_iter (N C a t : Nat) (h : a < N) : (sig N C)^[t] a = (C ^ t * a) % N := by
  induction t with
  | zero => simp [Nat.mod_eq_of_lt h]
  | succ t ih =>
    rw [Function.iterate_succ_apply', ih, sig, Nat.mul_mod, Nat.mod_mod, ← Nat.mul_mod, pow_succ]
    congr 1; ring

theorem sig_lt {N C a : Nat} (h : 0 < N) : sig N C a < N := Nat.mod_lt _ h

theorem sig_period {N C a : Nat} (hc : Nat.Coprime C N) (h : a < N) :
    Function.IsPeriodicPt (sig N C) N.totient a := by
  unfold Function.IsPeriodicPt Function.IsFixedPt
  rw [sig_iter _ _ _ _ h]
  have := Nat.ModEq.pow_totient hc
  have h2 : C ^ N.totient * a ≡ 1 * a [MOD N] := Nat.ModEq.mul_right a this
  rw [one_mul] at h2
  unfold Nat.ModEq at h2
  rw [h2, Nat.mod_eq_of_lt h]

theorem sig_inj {N C a b : Nat} (hc : Nat.Coprime C N) (ha : a < N) (hb : b < N) (h : sig N C a = sig N C b) : a = b := by
  have : C * a ≡ C * b [MOD N] := h
  have := Nat.ModEq.cancel_left_of_coprime (by rw [Nat.coprime_comm] at hc; exact hc) this
  simpa [Nat.ModEq, Nat.mod_eq_of_lt ha, Nat.mod_eq_of_lt hb] using this

variable (N C : Nat) (old : List α)

/-- State inside a cycle after `t` rounds. -/
structure InCycle (c : Nat) (V0 : List Bool) (l0 : List α) (t : Nat) (s : List Bool × List α) : Prop where
  lenV : s.1.length = N
  lenL : s.2.length = old.length
  vis : ∀ k, s.1[k]? = some true ↔ V0[k]? = some true ∨ ∃ u, u < t ∧ (sig N C)^[u + 1] c = k
  moved : ∀ u, u < t → s.2[(sig N C)^[u + 1] c]? = old[(sig N C)^[u] c]?
  held : t < Function.minimalPeriod (sig N C) c → s.2[c]? = old[(sig N C)^[t] c]?
  rest : ∀ k, (∀ u, u ≤ t → (sig N C)^[u] c ≠ k) → s.2[k]? = l0[k]?

theorem followCycle_spec (hc : Nat.Coprime C N) (hN : N < old.length) (c : Nat) (hcN : c < N) (V0 : List Bool)
    (l0 : List α) (hl0 : ∀ u, l0[(sig N C)^[u] c]? = old[(sig N C)^[u] c]?) :
    ∀ (r t fuel : Nat) (s : List Bool × List α), t + r = Function.minimalPeriod (sig N C) c → 0 < r → r ≤ fuel →
      InCycle N C old c V0 l0 t s →
      ∃ s', followCycle (N : Int) C c fuel (((sig N C)^[t] c : Nat) : Int) s = .ok s' ∧
        InCycle N C old c V0 l0 (Function.minimalPeriod (sig N C) c) s' := by
  have hpos : 0 < N := by omega
  intro r
  induction r with
  | zero => intro _ _ _ _ h; omega
  | succ r ih =>
    intro t fuel s ht _ hf inv
    obtain ⟨fuel, rfl⟩ : ∃ f, fuel = f + 1 := ⟨fuel - 1, by omega⟩
    have ha : (((C : Int) * (((sig N C)^[t] c : Nat) : Int)).tmod (N : Int)) = (((sig N C)^[t + 1] c : Nat) : Int) := by
      rw [Function.iterate_succ_apply', sig, Int.tmod_eq_emod_of_nonneg (by positivity)]
      push_cast; rfl
    have hlt : (sig N C)^[t + 1] c < N := by rw [Function.iterate_succ_apply']; exact sig_lt hpos
    obtain ⟨l', e, hlen, hget⟩ := swapCells_spec (l := s.2) (a := (sig N C)^[t + 1] c) (b := c)
      (by rw [inv.lenL]; omega) (by rw [inv.lenL]; omega)
    unfold followCycle
    rw [ha]
    have hm : markVisited s.1 (((sig N C)^[t + 1] c : Nat) : Int) = .ok (s.1.set ((sig N C)^[t + 1] c) true) := by
      unfold markVisited
      rw [if_pos ⟨by omega, by rw [inv.lenV]; omega⟩]; simp
    rw [hm, Outcome.ok_bind, e, Outcome.ok_bind]
    have hheld := inv.held (by omega)
    have hvis : ∀ k, (s.1.set ((sig N C)^[t + 1] c) true)[k]? = some true ↔
        V0[k]? = some true ∨ ∃ u, u < t + 1 ∧ (sig N C)^[u + 1] c = k := by
      intro k
      rw [List.getElem?_set]
      split_ifs with h1 h2
      · refine ⟨fun _ => Or.inr ⟨t, by omega, h1⟩, fun _ => rfl⟩
      · exfalso; apply h2; rw [inv.lenV]; exact hlt
      · rw [inv.vis k]
        constructor
        · rintro (h | ⟨u, hu, h⟩)
          · exact Or.inl h
          · exact Or.inr ⟨u, by omega, h⟩
        · rintro (h | ⟨u, hu, h⟩)
          · exact Or.inl h
          · refine Or.inr ⟨u, ?_, h⟩
            rcases Nat.lt_succ_iff_lt_or_eq.1 hu with h' | h'
            · exact h'
            · subst h'; exact absurd h h1
    have inj := Function.iterate_injOn_Iio_minimalPeriod (f := sig N C) (x := c)
    by_cases hr : r = 0
    · -- the cycle closes
      have hback : (sig N C)^[t + 1] c = c := by
        have : t + 1 = Function.minimalPeriod (sig N C) c := by omega
        rw [this]; exact Function.iterate_minimalPeriod
      rw [hback] at hget hvis ⊢
      rw [if_pos rfl]
      have hsame : ∀ k : Nat, l'[k]? = s.2[k]? := by
        intro k; rw [hget k]
        split_ifs with h
        · rw [h]
        · rfl
      refine ⟨_, rfl, ?_⟩
      rw [← show t + 1 = Function.minimalPeriod (sig N C) c by omega]
      refine ⟨by simp [inv.lenV], by rw [hlen]; exact inv.lenL, hvis, ?_, ?_, ?_⟩
      · intro u hu
        rcases Nat.lt_succ_iff_lt_or_eq.1 hu with h' | h'
        · rw [hsame]; exact inv.moved u h'
        · subst h'; rw [hback, hsame]; exact hheld
      · intro h; omega
      · intro k hk
        rw [hsame]; exact inv.rest k (fun u hu => hk u (by omega))
    · have hne : (sig N C)^[t + 1] c ≠ c := by
        intro h
        have := inj (show t + 1 ∈ Set.Iio _ by simp; omega) (show 0 ∈ Set.Iio _ by simp; omega) (by simpa using h)
        omega
      rw [if_neg (by intro h; exact hne (by exact_mod_cast h))]
      have hfresh : s.2[(sig N C)^[t + 1] c]? = old[(sig N C)^[t + 1] c]? := by
        rw [inv.rest _ ?_, hl0]
        intro u hu h
        have := inj (show u ∈ Set.Iio _ by simp; omega) (show t + 1 ∈ Set.Iio _ by simp; omega) (by simpa using h)
        omega
      apply ih (t + 1) fuel _ (by omega) (by omega) (by omega)
      refine ⟨by simp [inv.lenV], by rw [hlen]; exact inv.lenL, hvis, ?_, ?_, ?_⟩
      · intro u hu
        rcases Nat.lt_succ_iff_lt_or_eq.1 hu with h' | h'
        · rw [hget, if_neg, if_neg]
          · exact inv.moved u h'
          · intro h
            have := inj (show u + 1 ∈ Set.Iio _ by simp; omega) (show 0 ∈ Set.Iio _ by simp; omega) (by simpa using h)
            omega
          · intro h
            have := inj (show u + 1 ∈ Set.Iio _ by simp; omega) (show t + 1 ∈ Set.Iio _ by simp; omega) (by simpa using h)
            omega
        · subst h'; rw [hget, if_pos rfl]; exact hheld
      · intro _
        rw [hget, if_neg (fun h => hne h.symm), if_pos rfl]; exact hfresh
      · intro k hk
        rw [hget, if_neg (fun h => hk (t + 1) (by omega) h.symm), if_neg (fun h => hk 0 (by omega) (by simpa using h.symm))]
        exact inv.rest k (fun u hu => hk u (by omega))

/-- State between cycles: visited cells form a closed set and hold their final values. -/
structure Between (s : List Bool × List α) : Prop where
  lenV : s.1.length = N
  lenL : s.2.length = old.length
  closed : ∀ k : Nat, s.1[k]? = some true → s.1[sig N C k]? = some true
  closed' : ∀ k : Nat, k < N → s.1[sig N C k]? = some true → s.1[k]? = some true
  done : ∀ k : Nat, k < N → s.1[k]? = some true → s.2[sig N C k]? = old[k]?
  fresh : ∀ k : Nat, s.1[k]? ≠ some true → s.2[k]? = old[k]?

theorem cycles_spec (hc : Nat.Coprime C N) (hN : N < old.length) (fuel : Nat) (hf : N ≤ fuel) :
    ∃ s, (upTo 0 (N : Int)).foldlM (cycleFrom (N : Int) C fuel) (List.replicate N false, old) = .ok s ∧
      Between N C old s ∧ ∀ k, k < N → s.1[k]? = some true := by
  obtain ⟨s, e, h1, h2⟩ := loop_inv (a := 0) (b := (N : Int)) (by omega) (cycleFrom (N : Int) C fuel)
    (fun c s => Between N C old s ∧ ∀ k : Nat, (k : Int) < c → s.1[k]? = some true)
    (s := (List.replicate N false, old))
    ⟨⟨by simp, rfl, fun k h => by simp [List.getElem?_replicate] at h, fun k _ h => by simp [List.getElem?_replicate] at h,
      fun k _ h => by simp [List.getElem?_replicate] at h, fun _ _ => rfl⟩, fun k h => by omega⟩
    (by
      intro ci h0 h1 s ⟨b, hv⟩
      obtain ⟨c, rfl⟩ : ∃ c : Nat, ci = c := ⟨ci.toNat, by omega⟩
      have hcN : c < N := by omega
      unfold cycleFrom
      rw [Int.toNat_natCast, List.getElem?_eq_getElem (by rw [b.lenV]; exact hcN)]
      cases hcv : s.1[c]'(by rw [b.lenV]; exact hcN) with
      | true =>
        refine ⟨s, rfl, b, fun k hk => ?_⟩
        rcases Nat.lt_succ_iff_lt_or_eq.1 (show k < c + 1 by omega) with h | h
        · exact hv k (by omega)
        · subst h; rw [List.getElem?_eq_getElem (by rw [b.lenV]; exact hcN), hcv]
      | false =>
        simp only
        have hcf : s.1[c]? ≠ some true := by
          rw [List.getElem?_eq_getElem (by rw [b.lenV]; exact hcN), hcv]; simp
        have horb : ∀ u, (sig N C)^[u] c < N ∧ s.1[(sig N C)^[u] c]? ≠ some true := by
          intro u
          induction u with
          | zero => exact ⟨hcN, hcf⟩
          | succ u ih =>
            rw [Function.iterate_succ_apply']
            exact ⟨sig_lt (by omega), fun h => ih.2 (b.closed' _ ih.1 h)⟩
        have hper := sig_period hc hcN
        have htot : 0 < N.totient := Nat.totient_pos.2 (by omega)
        have hp : 0 < Function.minimalPeriod (sig N C) c := hper.minimalPeriod_pos htot
        have hple : Function.minimalPeriod (sig N C) c ≤ N :=
          le_trans (hper.minimalPeriod_le htot) (Nat.totient_le N)
        obtain ⟨s', e, inv⟩ := followCycle_spec N C old hc hN c hcN s.1 s.2 (fun u => b.fresh _ (horb u).2)
          (Function.minimalPeriod (sig N C) c) 0 fuel s (by omega) hp (by omega)
          ⟨b.lenV, b.lenL, fun k => by simp, fun u hu => by omega, fun _ => b.fresh _ hcf, fun _ _ => rfl⟩
        refine ⟨s', by simpa using e, ?_, ?_⟩
        · -- membership in the orbit
          have horbit : ∀ u, ∃ v, v < Function.minimalPeriod (sig N C) c ∧ (sig N C)^[v + 1] c = (sig N C)^[u] c := by
            intro u
            have hmod : (sig N C)^[(u + (Function.minimalPeriod (sig N C) c - 1)) % Function.minimalPeriod (sig N C) c + 1] c
                = (sig N C)^[u] c := by
              rw [← Function.iterate_mod_minimalPeriod_eq (n := _ + 1), Nat.mod_add_mod,
                show u + (Function.minimalPeriod (sig N C) c - 1) + 1 = u + Function.minimalPeriod (sig N C) c by omega,
                Nat.add_mod_right, Function.iterate_mod_minimalPeriod_eq]
            exact ⟨_, Nat.mod_lt _ hp, hmod⟩
          refine ⟨inv.lenV, inv.lenL, ?_, ?_, ?_, ?_⟩
          · intro k hk
            rcases (inv.vis k).1 hk with h | ⟨u, _, h⟩
            · exact (inv.vis _).2 (Or.inl (b.closed k h))
            · rw [← h, ← Function.iterate_succ_apply' (sig N C)]
              obtain ⟨v, hv1, hv2⟩ := horbit (u + 1 + 1)
              exact (inv.vis _).2 (Or.inr ⟨v, hv1, hv2⟩)
          · intro k hkN hk
            rcases (inv.vis _).1 hk with h | ⟨u, _, h⟩
            · exact (inv.vis _).2 (Or.inl (b.closed' k hkN h))
            · rw [Function.iterate_succ_apply'] at h
              have := sig_inj hc (horb u).1 hkN h
              obtain ⟨v, hv1, hv2⟩ := horbit u
              exact (inv.vis _).2 (Or.inr ⟨v, hv1, by rw [hv2, this]⟩)
          · intro k hkN hk
            rcases (inv.vis k).1 hk with h | ⟨u, _, h⟩
            · rw [inv.rest (sig N C k) (fun u _ h' => (horb u).2 (by rw [h']; exact b.closed k h))]
              exact b.done k hkN h
            · obtain ⟨v, hv1, hv2⟩ := horbit (u + 1 + 1)
              have hk' : sig N C k = (sig N C)^[v + 1] c := by rw [hv2, ← h, ← Function.iterate_succ_apply' (sig N C)]
              rw [hk', inv.moved v hv1]
              congr 1
              have : sig N C ((sig N C)^[v] c) = sig N C k := by
                rw [hk', Function.iterate_succ_apply']
              exact sig_inj hc (horb v).1 hkN this
          · intro k hk
            have hnot : ∀ u, (sig N C)^[u] c ≠ k := by
              intro u h
              obtain ⟨v, hv1, hv2⟩ := horbit u
              exact hk ((inv.vis k).2 (Or.inr ⟨v, hv1, by rw [hv2, h]⟩))
            rw [inv.rest k (fun u _ => hnot u)]
            exact b.fresh k (fun h => hk ((inv.vis k).2 (Or.inl h)))
        · intro k hk
          rcases Nat.lt_succ_iff_lt_or_eq.1 (show k < c + 1 by omega) with h | h
          · exact (inv.vis k).2 (Or.inl (hv k (by omega)))
          · subst h
            refine (inv.vis k).2 (Or.inr ⟨Function.minimalPeriod (sig N C) k - 1, by omega, ?_⟩)
            rw [show Function.minimalPeriod (sig N C) k - 1 + 1 = Function.minimalPeriod (sig N C) k by omega]
            exact Function.iterate_minimalPeriod)
  exact ⟨s, e, h1, fun k hk => h2 k (by omega)⟩

end cycle
end Mx
end LDT

namespace LDT
namespace Mx
variable {α : Type}

theorem swapCells_read {l : List α} {a b : Int} (ha0 : 0 ≤ a) (ha : a < l.length) (hb0 : 0 ≤ b) (hb : b < l.length) :
    ∃ l', swapCells l a b = .ok l' ∧ l'.length = l.length ∧
      ∀ k : Int, read l' k = if k = a then read l b else if k = b then read l a else read l k := by
  obtain ⟨a, rfl⟩ : ∃ c : Nat, a = c := ⟨a.toNat, by omega⟩
  obtain ⟨b, rfl⟩ : ∃ c : Nat, b = c := ⟨b.toNat, by omega⟩
  obtain ⟨l', e, hl, h⟩ := swapCells_spec (l := l) (a := a) (b := b) (by omega) (by omega)
  refine ⟨l', e, hl, fun k => ?_⟩
  by_cases hk : 0 ≤ k
  · obtain ⟨k, rfl⟩ : ∃ c : Nat, k = c := ⟨k.toNat, by omega⟩
    have hk' := h k
    split_ifs at hk' with h1 h2
    · rw [if_pos (by omega)]; subst h1
      unfold read; rw [if_pos (by omega), if_pos (by omega)]; simp [hk']
    · rw [if_neg (by omega), if_pos (by omega)]; subst h2
      unfold read; rw [if_pos (by omega), if_pos (by omega)]; simp [hk']
    · rw [if_neg (by omega), if_neg (by omega)]
      exact read_congr (fun _ => by simpa using hk')
  · rw [if_neg (by omega), if_neg (by omega)]
    unfold read; rw [if_neg hk, if_neg hk]

/-- Pairs already exchanged when the square transposition is at `(i, j)`. -/
def Swapped (i j a b : Int) : Prop := min a b < i ∨ (min a b = i ∧ max a b < j)

instance (i j a b : Int) : Decidable (Swapped i j a b) := by unfold Swapped; infer_instance

theorem transposeSquare_spec (m : Mat α) (w : m.Wf) (hsq : m.rows = m.cols) :
    ∃ l, m.transposeSquare = .ok { m with data := some l } ∧ l.length = m.mem.length ∧
      (∀ a b, m.InR a b → read l (b + m.rows * a) = read m.mem (a + m.rows * b)) ∧
      ∀ k, m.length ≤ k → read l k = read m.mem k := by
  have hn := w.rows_nonneg
  have hsz := w.size
  let P : Int → Int → List α → Prop := fun i j l => l.length = m.mem.length ∧
    (∀ a b, m.InR a b → read l (a + m.rows * b) =
      if Swapped i j a b then read m.mem (b + m.rows * a) else read m.mem (a + m.rows * b)) ∧
    ∀ k, m.length ≤ k → read l k = read m.mem k
  obtain ⟨l, e, hl⟩ := loop_inv (a := 0) (b := m.rows) hn
    (fun l i => (upTo (i + 1) m.cols).foldlM (fun l j => swapCells l (j + m.rows * i) (i + m.rows * j)) l)
    (fun i l => P i (i + 1) l) (s := m.mem)
    ⟨rfl, fun a b h => by
      obtain ⟨h1, h2, h3, h4⟩ := h
      split_ifs with hs
      · unfold Swapped at hs
        have : a = b := by omega
        rw [this]
      · rfl, fun _ _ => rfl⟩
    (by
      intro i h0 h1 l hP
      obtain ⟨l', e, hP'⟩ := loop_inv (a := i + 1) (b := m.cols) (by omega)
        (fun l j => swapCells l (j + m.rows * i) (i + m.rows * j)) (fun j l => P i j l) (s := l) hP
        (by
          intro j hj0 hj1 l ⟨hlen, hc, hr⟩
          have b1 := idx_bounds (r := m.rows) (c := m.cols) (i := j) (j := i) (by omega) (by omega) h0 (by omega)
          have b2 := idx_bounds (r := m.rows) (c := m.cols) (i := i) (j := j) (by omega) (by omega) (by omega) hj1
          obtain ⟨l', e, hlen', hg⟩ := swapCells_read (l := l) (a := j + m.rows * i) (b := i + m.rows * j)
            b1.1 (by omega) b2.1 (by omega)
          refine ⟨l', e, by rw [hlen', hlen], ?_, ?_⟩
          · intro a b hab
            obtain ⟨ha0, ha1, hb0, hb1⟩ := hab
            rw [hg]
            by_cases e1 : a = j ∧ b = i
            · obtain ⟨rfl, rfl⟩ := e1
              rw [if_pos rfl, if_pos (by unfold Swapped; omega), hc _ _ ⟨by omega, by omega, by omega, by omega⟩,
                if_neg (by unfold Swapped; omega)]
            · rw [if_neg (fun h => e1 (idx_inj ha0 ha1 (by omega) (by omega) h))]
              by_cases e2 : a = i ∧ b = j
              · obtain ⟨rfl, rfl⟩ := e2
                rw [if_pos rfl, if_pos (by unfold Swapped; omega), hc _ _ ⟨by omega, by omega, by omega, by omega⟩,
                  if_neg (by unfold Swapped; omega)]
              · rw [if_neg (fun h => e2 (idx_inj ha0 ha1 (by omega) (by omega) h)), hc a b ⟨ha0, ha1, hb0, hb1⟩]
                congr 1
                apply propext; unfold Swapped; omega
          · intro k hk
            unfold Mat.length at hk
            rw [hg, if_neg (by omega), if_neg (by omega)]
            exact hr k hk)
      refine ⟨l', e, hP'.1, ?_, hP'.2.2⟩
      intro a b hab
      rw [hP'.2.1 a b hab]
      obtain ⟨ha0, ha1, hb0, hb1⟩ := hab
      by_cases hd : a = b
      · subst hd; simp
      · congr 1
        apply propext; unfold Swapped; omega)
  refine ⟨l, ?_, hl.1, ?_, hl.2.2⟩
  · unfold Mat.transposeSquare
    rw [e]; rfl
  · intro a b hab
    obtain ⟨ha0, ha1, hb0, hb1⟩ := hab
    rw [hl.2.1 b a ⟨hb0, by omega, ha0, by omega⟩, if_pos (by unfold Swapped; omega)]

theorem transposeCycles_spec (m : Mat α) (w : m.Wf) (hpos : 0 < m.length) (fuel : Nat) (hf : m.length ≤ fuel) :
    ∃ l, m.transposeCycles fuel = .ok { rows := m.cols, cols := m.rows, data := some l } ∧
      l.length = m.mem.length ∧
      (∀ a b, m.InR a b → read l (b + m.cols * a) = read m.mem (a + m.rows * b)) ∧
      ∀ k, m.length ≤ k → read l k = read m.mem k := by
  have hsz := w.size
  have hlen : m.length = m.rows * m.cols := rfl
  obtain ⟨R, hR⟩ : ∃ R : Nat, m.rows = R := ⟨m.rows.toNat, by have := w.rows_nonneg; omega⟩
  obtain ⟨C, hC⟩ : ∃ C : Nat, m.cols = C := ⟨m.cols.toNat, by have := w.cols_nonneg; omega⟩
  obtain ⟨N, hN⟩ : ∃ N : Nat, m.length - 1 = N := ⟨(m.length - 1).toNat, by omega⟩
  have hRC : C * R = N + 1 := by
    have : (C : Int) * R = N + 1 := by rw [← hC, ← hR, mul_comm]; omega
    exact_mod_cast this
  have hcop : Nat.Coprime C N := by
    have h1 : Nat.Coprime (C * R) N := by rw [hRC]; simp
    exact Nat.Coprime.coprime_mul_right h1
  obtain ⟨s, e, b, hall⟩ := cycles_spec N C m.mem hcop (by omega) fuel (by omega)
  refine ⟨s.2, ?_, b.lenL, ?_, ?_⟩
  · unfold Mat.transposeCycles
    rw [if_neg (by omega), hN]
    simp only [Int.toNat_natCast, hC] at e ⊢
    rw [e]; rfl
  · intro i j hij
    have hb := idx_bounds hij.1 hij.2.1 hij.2.2.1 hij.2.2.2
    have hb' := idx_bounds (r := m.cols) (c := m.rows) hij.2.2.1 hij.2.2.2 hij.1 hij.2.1
    obtain ⟨h1, h2, h3, h4⟩ := hij
    obtain ⟨i, rfl⟩ : ∃ c : Nat, i = c := ⟨i.toNat, by omega⟩
    obtain ⟨j, rfl⟩ : ∃ c : Nat, j = c := ⟨j.toNat, by omega⟩
    rw [hR] at hb hb' h2 ⊢
    rw [hC] at hb hb' h4 ⊢
    have hb1 : i + R * j < N + 1 := by
      rw [← hRC, mul_comm C R]; exact_mod_cast hb.2
    have hb2 : j + C * i < N + 1 := by
      rw [← hRC]; exact_mod_cast hb'.2
    have hkey : C * (i + R * j) = N * j + (j + C * i) := by
      calc C * (i + R * j) = C * i + (C * R) * j := by ring
        _ = C * i + (N + 1) * j := by rw [hRC]
        _ = N * j + (j + C * i) := by ring
    have main : s.2[j + C * i]? = m.mem[i + R * j]? := by
      by_cases hlast : i + R * j = N
      · have hlast' : j + C * i = N := by
          rw [hlast] at hkey
          have hj : j + 1 ≤ C := by omega
          -- `j + C i = N (C - j) ≥ N`
          have h5 : N * (j + 1) ≤ N * C := Nat.mul_le_mul_left _ hj
          have : C * N = N * C := mul_comm _ _
          have h6 : N * (j + 1) = N * j + N := by ring
          omega
        rw [hlast, hlast']
        apply b.fresh
        rw [List.getElem?_eq_none (by rw [b.lenV])]; simp
      · have hlt : i + R * j < N := by omega
        have hlt' : j + C * i < N := by
          rcases Nat.lt_or_ge (j + C * i) N with h | h
          · exact h
          · exfalso
            have heq : j + C * i = N := by omega
            rw [heq] at hkey
            have h7 : C * (i + R * j) = N * (j + 1) := by rw [hkey]; ring
            have h8 : R * (C * (i + R * j)) = N * (R * j + R) := by rw [h7]; ring
            have h9 : (N + 1) * (i + R * j) = N * (R * j + R) := by rw [← hRC, ← h8]; ring
            have hi : i + 1 ≤ R := by omega
            have h10 : N * (i + 1 + R * j) ≤ N * (R + R * j) := Nat.mul_le_mul_left _ (by omega)
            have h11 : N * (i + 1 + R * j) = N * (i + R * j) + N := by ring
            have h12 : N * (R + R * j) = N * (R * j + R) := by ring
            have h13 : (N + 1) * (i + R * j) = N * (i + R * j) + (i + R * j) := by ring
            omega
        have := b.done (i + R * j) hlt (hall _ hlt)
        have hs : sig N C (i + R * j) = j + C * i := by
          rw [sig, hkey, Nat.mul_add_mod, Nat.mod_eq_of_lt hlt']
        rw [hs] at this; exact this
    have e1 : ((j : Int) + C * i).toNat = j + C * i := by
      have : ((j : Int) + C * i) = ((j + C * i : Nat) : Int) := by push_cast; ring
      rw [this, Int.toNat_natCast]
    have e2 : ((i : Int) + R * j).toNat = i + R * j := by
      have : ((i : Int) + R * j) = ((i + R * j : Nat) : Int) := by push_cast; ring
      rw [this, Int.toNat_natCast]
    unfold read
    rw [if_pos hb'.1, if_pos hb.1, e1, e2, main]
  · intro k hk
    apply read_congr
    intro _
    apply b.fresh
    rw [List.getElem?_eq_none (by rw [b.lenV]; omega)]; simp

end Mx
end LDT

namespace LDT
namespace Mx
variable {α : Type}

theorem div_mod_block {i p ii : Int} (h0 : 0 ≤ ii) (h1 : ii < p) : (i * p + ii) / p = i ∧ (i * p + ii) % p = ii := by
  have hp : p ≠ 0 := by omega
  constructor
  · rw [add_comm, Int.add_mul_ediv_right _ _ hp, Int.ediv_eq_zero_of_lt h0 h1, zero_add]
  · rw [add_comm, Int.add_mul_emod_self_right, Int.emod_eq_of_lt h0 h1]

theorem block_lt {i m p ii : Int} (hi : i < m) (h0 : 0 ≤ ii) (h1 : ii < p) : i * p + ii < m * p := by
  have : (i + 1) * p ≤ m * p := mul_le_mul_of_nonneg_right (by omega) (by omega)
  have e : (i + 1) * p = i * p + p := by ring
  omega

/-- The Kronecker loops write every cell once. -/
theorem kronLoops_spec (m p n q : Int) (hm : 0 ≤ m) (hp : 0 ≤ p) (hn : 0 ≤ n) (hq : 0 ≤ q)
    (v : Int → Int → Int → Int → Outcome α) (vv : Int → Int → Int → Int → α)
    (hv : ∀ i ii j jj, 0 ≤ i → i < m → 0 ≤ ii → ii < p → 0 ≤ j → j < n → 0 ≤ jj → jj < q →
      v i ii j jj = .ok (vv i ii j jj))
    (storage : Mat α) (w : storage.Wf) (hr : storage.rows = m * p) (hc : storage.cols = n * q) :
    ∃ res r, kronLoops m p n q v storage = .ok (res, r) ∧ SameShape storage res ∧
      ∀ i ii j jj, 0 ≤ i → i < m → 0 ≤ ii → ii < p → 0 ≤ j → j < n → 0 ≤ jj → jj < q →
        res.get0 (i * p + ii) (j * q + jj) = .ok (vv i ii j jj) := by
  let V : Int → Int → α := fun r c => vv (r / p) (r % p) (c / q) (c % q)
  let Done : Int → Mat α → Prop := fun row d => SameShape storage d ∧
    ∀ r c, 0 ≤ r → r < row → 0 ≤ c → c < n * q → d.get0 r c = .ok (V r c)
  obtain ⟨⟨res, row⟩, e, hrow, hs, hdone⟩ := loop_inv (a := 0) (b := m) hm
    (fun s i => (upTo 0 p).foldlM (fun (s : Mat α × Int) ii => do
      let t ← (upTo 0 n).foldlM (fun t j => (upTo 0 q).foldlM (fun (t : Mat α × Int) jj => do
        let x ← v i ii j jj
        let d ← t.1.set0 s.2 t.2 x
        pure (d, t.2 + 1)) t) (s.1, (0 : Int))
      pure (t.1, s.2 + 1)) s)
    (fun i s => s.2 = i * p ∧ Done (i * p) s.1) (s := (storage, (0 : Int)))
    ⟨by simp, SameShape.refl _, fun r c h0 h1 => by simp at h1; omega⟩
    (by
      intro i hi0 hi1 s ⟨hs1, hs2⟩
      have hip : 0 ≤ i * p := mul_nonneg hi0 hp
      obtain ⟨s', e', h1', h2'⟩ := loop_inv (a := 0) (b := p) hp
        (fun (s : Mat α × Int) ii => do
          let t ← (upTo 0 n).foldlM (fun t j => (upTo 0 q).foldlM (fun (t : Mat α × Int) jj => do
            let x ← v i ii j jj
            let d ← t.1.set0 s.2 t.2 x
            pure (d, t.2 + 1)) t) (s.1, (0 : Int))
          pure (t.1, s.2 + 1))
        (fun ii s => s.2 = i * p + ii ∧ Done (i * p + ii) s.1) (s := s) ⟨by simpa using hs1, by simpa using hs2⟩
        (by
          intro ii hii0 hii1 s ⟨hrow, hsh, hdone⟩
          have hrl : i * p + ii < m * p := block_lt hi1 hii0 hii1
          let Line : Int → Mat α × Int → Prop := fun col t => t.2 = col ∧ SameShape storage t.1 ∧
            (∀ r c, 0 ≤ r → r < i * p + ii → 0 ≤ c → c < n * q → t.1.get0 r c = .ok (V r c)) ∧
            ∀ c, 0 ≤ c → c < col → t.1.get0 (i * p + ii) c = .ok (V (i * p + ii) c)
          obtain ⟨t, et, ht⟩ := loop_inv (a := 0) (b := n) hn
            (fun t j => (upTo 0 q).foldlM (fun (t : Mat α × Int) jj => do
              let x ← v i ii j jj
              let d ← t.1.set0 s.2 t.2 x
              pure (d, t.2 + 1)) t)
            (fun j t => Line (j * q) t) (s := (s.1, (0 : Int)))
            ⟨by simp, hsh, hdone, fun c h0 h1 => by simp at h1; omega⟩
            (by
              intro j hj0 hj1 t ht
              have hjq : 0 ≤ j * q := mul_nonneg hj0 hq
              obtain ⟨t', et', ht'⟩ := loop_inv (a := 0) (b := q) hq
                (fun (t : Mat α × Int) jj => do
                  let x ← v i ii j jj
                  let d ← t.1.set0 s.2 t.2 x
                  pure (d, t.2 + 1))
                (fun jj t => Line (j * q + jj) t) (s := t) (by simpa using ht)
                (by
                  intro jj hjj0 hjj1 t ⟨hcol, hsh, hd, hl⟩
                  have hcl : j * q + jj < n * q := block_lt hj1 hjj0 hjj1
                  have hin : t.1.InR s.2 t.2 := by
                    refine ⟨by omega, ?_, by omega, ?_⟩
                    · rw [hsh.rows, hr]; omega
                    · rw [hsh.cols, hc]; omega
                  obtain ⟨d, ed, sd, cd⟩ := set0_spec (hsh.wf w) hin (vv i ii j jj)
                  refine ⟨(d, t.2 + 1), ?_, by simp only [hcol]; ring, hsh.trans sd, ?_, ?_⟩
                  · rw [hv i ii j jj hi0 hi1 hii0 hii1 hj0 hj1 hjj0 hjj1, Outcome.ok_bind, ed]; rfl
                  · intro r c h0 h1 h2 h3
                    rw [cd r c ⟨h0, by rw [hsh.rows, hr]; omega, h2, by rw [hsh.cols, hc]; exact h3⟩,
                      if_neg (by omega)]
                    exact hd r c h0 h1 h2 h3
                  · intro c h0 h1
                    rw [cd _ c ⟨by omega, by rw [hsh.rows, hr]; omega, h0, by rw [hsh.cols, hc]; omega⟩]
                    split_ifs with hx
                    · obtain ⟨x1, x2⟩ := div_mod_block (i := i) hii0 hii1
                      obtain ⟨y1, y2⟩ := div_mod_block (i := j) hjj0 hjj1
                      have : c = j * q + jj := by omega
                      show _ = Outcome.ok (vv _ _ _ _)
                      rw [this, x1, x2, y1, y2]
                    · exact hl c h0 (by omega))
              refine ⟨t', et', ?_⟩
              have : j * q + q = (j + 1) * q := by ring
              rw [← this]; exact ht')
          obtain ⟨_, hsh', hd', hl'⟩ := ht
          refine ⟨(t.1, s.2 + 1), ?_, by simp only [hrow]; ring, hsh', ?_⟩
          · rw [et]; rfl
          · intro r c h0 h1 h2 h3
            by_cases hx : r = i * p + ii
            · rw [hx]; exact hl' c h2 h3
            · exact hd' r c h0 (by omega) h2 h3)
      refine ⟨s', e', ?_, ?_⟩
      · rw [h1']; ring
      · have : i * p + p = (i + 1) * p := by ring
        rw [← this]; exact h2')
  refine ⟨res, row, e, hs, ?_⟩
  intro i ii j jj h1 h2 h3 h4 h5 h6 h7 h8
  rw [hdone _ _ (by have := mul_nonneg h1 hp; omega) (block_lt h2 h3 h4) (by have := mul_nonneg h5 hq; omega)
    (block_lt h6 h7 h8)]
  obtain ⟨x1, x2⟩ := div_mod_block (i := i) h3 h4
  obtain ⟨y1, y2⟩ := div_mod_block (i := j) h7 h8
  show Outcome.ok (vv _ _ _ _) = _
  rw [x1, x2, y1, y2]

end Mx
end LDT

namespace LDT
namespace Mx
variable {α : Type} [CommRing α] [DecidableEq α]

theorem dotSum_spec {k : Int} (hk : 0 ≤ k) {x y : Int → Outcome α} {xv yv : Int → α}
    (hx : ∀ l, 0 ≤ l → l < k → x l = .ok (xv l)) (hy : ∀ l, 0 ≤ l → l < k → y l = .ok (yv l)) :
    dotSum k x y = .ok (∑ l ∈ Finset.range k.toNat, xv l * yv l) := by
  unfold dotSum
  obtain ⟨s, e, hs⟩ := loop_inv (a := 0) (b := k) hk
    (fun s l => do
      let p ← mulO (x l) (y l)
      pure (s + p))
    (fun c s => s = ∑ l ∈ Finset.range c.toNat, xv l * yv l) (s := (0 : α)) (by simp)
    (by
      intro c h0 h1 s hs
      refine ⟨s + xv c * yv c, ?_, ?_⟩
      · unfold mulO; rw [hx c h0 h1, Outcome.ok_bind, hy c h0 h1]; rfl
      · rw [hs, show (c + 1).toNat = c.toNat + 1 by omega, Finset.sum_range_succ, show ((c.toNat : Nat) : Int) = c by omega])
  rw [e, hs]

theorem blasWrite_spec (S : Mat α) (w : S.Wf) {i j : Int} (h : S.InR i j) (alpha beta t : α) :
    ∃ l, blasWrite alpha beta S.mem (i + S.rows * j) t = .ok l ∧ SameShape S { S with data := some l } ∧
      ∀ a b, S.InR a b → ({ S with data := some l } : Mat α).val a b =
        if a = i ∧ b = j then alpha * t + beta * S.val i j else S.val a b := by
  obtain ⟨m', e, s, _, c⟩ := set0_val w h (alpha * t + beta * S.val i j)
  have hm : ∃ l, write S.mem (i + S.rows * j) (alpha * t + beta * S.val i j) = .ok l ∧ m' = { S with data := some l } := by
    unfold Mat.set0 at e
    rw [write_ok_of _ (w.idx h).1 (w.idx h).2, Outcome.ok_bind] at e
    refine ⟨_, write_ok_of _ (w.idx h).1 (w.idx h).2, ?_⟩
    exact (Outcome.ok.inj e).symm
  obtain ⟨l, el, rfl⟩ := hm
  refine ⟨l, ?_, s, c⟩
  unfold blasWrite
  split_ifs with hb
  · rw [← el, hb]; simp
  · have : Mx.read S.mem (i + S.rows * j) = .ok (S.val i j) := get0_val w h
    rw [this, Outcome.ok_bind, el]

/-- The shape of all BLAS level-3 loops over the storage. -/
theorem blasFill_spec (S : Mat α) (ws : S.Wf) (bound : Int → Int)
    (hb : ∀ j, 0 ≤ j → j < S.cols → 0 ≤ bound j ∧ bound j ≤ S.rows) (alpha beta : α)
    (T : Int → Int → Outcome α) (Tv : Int → Int → α)
    (hT : ∀ i j, 0 ≤ j → j < S.cols → 0 ≤ i → i < bound j → T i j = .ok (Tv i j)) :
    ∃ l, (upTo 0 S.cols).foldlM (fun c j => (upTo 0 (bound j)).foldlM (fun c i => do
        let t ← T i j
        blasWrite alpha beta c (i + S.rows * j) t) c) S.mem = .ok l ∧
      SameShape S { S with data := some l } ∧
      ∀ a b, S.InR a b → ({ S with data := some l } : Mat α).val a b =
        if a < bound b then alpha * Tv a b + beta * S.val a b else S.val a b := by
  let P : (Int → Int → Prop) → List α → Prop := fun D l => SameShape S { S with data := some l } ∧
    ∀ a b, S.InR a b →
      (D a b → ({ S with data := some l } : Mat α).val a b = alpha * Tv a b + beta * S.val a b) ∧
      (¬ D a b → ({ S with data := some l } : Mat α).val a b = S.val a b)
  obtain ⟨l, e, hs, hl⟩ := loop_inv (a := 0) (b := S.cols) ws.cols_nonneg
    (fun c j => (upTo 0 (bound j)).foldlM (fun c i => do
        let t ← T i j
        blasWrite alpha beta c (i + S.rows * j) t) c)
    (fun j c => P (fun a b => b < j ∧ a < bound b) c) (s := S.mem)
    ⟨by rw [show ({ S with data := some S.mem } : Mat α) = S by rw [← ws.data_eq]]; exact SameShape.refl _,
      fun a b h => ⟨fun h' => by have := h.2.2.1; omega, fun _ => rfl⟩⟩
    (by
      intro j h0 h1 c hc
      obtain ⟨c', e', hc'⟩ := loop_inv (a := 0) (b := bound j) (hb j h0 h1).1
        (fun c i => do
          let t ← T i j
          blasWrite alpha beta c (i + S.rows * j) t)
        (fun i c => P (fun a b => (b < j ∧ a < bound b) ∨ (b = j ∧ a < i)) c) (s := c)
        ⟨hc.1, fun a b h => by
          obtain ⟨x, y⟩ := hc.2 a b h
          refine ⟨fun h' => x ?_, fun h' => y ?_⟩
          · rcases h' with h' | h'
            · exact h'
            · have := h.1; omega
          · intro h''; exact h' (Or.inl h'')⟩
        (by
          intro i hi0 hi1 c ⟨hs, hv⟩
          have hin : S.InR i j := ⟨hi0, by have := (hb j h0 h1).2; omega, h0, h1⟩
          obtain ⟨l, el, sl, vl⟩ := blasWrite_spec ({ S with data := some c } : Mat α) (hs.wf ws) (hs.inR.2 hin)
            alpha beta (Tv i j)
          refine ⟨l, ?_, hs.trans sl, ?_⟩
          · rw [hT i j h0 h1 hi0 hi1, Outcome.ok_bind]; exact el
          · intro a b hab
            have hvl := vl a b hab
            have hvij := (hv i j hin).2 (by omega)
            refine ⟨fun h' => ?_, fun h' => ?_⟩
            · by_cases hx : a = i ∧ b = j
              · rw [if_pos hx, hvij] at hvl
                rw [hx.1, hx.2] at hvl ⊢; exact hvl
              · rw [if_neg hx] at hvl
                rw [hvl]; exact (hv a b hab).1 (by omega)
            · rw [if_neg (by omega)] at hvl
              rw [hvl]; exact (hv a b hab).2 (by omega))
      refine ⟨c', e', hc'.1, fun a b hab => ?_⟩
      obtain ⟨x, y⟩ := hc'.2 a b hab
      refine ⟨fun h' => x ?_, fun h' => y ?_⟩
      · rcases lt_or_eq_of_le (show b ≤ j by omega) with h'' | h''
        · exact Or.inl ⟨h'', h'.2⟩
        · exact Or.inr ⟨h'', by rw [← h'']; exact h'.2⟩
      · intro h''
        apply h'
        rcases h'' with h'' | h''
        · exact ⟨by omega, h''.2⟩
        · exact ⟨by omega, by rw [h''.1]; exact h''.2⟩)
  refine ⟨l, e, hs, fun a b hab => ?_⟩
  have := hl a b hab
  split_ifs with hx
  · exact this.1 ⟨hab.2.2.2, hx⟩
  · exact this.2 (fun h => hx h.2)

end Mx
end LDT

namespace LDT
namespace Mx
variable {α : Type} [CommRing α] [DecidableEq α]

/-- Cell `(i, l)` of a matrix or of its transpose. -/
def opVal (t : Bool) (A : Mat α) (i l : Int) : α := if t then A.val l i else A.val i l

omit [DecidableEq α] in
theorem opGet_spec (t : Bool) (A : Mat α) (wa : A.Wf) {i l : Int} (h : if t then A.InR l i else A.InR i l) :
    opGet t A.mem A.rows i l = .ok (opVal t A i l) := by
  unfold opGet opVal
  cases t with
  | true => simp only [if_true] at h ⊢; exact get0_val wa h
  | false => simp only [Bool.false_eq_true, if_false] at h ⊢; exact get0_val wa h

theorem gemm_spec (ta tb : Bool) (A B S : Mat α) (wa : A.Wf) (wb : B.Wf) (ws : S.Wf) (K : Int) (hK : 0 ≤ K)
    (hA : if ta then A.rows = K ∧ A.cols = S.rows else A.rows = S.rows ∧ A.cols = K)
    (hB : if tb then B.rows = S.cols ∧ B.cols = K else B.rows = K ∧ B.cols = S.cols)
    (pA : 1 ≤ A.rows) (pB : 1 ≤ B.rows) (pS : 1 ≤ S.rows) (alpha beta : α) :
    ∃ l, gemm ta tb S.rows S.cols K alpha A.mem A.rows B.mem B.rows beta S.mem S.rows = .ok l ∧
      SameShape S { S with data := some l } ∧
      ∀ i j, S.InR i j → ({ S with data := some l } : Mat α).val i j =
        alpha * (∑ k ∈ Finset.range K.toNat, opVal ta A i k * opVal tb B k j) + beta * S.val i j := by
  obtain ⟨l, e, s, h⟩ := blasFill_spec S ws (fun _ => S.rows) (fun _ _ _ => ⟨ws.rows_nonneg, le_refl _⟩) alpha beta
    (fun i j => dotSum K (fun l => opGet ta A.mem A.rows i l) (fun l => opGet tb B.mem B.rows l j))
    (fun i j => ∑ k ∈ Finset.range K.toNat, opVal ta A i k * opVal tb B k j)
    (by
      intro i j hj0 hj1 hi0 hi1
      refine dotSum_spec hK (xv := fun k => opVal ta A i k) (yv := fun k => opVal tb B k j) (fun k h0 h1 => ?_) (fun k h0 h1 => ?_)
      · apply opGet_spec ta A wa
        cases ta with
        | true => simp only [if_true] at hA ⊢; exact ⟨h0, by omega, hi0, by omega⟩
        | false => simp only [Bool.false_eq_true, if_false] at hA ⊢; exact ⟨hi0, by omega, h0, by omega⟩
      · apply opGet_spec tb B wb
        cases tb with
        | true => simp only [if_true] at hB ⊢; exact ⟨hj0, by omega, h0, by omega⟩
        | false => simp only [Bool.false_eq_true, if_false] at hB ⊢; exact ⟨h0, by omega, hj0, by omega⟩)
  refine ⟨l, ?_, s, fun i j hij => ?_⟩
  · unfold gemm
    rw [if_neg]
    · exact e
    · rw [not_not]
      unfold ldOk
      refine ⟨?_, ?_, ?_⟩
      · cases ta <;> simp at hA ⊢ <;> omega
      · cases tb <;> simp at hB ⊢ <;> omega
      · simp; omega
  · rw [h i j hij, if_pos hij.2.1]

theorem syrkU_spec (ta : Bool) (A S : Mat α) (wa : A.Wf) (ws : S.Wf) (K : Int) (hK : 0 ≤ K) (hsq : S.cols = S.rows)
    (hA : if ta then A.rows = K ∧ A.cols = S.rows else A.rows = S.rows ∧ A.cols = K)
    (pA : 1 ≤ A.rows) (pS : 1 ≤ S.rows) (alpha beta : α) :
    ∃ l, syrkU ta S.rows K alpha A.mem A.rows beta S.mem S.rows = .ok l ∧
      SameShape S { S with data := some l } ∧
      ∀ i j, S.InR i j → ({ S with data := some l } : Mat α).val i j =
        if i ≤ j then alpha * (∑ k ∈ Finset.range K.toNat, opVal ta A i k * opVal ta A j k) + beta * S.val i j
        else S.val i j := by
  obtain ⟨l, e, s, h⟩ := blasFill_spec S ws (fun j => j + 1) (fun j _ _ => ⟨by omega, by omega⟩) alpha beta
    (fun i j => dotSum K (fun l => opGet ta A.mem A.rows i l) (fun l => opGet ta A.mem A.rows j l))
    (fun i j => ∑ k ∈ Finset.range K.toNat, opVal ta A i k * opVal ta A j k)
    (by
      intro i j hj0 hj1 hi0 hi1
      have key : ∀ i, 0 ≤ i → i < S.rows → ∀ k, 0 ≤ k → k < K → opGet ta A.mem A.rows i k = .ok (opVal ta A i k) := by
        intro i hi0 hi1 k h0 h1
        apply opGet_spec ta A wa
        cases ta with
        | true => simp only [if_true] at hA ⊢; exact ⟨h0, by omega, hi0, by omega⟩
        | false => simp only [Bool.false_eq_true, if_false] at hA ⊢; exact ⟨hi0, by omega, h0, by omega⟩
      exact dotSum_spec hK (xv := fun k => opVal ta A i k) (yv := fun k => opVal ta A j k)
        (fun k h0 h1 => key i hi0 (by omega) k h0 h1) (fun k h0 h1 => key j hj0 (by omega) k h0 h1))
  refine ⟨l, ?_, s, fun i j hij => ?_⟩
  · unfold syrkU
    rw [if_neg]
    · rw [hsq] at e; exact e
    · rw [not_not]
      unfold ldOk
      refine ⟨?_, ?_⟩
      · cases ta <;> simp at hA ⊢ <;> omega
      · simp; omega
  · rw [h i j hij]
    congr 1
    apply propext; omega

omit [CommRing α] [DecidableEq α] in
/-- Copying the upper triangle down. -/
theorem copyLower_spec [Zero α] (S : Mat α) (ws : S.Wf) (hsq : S.cols = S.rows) :
    ∃ res, copyLower S.rows S = .ok res ∧ SameShape S res ∧
      ∀ i j, S.InR i j → res.val i j = if i ≤ j then S.val i j else S.val j i := by
  let P : (Int → Int → Prop) → Mat α → Prop := fun D s => SameShape S s ∧
    ∀ a b, S.InR a b → (a ≤ b → s.val a b = S.val a b) ∧ (b < a → D a b → s.val a b = S.val b a)
  obtain ⟨res, e, hs, hv⟩ := loop_inv (a := 0) (b := S.rows) ws.rows_nonneg
    (fun s i => (upTo 0 S.rows).foldlM (fun s j =>
      if i ≤ j then .ok s
      else do
        let v ← s.get0 j i
        s.set0 i j v) s)
    (fun i s => P (fun a _ => a < i) s) (s := S)
    ⟨SameShape.refl _, fun a b h => ⟨fun _ => rfl, fun _ h' => by have := h.1; omega⟩⟩
    (by
      intro i h0 h1 s hP
      obtain ⟨s', e', hs', hv'⟩ := loop_inv (a := 0) (b := S.rows) ws.rows_nonneg
        (fun (s : Mat α) j =>
          if i ≤ j then .ok s
          else do
            let v ← s.get0 j i
            s.set0 i j v)
        (fun j s => P (fun a b => a < i ∨ (a = i ∧ b < j)) s) (s := s)
        ⟨hP.1, fun a b h => ⟨(hP.2 a b h).1, fun h' h'' => (hP.2 a b h).2 h' (by
          rcases h'' with h'' | h''
          · exact h''
          · have := h.2.2.1; omega)⟩⟩
        (by
          intro j hj0 hj1 s ⟨hs, hv⟩
          by_cases hij : i ≤ j
          · rw [if_pos hij]
            exact ⟨s, rfl, hs, fun a b h => ⟨(hv a b h).1, fun h' h'' => (hv a b h).2 h' (by omega)⟩⟩
          · rw [if_neg hij]
            have hin1 : S.InR j i := ⟨hj0, hj1, h0, by omega⟩
            have hin2 : S.InR i j := ⟨h0, h1, hj0, by omega⟩
            obtain ⟨s', e, ss, _, c⟩ := set0_val (hs.wf ws) (hs.inR.2 hin2) (s.val j i)
            refine ⟨s', by rw [get0_val (hs.wf ws) (hs.inR.2 hin1), Outcome.ok_bind, e], hs.trans ss, ?_⟩
            intro a b hab
            have hc := c a b (hs.inR.2 hab)
            refine ⟨fun h' => ?_, fun h' h'' => ?_⟩
            · rw [hc, if_neg (by omega)]; exact (hv a b hab).1 h'
            · rw [hc]
              split_ifs with hx
              · rw [(hv j i hin1).1 (by omega), hx.1, hx.2]
              · exact (hv a b hab).2 h' (by omega))
      exact ⟨s', e', hs', fun a b h => ⟨(hv' a b h).1, fun h' h'' => (hv' a b h).2 h' (by
        have := h.2.2.2; omega)⟩⟩)
  refine ⟨res, e, hs, fun i j hij => ?_⟩
  split_ifs with hx
  · exact (hv i j hij).1 hx
  · exact (hv i j hij).2 (by omega) hij.2.1

/-- Cell `(i, l)` of a symmetric matrix read from one triangle. -/
def symVal (upper : Bool) (A : Mat α) (i l : Int) : α :=
  if upper then (if i ≤ l then A.val i l else A.val l i) else (if l ≤ i then A.val i l else A.val l i)

omit [DecidableEq α] in
theorem symGet_spec (upper : Bool) (A : Mat α) (wa : A.Wf) (hsq : A.rows = A.cols) {i l : Int} (h : A.InR i l) :
    symGet upper A.mem A.rows i l = .ok (symVal upper A i l) := by
  have h' : A.InR l i := ⟨h.2.2.1, by rw [hsq]; exact h.2.2.2, h.1, by rw [← hsq]; exact h.2.1⟩
  unfold symGet symVal
  cases upper with
  | true =>
    simp only [if_true]
    split_ifs
    · exact get0_val wa h
    · exact get0_val wa h'
  | false =>
    simp only [Bool.false_eq_true, if_false]
    split_ifs
    · exact get0_val wa h
    · exact get0_val wa h'

end Mx
end LDT
