import Verif.Model.Varma
import Verif.Spec.Varma
import Verif.Lemmas.Poly
namespace LDT
namespace Mx
open Poly
variable {K : Type}

theorem get0_val [Zero K] {m : Mat K} (w : m.Wf) {i j : Int} (h : m.InR i j) : m.get0 i j = .ok (m.val i j) := by
  unfold Mat.get0 Mat.val
  exact read_coef (w.idx h).1 (w.idx h).2

theorem get_val [Zero K] {m : Mat K} (w : m.Wf) {i j : Int} (h : m.InR i j) : m.get i j = .ok (m.val i j) := by
  rw [get_eq_get0 w h, get0_val w h]

theorem set0_val [Zero K] {m : Mat K} (w : m.Wf) {i j : Int} (h : m.InR i j) (v : K) :
    ∃ m', m.set0 i j v = .ok m' ∧ SameShape m m' ∧ m'.Wf ∧
      ∀ i' j', m.InR i' j' → m'.val i' j' = if i' = i ∧ j' = j then v else m.val i' j' := by
  obtain ⟨m', e, s, c⟩ := set0_spec w h v
  refine ⟨m', e, s, s.wf w, fun i' j' h' => ?_⟩
  have := c i' j' h'
  rw [get0_val (s.wf w) (s.inR.2 h'), get0_val w h'] at this
  split_ifs at this ⊢ <;> exact Outcome.ok.inj this

end Mx

namespace Varma
open Mx Poly
variable {K : Type}

theorem lagLoop_eq (s : Int) (hs : 1 ≤ s) (fuel : Nat) : ∀ (n : Nat) (i : Int), n ≤ fuel →
    lagLoop s (i + s * n - s) fuel i = (List.range n).map (fun (k : Nat) => i + s * k) := by
  induction fuel with
  | zero => intro n i h; have : n = 0 := by omega
            subst this; rfl
  | succ fuel ih =>
    intro n i h
    unfold lagLoop
    cases n with
    | zero => rw [if_neg (by simp; omega)]; rfl
    | succ n =>
      have hn : 0 ≤ s * n := mul_nonneg (by omega) (by omega)
      have e : i + s * ((n + 1 : Nat) : Int) - s = i + s * n := by push_cast; ring
      rw [e, if_pos (by omega)]
      have := ih n (i + s) (by omega)
      rw [show i + s + s * (n : Int) - s = i + s * n by ring] at this
      rw [this, List.range_succ_eq_map, List.map_cons, List.map_map]
      congr 1
      · simp
      · apply List.map_congr_left; intro k _; simp; ring

theorem expandPoly_eq {p P s : Int} (hp : 0 ≤ p) (hP : 0 ≤ P) (hs : P ≠ 0 → 0 < s) :
    expandPoly p P s = upTo 1 (p + 1) ++ (List.range P.toNat).map (fun (k : Nat) => s + s * k) := by
  unfold expandPoly
  by_cases h0 : p = 0 ∧ P = 0
  · rw [if_pos h0, h0.1, h0.2]; rfl
  rw [if_neg h0]
  congr 1
  by_cases hP0 : P = 0
  · subst hP0
    by_cases h : s > 0
    · rw [if_pos h]; simp [lagLoop]
    · rw [if_neg h]; rfl
  · have hs' := hs hP0
    rw [if_pos hs']
    have hle : P.toNat ≤ (s * P).toNat := by
      have : 1 * P ≤ s * P := mul_le_mul_of_nonneg_right (by omega) hP
      omega
    have := lagLoop_eq s (by omega) (s * P).toNat P.toNat s hle
    rw [Int.toNat_of_nonneg hP, show s + s * P - s = s * P by ring] at this
    exact this

theorem setColumn0_spec [Zero K] {m : Mat K} (w : m.Wf) {j : Int} (hj0 : 0 ≤ j) (hj : j < m.cols) (v : K) :
    ∃ m', setColumn0 m j v = .ok m' ∧ SameShape m m' ∧ m'.Wf ∧
      ∀ i' j', m.InR i' j' → m'.val i' j' = if j' = j then v else m.val i' j' := by
  obtain ⟨m', e, s, w', c⟩ := loop_inv (a := 0) (b := m.rows) w.rows_nonneg (fun m i => m.set0 i j v)
    (fun i t => SameShape m t ∧ t.Wf ∧ ∀ i' j', m.InR i' j' → t.val i' j' = if i' < i ∧ j' = j then v else m.val i' j')
    (s := m) ⟨SameShape.refl m, w, fun i' j' h => by rw [if_neg]; intro h'; have := h.1; omega⟩
    (by
      intro i h0 h1 t ⟨s, wt, c⟩
      have hin : m.InR i j := ⟨h0, h1, hj0, hj⟩
      obtain ⟨t', e', s', w', c'⟩ := set0_val wt (s.inR.2 hin) v
      refine ⟨t', e', s.trans s', w', fun i' j' h => ?_⟩
      rw [c' i' j' (s.inR.2 h), c i' j' h]
      split_ifs <;> first | rfl | omega)
  refine ⟨m', e, s, w', fun i' j' h => ?_⟩
  rw [c i' j' h]
  have := h.2.1
  split_ifs <;> first | rfl | omega

/-- What `Difference` leaves in its storage. -/
theorem difference_spec [Ring K] {poly : List Int} {y storage : Mat K} (hp : poly ≠ []) (wy : y.Wf)
    (ws : storage.Wf) (hr : storage.rows = y.rows) (hc : y.cols - (poly.length - 1) ≤ storage.cols)
    (hn : (poly.length : Int) - 1 ≤ y.cols) :
    ∃ d, difference poly y storage = .ok d ∧ SameShape storage d ∧ d.Wf ∧
      ∀ j t, storage.InR j t → d.val j t = if t < y.cols - (poly.length - 1) then
        ∑ f ∈ Finset.range poly.length, ((coef poly f : Int) : K) * y.val j (t + (poly.length - 1) - f)
        else storage.val j t := by
  have hl : 1 ≤ (poly.length : Int) := by
    have : poly.length ≠ 0 := by simpa using hp
    omega
  unfold difference
  simp only
  generalize hg : (poly.length : Int) - 1 = g at *
  obtain ⟨d, e, s, wd, c⟩ := loop_inv (a := 0) (b := y.cols) wy.cols_nonneg
    (fun st i =>
      if i < g then pure st
      else do
        let st ← setColumn0 st (i - g) 0
        (upTo 0 y.rows).foldlM (fun st j =>
          (upTo 0 poly.length).foldlM (fun st f => do
            let old ← st.get0 j (i - g)
            let p ← Mx.read poly f
            let v ← y.get0 j (i - f)
            st.set0 j (i - g) (old + (p : K) * v)) st) st)
    (fun i d => SameShape storage d ∧ d.Wf ∧ ∀ j t, storage.InR j t → d.val j t = if t < i - g then
        ∑ f ∈ Finset.range poly.length, ((coef poly f : Int) : K) * y.val j (t + g - f)
        else storage.val j t) (s := storage) ⟨SameShape.refl _, ws, fun j t h => by
          rw [if_neg]; have := h.2.2.1; omega⟩ (by
      intro i hi0 hi st ⟨ss, wst, cst⟩
      by_cases hig : i < g
      · rw [if_pos hig]
        refine ⟨st, rfl, ss, wst, fun j t h => ?_⟩
        have h3 := h.2.2.1
        rw [cst j t h, if_neg (by omega), if_neg (by omega)]
      rw [if_neg hig]
      have hcol : i - g < st.cols := by rw [ss.cols]; omega
      obtain ⟨s1, e1, ss1, w1, c1⟩ := setColumn0_spec wst (j := i - g) (by omega) hcol (0 : K)
      rw [e1, Outcome.ok_bind]
      obtain ⟨s2, e2, ss2, w2, c2⟩ := loop_inv (a := 0) (b := y.rows) wy.rows_nonneg
        (fun st j => (upTo 0 poly.length).foldlM (fun st f => do
            let old ← st.get0 j (i - g)
            let p ← Mx.read poly f
            let v ← y.get0 j (i - f)
            st.set0 j (i - g) (old + (p : K) * v)) st)
        (fun r u => SameShape s1 u ∧ u.Wf ∧ ∀ j t, s1.InR j t → u.val j t = if t = i - g ∧ j < r then
          ∑ f ∈ Finset.range poly.length, ((coef poly f : Int) : K) * y.val j (i - f) else s1.val j t)
        (s := s1) ⟨SameShape.refl _, w1, fun j t h => by rw [if_neg]; have := h.1; omega⟩ (by
          intro r hr0 hr1 u ⟨su, wu, cu⟩
          have hin : s1.InR r (i - g) := ⟨hr0, by rw [ss1.rows, ss.rows, hr]; exact hr1, by omega,
            by rw [ss1.cols]; exact hcol⟩
          obtain ⟨v, ev, sv, wv, cv⟩ := loop_inv (a := 0) (b := (poly.length : Int)) (by omega)
            (fun st f => do
              let old ← st.get0 r (i - g)
              let p ← Mx.read poly f
              let v ← y.get0 r (i - f)
              st.set0 r (i - g) (old + (p : K) * v))
            (fun f v => SameShape u v ∧ v.Wf ∧ ∀ j t, s1.InR j t → v.val j t = if t = i - g ∧ j = r then
              ∑ f ∈ Finset.range f.toNat, ((coef poly f : Int) : K) * y.val r (i - f) else u.val j t)
            (s := u) ⟨SameShape.refl _, wu, fun j t h => by
              by_cases h' : t = i - g ∧ j = r
              · rw [if_pos h', cu j t h, if_neg (by omega), c1 j t (ss1.inR.1 h), if_pos h'.1]; simp
              · rw [if_neg h']⟩ (by
              intro f hf0 hf v ⟨sv, wv, cv⟩
              have hinv : v.InR r (i - g) := sv.inR.2 (su.inR.2 hin)
              have hiny : y.InR r (i - f) := ⟨hr0, hr1, by omega, by omega⟩
              rw [get0_val wv hinv, Outcome.ok_bind, read_coef hf0 (by omega), Outcome.ok_bind, get0_val wy hiny,
                Outcome.ok_bind]
              obtain ⟨v', e', s', w', c'⟩ := set0_val wv hinv
                (v.val r (i - g) + ((coef poly f.toNat : Int) : K) * y.val r (i - f))
              refine ⟨v', e', sv.trans s', w', fun j t h => ?_⟩
              rw [c' j t (sv.inR.2 (su.inR.2 h))]
              by_cases h' : t = i - g ∧ j = r
              · rw [if_pos ⟨h'.2, h'.1⟩, if_pos h', sum_range_succ_int _ _ hf0, cv r (i - g) hin,
                  if_pos ⟨rfl, rfl⟩, Int.toNat_of_nonneg hf0]
              · rw [if_neg (fun h2 => h' ⟨h2.2, h2.1⟩), if_neg h', cv j t h, if_neg h'])
          refine ⟨v, ev, su.trans sv, wv, fun j t h => ?_⟩
          rw [cv j t h, Int.toNat_natCast]
          by_cases h' : t = i - g ∧ j = r
          · rw [if_pos h', if_pos (by omega), h'.2]
          · rw [if_neg h', cu j t h]
            split_ifs <;> first | rfl | omega)
      refine ⟨s2, e2, (ss.trans ss1).trans ss2, w2, fun j t h => ?_⟩
      have h1 : s1.InR j t := ss1.inR.2 (ss.inR.2 h)
      have hjr : j < y.rows := by rw [← hr]; exact h.2.1
      rw [c2 j t h1, c1 j t (ss.inR.2 h), cst j t h]
      by_cases ht : t = i - g
      · rw [if_pos ⟨ht, hjr⟩, if_pos (by omega), ht, show i - g + g = i by ring]
      · rw [if_neg (fun h' => ht h'.1), if_neg ht]
        split_ifs <;> first | rfl | omega)
  exact ⟨d, e, s, wd, c⟩

/-- What `UnDiferences` leaves: the first columns unchanged, and every later column solves the difference
equation. -/
theorem undifference_spec [Ring K] {poly : List Int} {st : Mat K} (hp : poly ≠ []) (ws : st.Wf) :
    ∃ d, undifference poly st = .ok d ∧ SameShape st d ∧ d.Wf ∧
      ∀ i j, st.InR i j → d.val i j = st.val i j - if j < (poly.length : Int) - 1 then 0 else
        ∑ k ∈ Finset.range (poly.length - 1), ((coef poly (k + 1) : Int) : K) * d.val i (j - (k + 1)) := by
  have hl : 1 ≤ (poly.length : Int) := by
    have : poly.length ≠ 0 := by simpa using hp
    omega
  unfold undifference
  simp only
  generalize hg : (poly.length : Int) - 1 = h at *
  have hg' : poly.length - 1 = h.toNat := by omega
  rw [hg']
  obtain ⟨d, e, s, wd, c1, c2⟩ := loop_inv (a := 0) (b := st.cols) ws.cols_nonneg
    (fun st j =>
      if j < h then pure st
      else
        (upTo 1 (h + 1)).foldlM (fun st k => do
          let d ← Mx.read poly k
          (upTo 0 st.rows).foldlM (fun st i => do
            let x ← st.get0 i j
            let z ← st.get0 i (j - k)
            st.set0 i j (x - (d : K) * z)) st) st)
    (fun q u => SameShape st u ∧ u.Wf ∧
      (∀ i j, st.InR i j → j < q → u.val i j = st.val i j - if j < h then 0 else
        ∑ k ∈ Finset.range h.toNat, ((coef poly (k + 1) : Int) : K) * u.val i (j - (k + 1))) ∧
      (∀ i j, st.InR i j → q ≤ j → u.val i j = st.val i j))
    (s := st) ⟨SameShape.refl _, ws, fun i j hin hj => by have := hin.2.2.1; omega, fun i j _ _ => rfl⟩ (by
      intro q hq0 hq u ⟨su, wu, cu, cu'⟩
      by_cases hqh : q < h
      · rw [if_pos hqh]
        refine ⟨u, rfl, su, wu, fun i j hin hj => ?_, fun i j hin hj => cu' i j hin (by omega)⟩
        by_cases hjq : j < q
        · exact cu i j hin hjq
        · rw [cu' i j hin (by omega), if_pos (by omega), sub_zero]
      rw [if_neg hqh]
      obtain ⟨v, ev, sv, wv, cv⟩ := loop_inv (a := 1) (b := h + 1) (by omega)
        (fun st k => do
          let d ← Mx.read poly k
          (upTo 0 st.rows).foldlM (fun st i => do
            let x ← st.get0 i q
            let z ← st.get0 i (q - k)
            st.set0 i q (x - (d : K) * z)) st)
        (fun k v => SameShape u v ∧ v.Wf ∧ ∀ i j, st.InR i j → v.val i j = if j = q then
            st.val i q - ∑ x ∈ Finset.range (k - 1).toNat, ((coef poly (x + 1) : Int) : K) * u.val i (q - (x + 1))
            else u.val i j)
        (s := u) ⟨SameShape.refl _, wu, fun i j hin => by
          split_ifs with hj
          · rw [hj] at hin ⊢; rw [cu' i q hin le_rfl]; simp
          · rfl⟩ (by
          intro k hk0 hk v ⟨sv, wv, cv⟩
          rw [read_coef (by omega) (by omega), Outcome.ok_bind]
          have hrows : v.rows = st.rows := by rw [sv.rows, su.rows]
          obtain ⟨x, ex, sx, wx, cx⟩ := loop_inv (a := 0) (b := v.rows) wv.rows_nonneg
            (fun st i => do
              let x ← st.get0 i q
              let z ← st.get0 i (q - k)
              st.set0 i q (x - ((coef poly k.toNat : Int) : K) * z))
            (fun r x => SameShape v x ∧ x.Wf ∧ ∀ i j, st.InR i j → x.val i j = if j = q ∧ i < r then
              v.val i q - ((coef poly k.toNat : Int) : K) * v.val i (q - k) else v.val i j)
            (s := v) ⟨SameShape.refl _, wv, fun i j hin => by rw [if_neg]; have := hin.1; omega⟩ (by
              intro r hr0 hr x ⟨sx, wx, cx⟩
              have i1 : st.InR r q := ⟨hr0, by omega, hq0, hq⟩
              have i2 : st.InR r (q - k) := ⟨hr0, by omega, by omega, by omega⟩
              have j1 : x.InR r q := sx.inR.2 (sv.inR.2 (su.inR.2 i1))
              have j2 : x.InR r (q - k) := sx.inR.2 (sv.inR.2 (su.inR.2 i2))
              rw [get0_val wx j1, Outcome.ok_bind, get0_val wx j2, Outcome.ok_bind]
              obtain ⟨x', e', s', w', c'⟩ := set0_val wx j1
                (x.val r q - ((coef poly k.toNat : Int) : K) * x.val r (q - k))
              refine ⟨x', e', sx.trans s', w', fun i j hin => ?_⟩
              rw [c' i j (sx.inR.2 (sv.inR.2 (su.inR.2 hin))), cx r q i1, cx r (q - k) i2, cx i j hin,
                if_neg (show ¬ (q = q ∧ r < r) by omega), if_neg (show ¬ (q - k = q ∧ r < r) by omega)]
              by_cases hij : i = r ∧ j = q
              · rw [if_pos hij, if_pos (by omega), hij.1]
              · rw [if_neg hij]
                split_ifs <;> first | rfl | omega)
          refine ⟨x, ex, sv.trans sx, wx, fun i j hin => ?_⟩
          rw [cx i j hin]
          have hir : i < v.rows := by rw [hrows]; exact hin.2.1
          by_cases hj : j = q
          · subst hj
            have i2 : st.InR i (j - k) := ⟨hin.1, hin.2.1, by omega, by omega⟩
            rw [if_pos ⟨rfl, hir⟩, if_pos rfl, show k + 1 - 1 = (k - 1) + 1 by ring,
              sum_range_succ_int _ _ (by omega), cv i j hin, if_pos rfl, cv i (j - k) i2, if_neg (by omega)]
            have e1 : (k - 1).toNat + 1 = k.toNat := by omega
            have e2 : (((k - 1).toNat : Int) + 1) = k := by omega
            rw [e1, e2, sub_sub]
          · rw [if_neg (fun h' => hj h'.1), if_neg hj, cv i j hin, if_neg hj])
      refine ⟨v, ev, su.trans sv, wv, fun i j hin hj => ?_, fun i j hin hj => ?_⟩
      · have hpast : ∀ k ∈ Finset.range h.toNat, h ≤ j → v.val i (j - ((k : Int) + 1)) = u.val i (j - (k + 1)) := by
          intro k hk hjh
          have hk' := Finset.mem_range.1 hk
          rw [cv i _ ⟨hin.1, hin.2.1, by omega, by have := hin.2.2.2; omega⟩, if_neg (by omega)]
        rw [cv i j hin]
        by_cases hjq : j = q
        · subst hjq
          rw [if_pos rfl, if_neg hqh, show (h + 1 - 1).toNat = h.toNat by omega]
          congr 1
          refine Finset.sum_congr rfl (fun k hk => ?_)
          rw [hpast k hk (by omega)]
        · rw [if_neg hjq, cu i j hin (by omega)]
          congr 1
          split_ifs with hjh
          · rfl
          · refine Finset.sum_congr rfl (fun k hk => ?_)
            rw [hpast k hk (by omega)]
      · rw [cv i j hin, if_neg (by omega), cu' i j hin (by omega)])
  exact ⟨d, e, s, wd, fun i j hin => c1 i j hin hin.2.2.2⟩

end Varma
end LDT
