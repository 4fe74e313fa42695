import Verif.Lemmas.SurSys
import Verif.Props.MatrixCols
import Verif.Props.MatrixFill
/-!
# The search for significant coefficients
-/
namespace LDT
namespace Su
open Mx Matrix Ls
open Co (part)
open Arr (Val)

theorem upTo_fin (n : Nat) (b : Int) (h : b = n) : upTo 0 b = (List.finRange n).map (fun p : Fin n => ((p : Nat) : Int)) := by
  subst h
  refine List.ext_getElem? fun i => ?_
  rw [getElem?_upTo, List.getElem?_map]
  by_cases hi : i < n
  · rw [if_pos (by omega), List.getElem?_eq_getElem (by simpa using hi)]
    simp
  · rw [if_neg (by omega), List.getElem?_eq_none (by simpa using hi)]
    rfl

section
variable {K : Type} [Field K] [LinearOrder K] {N m k q : Nat}

/-- Not missing and not greater than the limit. -/
def Small (maxProb : K) (v : Val K) : Prop := ∃ p, v = some p ∧ p ≤ maxProb

instance (maxProb : K) (v : Val K) : Decidable (Small maxProb v) :=
  match v with
  | none => .isFalse (by rintro ⟨p, h, -⟩; simp at h)
  | some p => if h : p ≤ maxProb then .isTrue ⟨p, rfl, h⟩ else .isFalse (by rintro ⟨q, h1, h2⟩; cases h1; exact h h2)

theorem significant_spec (maxProb : K) {prob : Mat (Val K)} {P : Fin (m * k) → Val K} (km : Int) (hkm : km = ((m * k : Nat) : Int))
    (h : ∀ p : Fin (m * k), Mx.read prob.mem ((p : Nat) : Int) = .ok (P p)) :
    significant prob km maxProb = .ok (((List.finRange (m * k)).filter fun p => decide (Small maxProb (P p))).map
      fun p : Fin (m * k) => ((p : Nat) : Int)) := by
  unfold significant
  rw [upTo_fin _ _ hkm]
  have gen : ∀ (l : List (Fin (m * k))) (acc : List Int),
      (l.map (fun p : Fin (m * k) => ((p : Nat) : Int))).foldlM (fun (l : List Int) j => do
        let p ← Mx.read prob.mem j
        match p with
        | none => pure l
        | some p => if p ≤ maxProb then pure (l ++ [j]) else pure l) acc =
      .ok (acc ++ (l.filter fun p => decide (Small maxProb (P p))).map fun p : Fin (m * k) => ((p : Nat) : Int)) := by
    intro l
    induction l with
    | nil => intro acc; simp [Outcome.pure_eq]
    | cons a l ih =>
      intro acc
      rw [List.map_cons, List.foldlM_cons, h a]
      simp only [Outcome.ok_bind]
      cases hP : P a with
      | none =>
        simp only [Outcome.pure_eq, Outcome.ok_bind]
        refine (ih _).trans ?_
        rw [List.filter_cons_of_neg]
        rw [hP]
        simp [Small]
      | some v =>
        by_cases hv : v ≤ maxProb
        · simp only [hv, if_true, Outcome.pure_eq, Outcome.ok_bind]
          refine (ih _).trans ?_
          rw [List.filter_cons_of_pos (by rw [hP]; simpa [Small] using hv)]
          simp
        · simp only [hv, if_false, Outcome.pure_eq, Outcome.ok_bind]
          refine (ih _).trans ?_
          rw [List.filter_cons_of_neg (by rw [hP]; simpa [Small] using hv)]
  refine (gen (List.finRange (m * k)) []).trans ?_
  rw [List.nil_append]

theorem selection_spec {R : Mat K} (hR : R.data.isSome ∧ (m * k) * (m * k) ≤ R.mem.length) (km : Int)
    (hkm : km = ((m * k : Nat) : Int)) (sig : List (Fin (m * k))) (hl : sig.length ≤ m * k) :
    ∃ R', selection R km (sig.map fun p : Fin (m * k) => ((p : Nat) : Int)) = .ok R' ∧
      IsM R' (places fun a : Fin sig.length => sig[a]) ∧ (R'.data.isSome ∧ (m * k) * (m * k) ≤ R'.mem.length) := by
  have sz : Sized ({ R with rows := km, cols := ((sig.map fun p : Fin (m * k) => ((p : Nat) : Int)).length : Int) } : Mat K)
      (m * k) sig.length := by
    refine sized_of_mem hR.1 (le_trans (Nat.mul_le_mul_left _ hl) hR.2) _ _ hkm (by simp)
  obtain ⟨r, e1, s1, c1⟩ := setValue_spec sz.wf (0 : K)
  have sz1 := sz.same s1
  obtain ⟨R', e2, ⟨s2, c2⟩⟩ := count_inv (sig.map fun p : Fin (m * k) => ((p : Nat) : Int))
    (fun (r : Mat K) ji => r.set0 ji.2 ji.1 1)
    (fun t r' => SameShape r r' ∧ ∀ (i : Fin (m * k)) (a : Fin sig.length),
      r'.val (i : Nat) (a : Nat) = if (a : Nat) < t ∧ i = sig[a] then 1 else 0) (s := r)
    ⟨SameShape.refl _, by
      intro i a
      have := c1 _ _ (sz.inR i a)
      rw [get_val (sz1.wf) (sz1.inR i a)] at this
      simpa using this⟩ (by
      intro t i ht s ⟨hs, hv⟩
      have tl : t < sig.length := by
        by_contra hc
        rw [List.getElem?_eq_none (by simp; omega)] at ht
        simp at ht
      have hi : i = ((sig[t] : Fin (m * k)) : Nat) := by
        rw [List.getElem?_map, List.getElem?_eq_getElem tl] at ht
        simpa using ht.symm
      have szs := sz1.same hs
      have inr : s.InR i (t : Int) := by rw [hi]; exact szs.inR sig[t] ⟨t, tl⟩
      obtain ⟨s', e, sh, wf, c⟩ := set0_val szs.wf inr (1 : K)
      refine ⟨s', e, hs.trans sh, fun p a => ?_⟩
      rw [c _ _ (szs.inR p a), hv, hi]
      by_cases h1 : (a : Nat) = t
      · have ha : a = ⟨t, tl⟩ := Fin.ext h1
        subst ha
        by_cases h2 : p = sig[t]
        · subst h2; simp
        · have : ¬ ((p : Nat) : Int) = ((sig[t] : Fin (m * k)) : Nat) := by
            intro h; exact h2 (Fin.ext (by exact_mod_cast h))
          simp [this, h2]
      · have h3 : ¬ ((a : Nat) : Int) = (t : Int) := by exact_mod_cast h1
        have h4 : ((a : Nat) < t + 1) ↔ ((a : Nat) < t) := by omega
        simp only [h3, and_false, if_false, h4])
  refine ⟨R', ?_, ⟨sz1.same s2, ?_⟩, mem_same (s1.trans s2) hR⟩
  · unfold selection
    rw [e1]
    exact e2
  · intro i a
    rw [c2]
    unfold places
    have : (a : Nat) < (sig.map fun p : Fin (m * k) => ((p : Nat) : Int)).length := by simp
    simp [this]

/-- Placing different coefficients loses none. -/
theorem places_rank {s : Fin q → Fin (m * k)} (hs : Function.Injective s) : FullRank (places (K := K) s) := by
  intro b h
  funext a
  have := h (s a)
  simp only [places] at this
  rw [Finset.sum_eq_single a] at this
  · simpa using this
  · intro b' _ hb'
    rw [if_neg (fun h => hb' (hs h).symm), zero_mul]
  · intro h; exact absurd (Finset.mem_univ _) h

/-- Where nothing is placed, the coefficient and its variance are zero. -/
theorem places_coef (s : Fin q → Fin (m * k)) (g : Fin q → K) (j : Fin m) (l : Fin k) (h : ∀ a, s a ≠ number j l) :
    coef (places (K := K) s) g l j = 0 := by
  unfold coef places
  refine Finset.sum_eq_zero fun a _ => ?_
  rw [if_neg (fun e => h a e.symm), zero_mul]

theorem places_at {s : Fin q → Fin (m * k)} (hs : Function.Injective s) (g : Fin q → K) (j : Fin m) (l : Fin k) (a : Fin q)
    (h : s a = number j l) : coef (places (K := K) s) g l j = g a := by
  unfold coef places
  rw [Finset.sum_eq_single a]
  · rw [if_pos h.symm, one_mul]
  · intro b _ hb
    rw [if_neg (fun e => hb (hs (by rw [← e, h]))), zero_mul]
  · intro h; exact absurd (Finset.mem_univ _) h

theorem places_var (s : Fin q → Fin (m * k)) (V : Matrix (Fin q) (Fin q) K) (p : Fin (m * k)) (h : ∀ a, s a ≠ p) :
    (places (K := K) s * V * (places (K := K) s)ᵀ) p p = 0 := by
  rw [mul_apply]
  refine Finset.sum_eq_zero fun b _ => ?_
  have : (places (K := K) s)ᵀ b p = 0 := by
    rw [transpose_apply]; unfold places; rw [if_neg (fun e => h b e.symm)]
  rw [this, mul_zero]

theorem places_var_at {s : Fin q → Fin (m * k)} (hs : Function.Injective s) (V : Matrix (Fin q) (Fin q) K) (a : Fin q) :
    (places (K := K) s * V * (places (K := K) s)ᵀ) (s a) (s a) = V a a := by
  have h1 : ∀ c, (places (K := K) s) (s a) c = if c = a then 1 else 0 := by
    intro c; unfold places
    by_cases hc : c = a
    · subst hc; simp
    · rw [if_neg (fun e => hc (hs e).symm), if_neg hc]
  rw [mul_apply]
  simp only [transpose_apply, h1]
  rw [Finset.sum_eq_single a]
  · rw [if_pos rfl, mul_one, mul_apply, Finset.sum_eq_single a]
    · rw [h1, if_pos rfl, one_mul]
    · intro b _ hb; rw [h1, if_neg hb, zero_mul]
    · intro h; exact absurd (Finset.mem_univ _) h
  · intro b _ hb; rw [if_neg hb, mul_zero]
  · intro h; exact absurd (Finset.mem_univ _) h


/-- The numbers in memory, by the place of the coefficient. -/
theorem Holds.at {β : Type} {A : Mat β} {f : Fin k → Fin m → β} (h : Holds A f) (p : Fin (m * k)) :
    Mx.read A.mem ((p : Nat) : Int) = .ok (f p.modNat p.divNat) := by
  have := h.read p.modNat p.divNat
  rwa [← fin_split] at this

/-- The coefficient at this place has a probability not greater than the limit. -/
def SmallAt (maxProb : K) (d : Det K) (p : Fin (m * k)) : Prop :=
  ∃ v, d.prob.get (p.modNat : Nat) (p.divNat : Nat) = .ok (some v) ∧ v ≤ maxProb

theorem smallAt_iff {f : Fns K} {B : Matrix (Fin k) (Fin m) K} {V : Fin k → Fin m → K} {d : Det K} (h : Details f N B V d)
    (maxProb : K) (p : Fin (m * k)) :
    SmallAt maxProb d p ↔ Small maxProb (pvalue f N (quotient (B p.modNat p.divNat) (f.sqrt (V p.modNat p.divNat)))) := by
  unfold SmallAt Small
  rw [h.prob.val]
  simp only [Outcome.ok.injEq]

/-- What holds in every round: only the coefficients in `T` may differ from zero. -/
structure St (f : Fns K) (Y : Matrix (Fin N) (Fin m) K) (X : Matrix (Fin N) (Fin k) K) (T : Finset (Fin (m * k))) (R : Mat K) (e : Est K)
    (d : Det K) : Prop where
  room : Room e N m k
  mem : R.data.isSome ∧ (m * k) * (m * k) ≤ R.mem.length
  val : ∃ (B V : Matrix (Fin k) (Fin m) K), IsM e.beta B ∧ IsM e.residVar (cov (left Y X B)) ∧ Details f N B V d ∧
    ∀ p : Fin (m * k), p ∉ T → B p.modNat p.divNat = 0 ∧ V p.modNat p.divNat = 0

/-- What holds after a round: the restricted estimation for the coefficients at the places `s`. -/
structure Round (f : Fns K) (Y : Matrix (Fin N) (Fin m) K) (X : Matrix (Fin N) (Fin k) K) (T : Finset (Fin (m * k))) (R : Mat K)
    (e : Est K) (d : Det K) (q : Nat) (s : Fin q → Fin (m * k)) (W : Matrix (Fin m) (Fin m) K) : Prop where
  pos : 0 < q
  mono : StrictMono s
  image : ∀ p, p ∈ T ↔ ∃ a, s a = p
  weights : PosDef W ∧ ∃ B, W * cov (left Y X B) = 1
  restr : IsM R (places (K := K) s)
  re : Re e Y X (places (K := K) s) W
  det : Details f N (coef (places (K := K) s) fun p => gammaR W X (places (K := K) s) Y p 0)
    (fun l j => (places (K := K) s * (gramR W X (places (K := K) s))⁻¹ * (places (K := K) s)ᵀ) (number j l) (number j l)) d

/-- If all are significant, nothing is done. -/
theorem searchLoop_stop (lu : List K → List K) (f : Fns K) (hf : f.sqrt 0 = some 0) {y x : Mat K} {Y : Matrix (Fin N) (Fin m) K}
    {X : Matrix (Fin N) (Fin k) K} (hy : y.cols = m) (hx : x.cols = k) (maxProb : K) (work : List K) (std : Mat K) (n : Nat)
    (iter : Int) (T : Finset (Fin (m * k))) (R : Mat K) (e : Est K) (d : Det K) (h : St f Y X T R e d)
    (ha : ∀ p ∈ T, SmallAt maxProb d p) :
    searchLoop lu f y x maxProb work std (n + 1) iter T.card R e d = .ok (iter, R, e, d) := by
  have c1 : (k : Int) * m = ((m * k : Nat) : Int) := by push_cast; ring
  obtain ⟨B, V, hb, hr, hd, hz⟩ := h.val
  set P : Fin (m * k) → Val K := fun p => pvalue f N (quotient (B p.modNat p.divNat) (f.sqrt (V p.modNat p.divNat))) with hP
  have sg := significant_spec maxProb (P := P) ((k : Int) * m) c1 (fun p => hd.prob.at p)
  have hnd : ((List.finRange (m * k)).filter (fun p => decide (Small maxProb (P p)))).Nodup := (List.nodup_finRange _).filter _
  have hl : ((List.finRange (m * k)).filter (fun p => decide (Small maxProb (P p)))).length = T.card := by
    rw [← List.toFinset_card_of_nodup hnd]
    congr 1
    ext p
    rw [List.mem_toFinset, List.mem_filter]
    constructor
    · rintro ⟨-, hp⟩
      by_contra hc
      obtain ⟨h1, h2⟩ := hz p hc
      have hp' : Small maxProb (P p) := by simpa using hp
      rw [hP] at hp'
      beta_reduce at hp'
      rw [h1, h2, hf] at hp'
      obtain ⟨v, hv, -⟩ := hp'
      simp [quotient, pvalue] at hv
    · intro hp
      refine ⟨List.mem_finRange _, ?_⟩
      have := (smallAt_iff hd maxProb p).1 (ha p hp)
      simpa [hP] using this
  rw [searchLoop, hx, hy, sg]
  simp only [Outcome.ok_bind, List.length_map, hl, if_true]
  rfl

variable [IsStrictOrderedRing K]

theorem searchLoop_spec (lu : List K → List K) (f : Fns K) (hf : f.sqrt 0 = some 0) {y x : Mat K} {Y : Matrix (Fin N) (Fin m) K}
    {X : Matrix (Fin N) (Fin k) K} (hy : IsM y Y) (hx : IsM x X) (pN : 0 < N) (pm : 0 < m) (pk : 0 < k) (hX : FullRank X)
    (hE : ∀ B, FullRank (left Y X B)) (maxProb : K) (work : List K) (std : Mat K) (hstd : Sized std k m)
    (hre : ∀ q : Nat, q ≤ m * k → (k : Int) * k + ((k : Int) * m) * ((k : Int) * m) + (q : Int) * ((k : Int) * m) +
      ((N : Int) * m) * ((k : Int) * m) + ((N : Int) * m) * q + (q : Int) * 1 ≤ work.length)
    (hvar : ∀ q : Nat, q ≤ m * k → ((k : Int) * m) * q + ((k : Int) * m) * ((k : Int) * m) ≤ work.length) (n : Nat) :
    ∀ (iter : Int) (T : Finset (Fin (m * k))) (R : Mat K) (e : Est K) (d : Det K), St f Y X T R e d →
    (searchLoop lu f y x maxProb work std n iter T.card R e d = .throws ∧
      ((∀ p : Fin (m * k), ¬ SmallAt maxProb d p) ∨ ∃ T' R' e' d' q s W, Round f Y X T' R' e' d' q s W ∧
        ∀ p : Fin (m * k), ¬ SmallAt maxProb d' p)) ∨
    ∃ iter' T' R' e' d', searchLoop lu f y x maxProb work std n iter T.card R e d = .ok (iter', R', e', d') ∧
      St f Y X T' R' e' d' ∧ T' ⊆ T ∧ iter ≤ iter' ∧ iter' ≤ iter + n ∧ iter' + T'.card ≤ iter + T.card ∧
      (iter' = iter → R' = R ∧ e' = e ∧ d' = d ∧ T' = T) ∧
      (iter < iter' → ∃ q s W, Round f Y X T' R' e' d' q s W) ∧
      (iter' < iter + n → ∀ p ∈ T', SmallAt maxProb d' p) := by
  have c1 : (k : Int) * m = ((m * k : Nat) : Int) := by push_cast; ring
  induction n with
  | zero =>
    intro iter T R e d h
    exact Or.inr ⟨iter, T, R, e, d, rfl, h, Finset.Subset.refl _, le_rfl, by simp, le_rfl, fun _ => ⟨rfl, rfl, rfl, rfl⟩,
      fun h => absurd h (lt_irrefl _), fun h => by simp at h⟩
  | succ n ih =>
    intro iter T R e d h
    obtain ⟨B, V, hb, hr, hd, hz⟩ := h.val
    set P : Fin (m * k) → Val K := fun p => pvalue f N (quotient (B p.modNat p.divNat) (f.sqrt (V p.modNat p.divNat))) with hP
    have sg := significant_spec maxProb (P := P) ((k : Int) * m) c1 (fun p => hd.prob.at p)
    set L := (List.finRange (m * k)).filter (fun p => decide (Small maxProb (P p))) with hL
    have hnd : L.Nodup := (List.nodup_finRange _).filter _
    have hmem : ∀ p, p ∈ L ↔ SmallAt maxProb d p := by
      intro p
      rw [hL, List.mem_filter, smallAt_iff hd]
      simp [hP]
    set T' : Finset (Fin (m * k)) := L.toFinset with hT'
    have hcard : T'.card = L.length := List.toFinset_card_of_nodup hnd
    have hsub : T' ⊆ T := by
      intro p hp
      by_contra hc
      obtain ⟨h1, h2⟩ := hz p hc
      have hp' : SmallAt maxProb d p := (hmem p).1 (List.mem_toFinset.1 hp)
      rw [smallAt_iff hd, h1, h2, hf] at hp'
      obtain ⟨v, hv, -⟩ := hp'
      simp [quotient, pvalue] at hv
    have start : searchLoop lu f y x maxProb work std (n + 1) iter T.card R e d =
        (if (((L.map fun p : Fin (m * k) => ((p : Nat) : Int)).length : Nat) : Int) = T.card then pure (iter, R, e, d)
        else if (L.map fun p : Fin (m * k) => ((p : Nat) : Int)).length = 0 then .throws
        else do
          let R ← selection R ((k : Int) * m) (L.map fun p : Fin (m * k) => ((p : Nat) : Int))
          let e ← estimR lu y x R work e
          let d ← probs f y x (some R) work e std d
          searchLoop lu f y x maxProb work std n (iter + 1) (L.map fun p : Fin (m * k) => ((p : Nat) : Int)).length R e d) := by
      rw [searchLoop, hx.cols, hy.cols, sg]
      rfl
    rw [List.length_map] at start
    by_cases h1 : ((L.length : Nat) : Int) = T.card
    · have hTT : T' = T := Finset.eq_of_subset_of_card_le hsub (by rw [hcard]; exact_mod_cast h1.ge)
      refine Or.inr ⟨iter, T, R, e, d, by rw [start, if_pos h1]; rfl, h, Finset.Subset.refl _, le_rfl, by omega, le_rfl,
        fun _ => ⟨rfl, rfl, rfl, rfl⟩, fun h => absurd h (lt_irrefl _), fun _ p hp => ?_⟩
      rw [← hTT] at hp
      exact (hmem p).1 (List.mem_toFinset.1 hp)
    · by_cases h2 : L.length = 0
      · refine Or.inl ⟨by rw [start, if_neg h1, if_pos h2], Or.inl fun p hp => ?_⟩
        have := (hmem p).2 hp
        rw [List.length_eq_zero_iff.1 h2] at this
        simp at this
      · have pq : 0 < L.length := Nat.pos_of_ne_zero h2
        have hq : L.length ≤ m * k := by
          have := List.length_filter_le (fun p => decide (Small maxProb (P p))) (List.finRange (m * k))
          rwa [List.length_finRange] at this
        obtain ⟨R', e1, i1, m1⟩ := selection_spec h.mem ((k : Int) * m) c1 L hq
        set s : Fin L.length → Fin (m * k) := fun a => L[a] with hs
        have mono : StrictMono s := by
          intro a b hab
          have hp : L.Pairwise (· < ·) := (List.pairwise_lt_finRange _).filter _
          exact List.pairwise_iff_getElem.1 hp a b a.2 b.2 hab
        have inj := mono.injective
        have rk : FullRank (places (K := K) s) := places_rank inj
        have pd := (posDef_cov pN (left Y X B)).2 (hE B)
        have hW := pd.inv
        have hg := gramR_det_ne hW hX rk
        obtain ⟨e', e2, re⟩ := (estimR_core lu hy hx i1 pN pm pk pq hq work (hre _ hq) e h.room hr pd.det_ne).1 hg
        have hWc : (cov (left Y X B))⁻¹ * cov (left Y X B) = 1 := Matrix.nonsing_inv_mul _ (isUnit_iff_ne_zero.2 pd.det_ne)
        generalize (cov (left Y X B))⁻¹ = W at *
        have hdr : DRoom std d m k := hd.room hstd
        obtain ⟨v, e3, i3⟩ := variances_re hy.cols hx.cols pm pk pq work (hvar _ hq) e' i1 re.gammaVar re.gamma hstd
        have hbeta := re.beta
        rw [coef_eq] at hbeta
        obtain ⟨d', e4, h4⟩ := probs_of_variances f hy.rows (some R') work e' hbeta hdr v e3 i3
        have hcov := re.residVar
        rw [coef_eq, ← left_eq, ← cov_eq] at hcov
        have himg : ∀ p, p ∈ T' ↔ ∃ a, s a = p := by
          intro p
          rw [hT', List.mem_toFinset, List.mem_iff_getElem]
          constructor
          · rintro ⟨i, hi, e⟩; exact ⟨⟨i, hi⟩, e⟩
          · rintro ⟨a, e⟩; exact ⟨a, a.2, e⟩
        have rd : Round f Y X T' R' e' d' L.length s W := ⟨pq, mono, himg, ⟨hW, B, hWc⟩, i1, re, h4⟩
        have st : St f Y X T' R' e' d' := by
          refine ⟨re.room, m1, _, _, hbeta, hcov, h4, fun p hp => ?_⟩
          have hp' : ∀ a, s a ≠ p := fun a e => hp ((himg p).2 ⟨a, e⟩)
          constructor
          · exact places_coef s _ _ _ (fun a => by rw [← number_split]; exact hp' a)
          · have := places_var s (gramR W X (places (K := K) s))⁻¹ p hp'
            beta_reduce
            rw [← number_split]; exact this
        have next : searchLoop lu f y x maxProb work std (n + 1) iter T.card R e d =
            searchLoop lu f y x maxProb work std n (iter + 1) T'.card R' e' d' := by
          rw [start, if_neg h1, if_neg h2, e1, hcard]
          simp only [Outcome.ok_bind, e2, e4]
        have hlt : T'.card < T.card := by
          have := Finset.card_le_card hsub
          rw [hcard] at this ⊢
          have h1' : ¬ L.length = T.card := by exact_mod_cast h1
          omega
        rcases ih (iter + 1) T' R' e' d' st with ⟨ht, h5⟩ | ⟨it, T2, R2, e2', d2, hok, hst, hs2, a1, a2, a3, a4, a5, a6⟩
        · refine Or.inl ⟨by rw [next, ht], Or.inr ?_⟩
          rcases h5 with h5 | h5
          · exact ⟨T', R', e', d', _, s, W, rd, h5⟩
          · exact h5
        · refine Or.inr ⟨it, T2, R2, e2', d2, by rw [next, hok], hst, hs2.trans hsub, by omega, by push_cast; omega, by omega,
            fun h => by omega, fun _ => ?_, fun h => a6 (by push_cast at h; omega)⟩
          by_cases h6 : iter + 1 < it
          · exact a5 h6
          · obtain ⟨q1, q2, q3, q4⟩ := a4 (by omega)
            subst q1 q2 q3 q4
            exact ⟨_, s, W, rd⟩

end
end Su
end LDT
