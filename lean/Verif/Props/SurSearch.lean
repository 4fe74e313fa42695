import Verif.Lemmas.SurSearch
import Verif.Props.SurR
/-!
# C90: the search for significant coefficients
-/
namespace LDT
namespace Su
open Mx Matrix Ls
open Co (part)
open Arr (Val)

section
variable {K : Type} [Field K] [LinearOrder K] [IsStrictOrderedRing K] {N m k q : Nat}

theorem make_search (a b : Bool) {n : Int} (h : n ≠ 0) : Opts.make a b n = ⟨true, true, n⟩ := by unfold Opts.make; rw [if_pos h]

theorem significant_iff (f : Fns K) (N : Int) (maxProb b v : K) :
    Significant f N maxProb b v ↔ Small maxProb (pvalue f N (quotient b (f.sqrt v))) := by
  unfold Significant Small
  constructor
  · rintro ⟨s, t, p, h, hp⟩
    refine ⟨p, ?_, hp⟩
    cases h with
    | regular s h1 h2 => rw [h1]; simp [quotient, h2, pvalue]
    | certain h1 h2 => rw [h1]; simp [quotient, h2, pvalue]
  · rintro ⟨p, h, hp⟩
    cases hs : f.sqrt v with
    | none => rw [hs] at h; simp [quotient, pvalue] at h
    | some s =>
      rw [hs] at h
      by_cases h0 : s = 0
      · subst h0
        by_cases hb : b = 0
        · simp [quotient, pvalue, hb] at h
        · simp [quotient, pvalue, hb] at h
          subst h
          exact ⟨_, _, _, .certain hs hb, hp⟩
      · simp [quotient, pvalue, h0] at h
        subst h
        exact ⟨_, _, _, .regular s hs h0, hp⟩

theorem Round.selected {f : Fns K} {Y : Matrix (Fin N) (Fin m) K} {X : Matrix (Fin N) (Fin k) K} {T : Finset (Fin (m * k))} {R : Mat K}
    {e : Est K} {d : Det K} {s : Fin q → Fin (m * k)} {W : Matrix (Fin m) (Fin m) K} (h : Round f Y X T R e d q s W)
    (hX : FullRank X) : Selected Y X s (fun p => gammaR W X (places (K := K) s) Y p 0) W (information W X (places (K := K) s))⁻¹ := by
  have rk : FullRank (places (K := K) s) := places_rank h.mono.injective
  have best := best_system h.weights.1 hX rk Y
  refine ⟨h.pos, h.mono, h.weights, fun g' => (best g').1, fun g' hg => (best g').2 (hg _), ?_⟩
  rw [information_eq]
  exact Matrix.nonsing_inv_mul _ (isUnit_iff_ne_zero.2 (gramR_det_ne h.weights.1 hX rk))

theorem badR_search {R : Mat K} (hr : R.rows = (k : Int) * m) (hc : R.cols = (k : Int) * m) (o : Opts) :
    badR o ((k : Int) * m) (some R) = false := by
  unfold badR
  simp [hr, hc]

/-- Everything about the search. -/
theorem search_all (lu : List K → List K) (f : Fns K) (hf : f.sqrt 0 = some 0) {N0 m0 k0 : Int} {y x Rs : Mat K}
    {Y : Matrix (Fin N) (Fin m) K} {X : Matrix (Fin N) (Fin k) K} (hy : IsM y Y) (hx : IsM x X) (pN : 0 < N) (pm : 0 < m)
    (pk : 0 < k) (hN : (N : Int) ≤ N0) (hm : (m : Int) ≤ m0) (hk : (k : Int) ≤ k0) (a b : Bool) (n : Int) (hn : 0 < n) (maxProb : K)
    (hp : maxProb ≠ 0) (hR : Rs.Wf ∧ Rs.rows = (k : Int) * m ∧ Rs.cols = (k : Int) * m) (storage work : List K)
    (hs : storageSize (Opts.make a b n) N0 m0 k0 ≤ storage.length)
    (hw : workSize (Opts.make a b n) N0 m0 k0 ≤ work.length) (hX : FullRank X)
    (hE : ∀ B, LeastSquares Y X B → FullRank (left Y X B)) :
    ∃ (B0 : Matrix (Fin k) (Fin m) K) (G : Matrix (Fin k) (Fin k) K), LeastSquares Y X B0 ∧ G * (Xᵀ * X) = 1 ∧
    ((sur lu f (Opts.make a b n) N0 m0 k0 y x (some Rs) maxProb storage work = .throws ∧
      ((∀ l j, ¬ Significant f N maxProb (B0 l j) (cov (left Y X B0) j j * G l l)) ∨
        ∃ q s g W V, Selected (q := q) Y X s g W V ∧
          ∀ l j, ¬ Significant f N maxProb (coef (places s) g l j) (spread (places s) V l j))) ∨
    (∃ r : Res K, sur lu f (Opts.make a b n) N0 m0 k0 y x (some Rs) maxProb storage work = .ok r ∧
      0 ≤ r.iter ∧ r.iter ≤ n ∧
      (r.iter = 0 → Fitted r.est Y X B0 ∧ (∀ l j, Significant f N maxProb (B0 l j) (cov (left Y X B0) j j * G l l)) ∧
        (∃ V : Matrix (Fin (m * k)) (Fin (m * k)) K, IsM r.est.gammaVar V ∧
          ∀ j l j' l', V (number j l) (number j' l') = cov (left Y X B0) j j' * G l l') ∧
        (∃ d, r.details = some d ∧ Report f N B0 (fun _ _ => 0) d) ∧
        ∃ gf, r.fit = some gf ∧ GoodFit f.fcdf Y (left Y X B0) k gf) ∧
      (0 < r.iter → ∃ q s g W V, Selected (q := q) Y X s g W V ∧ r.iter + q ≤ m * k ∧
        IsM r.est.gamma (fun p _ => g p : Matrix (Fin q) (Fin 1) K) ∧ IsM r.est.gammaVar V ∧ Fitted r.est Y X (coef (places s) g) ∧
        (∃ R', r.R = some R' ∧ IsM R' (places s)) ∧
        (∃ d, r.details = some d ∧ Report f N (coef (places s) g) (spread (places s) V) d) ∧
        (∃ gf, r.fit = some gf ∧ GoodFit f.fcdf Y (left Y X (coef (places s) g)) k gf) ∧
        (r.iter < n → ∀ l j, (∃ a, s a = number j l) → Significant f N maxProb (coef (places s) g l j) (spread (places s) V l j)) ∧
        (∀ l j, (∀ a, s a ≠ number j l) → coef (places s) g l j = 0 ∧ spread (places s) V l j = 0))))
    ∧ ((∀ l j, Significant f N maxProb (B0 l j) (cov (left Y X B0) j j * G l l)) →
      ∃ r : Res K, sur lu f (Opts.make a b n) N0 m0 k0 y x (some Rs) maxProb storage work = .ok r ∧ r.iter = 0) := by
  rw [make_search a b hn.ne'] at hs hw ⊢
  have en := enough ⟨true, true, n⟩ pm pk storage work
    (le_trans (storageSize_mono _ (by positivity) (by positivity) (by positivity) hN hm hk) hs)
    (le_trans (workSize_mono _ (by positivity) (by positivity) (by positivity) hN hm hk) hw)
  have c1 : (k : Int) * m = ((m * k : Nat) : Int) := by push_cast; ring
  have pmk : 0 < m * k := Nat.mul_pos pm pk
  obtain ⟨ro, rg, rv⟩ := layout_room storage en.room
  have hd : (Xᵀ * X).det ≠ 0 := by
    have := gram_det_ne hX (PosDef.one (K := K) (ι := Fin N)); rwa [Matrix.mul_one] at this
  obtain ⟨e0, e1, u⟩ := (estimUn_core lu hy hx pN pm pk work en.un _ ro rg rv true).1 hd
  have hls : LeastSquares Y X ((Xᵀ * X)⁻¹ * (Xᵀ * Y)) := (leastSquares_iff hX _).2 rfl
  have hfl := fullRank_left (Y := Y) hX (hE _ hls)
  generalize hB : (Xᵀ * X)⁻¹ * (Xᵀ * Y) = B0 at u hls
  have hc : covM (Y - X * B0) = cov (left Y X B0) := by rw [cov_eq, left_eq]
  have ures := u.residVar
  rw [hc] at ures
  have hgv := u.gammaVar rfl
  rw [hc] at hgv
  have hG : (Xᵀ * X)⁻¹ * (Xᵀ * X) = 1 := Matrix.nonsing_inv_mul _ (isUnit_iff_ne_zero.2 hd)
  refine ⟨B0, (Xᵀ * X)⁻¹, hls, hG, ?_⟩
  generalize hGe : (Xᵀ * X)⁻¹ = G at hgv
  have dr := detPlaces_room (N := N) (m := m) (k := k) storage (en.det rfl)
  obtain ⟨v, e3, i3⟩ := variances_un (y := y) (x := x) work e0 hgv dr.place
  obtain ⟨d0, e4, h4⟩ := probs_of_variances f hy.rows none work e0 u.beta dr v e3 i3
  have e5' : (fun l j => kronM (cov (left Y X B0)) G (number j l) (number j l) : Matrix (Fin k) (Fin m) K) =
      fun l j => cov (left Y X B0) j j * G l l := by
    funext l j; exact kronM_number _ _ _ _ _ _
  rw [e5'] at h4
  obtain ⟨R0, e5, s5, z5⟩ := setValue_spec hR.1 (0 : K)
  have rsz : Sized Rs (m * k) (m * k) := ⟨hR.1, by rw [hR.2.1, c1], by rw [hR.2.2, c1]⟩
  have st : St f Y X (Finset.univ : Finset (Fin (m * k))) R0 e0 d0 :=
    ⟨u.room, mem_of_sized (rsz.same s5), B0, _, u.beta, ures, h4, fun p hp => absurd (Finset.mem_univ p) hp⟩
  have start := sur_start lu f ⟨true, true, n⟩ (N0 := N0) (m0 := m0) (k0 := k0) ⟨hy.rows, hy.cols⟩ hx.cols pN pm pk hN hm hk
    (some Rs) maxProb (badR_search hR.2.1 hR.2.2 _) (Or.inr hp) storage work
  have es : estimate lu f ⟨true, true, n⟩ y x (some Rs) maxProb storage work = (do
      let r ← searchLoop lu f y x maxProb work (stdPlace N m k storage) n.toNat 0 (Finset.univ : Finset (Fin (m * k))).card R0 e0 d0
      pure (r.1, some r.2.1, r.2.2.1)) := by
    unfold estimate estimSearch
    have hcd : ((Finset.univ : Finset (Fin (m * k))).card : Int) = (k : Int) * m := by rw [Finset.card_univ, Fintype.card_fin, c1]
    simp only [hy.rows, hy.cols, hx.cols, if_true, if_neg hn.ne', e1, Outcome.ok_bind, e4, e5, hcd]
  have small0 : ∀ l j, Significant f N maxProb (B0 l j) (cov (left Y X B0) j j * G l l) ↔ SmallAt maxProb d0 (number j l) := by
    intro l j
    rw [significant_iff, smallAt_iff h4, divNat_number, modNat_number]
  have smallR : ∀ {T R e d q s W}, Round f Y X T R e d q s W → ∀ l j,
      (Significant f N maxProb (coef (places s) (fun p => gammaR W X (places (K := K) s) Y p 0) l j)
        (spread (places s) (information W X (places (K := K) s))⁻¹ l j) ↔ SmallAt maxProb d (number j l)) := by
    intro T R e d q s W h l j
    rw [significant_iff, smallAt_iff h.det, divNat_number, modNat_number, information_eq, ← spread_eq]
  have nn : (n.toNat : Int) = n := Int.toNat_of_nonneg hn.le
  have both : ((∀ l j, Significant f N maxProb (B0 l j) (cov (left Y X B0) j j * G l l)) →
      searchLoop lu f y x maxProb work (stdPlace N m k storage) n.toNat 0 (Finset.univ : Finset (Fin (m * k))).card R0 e0 d0 =
        .ok (0, R0, e0, d0)) := by
    intro hall
    obtain ⟨n', hn'⟩ : ∃ n', n.toNat = n' + 1 := ⟨n.toNat - 1, by omega⟩
    rw [hn']
    refine searchLoop_stop lu f hf hy.cols hx.cols maxProb work _ n' 0 _ R0 e0 d0 st fun p _ => ?_
    have := (small0 p.modNat p.divNat).1 (hall _ _)
    rwa [← number_split] at this
  rcases searchLoop_spec lu f hf hy hx pN pm pk hX hfl maxProb work (stdPlace N m k storage) dr.place (en.re rfl) (en.var rfl) n.toNat 0
    _ R0 e0 d0 st with ⟨ht, hnone⟩ | ⟨it, T, R', e', d', hok, hst, -, a1, a2, a3, a4, a5, a6⟩
  · refine ⟨Or.inl ⟨?_, ?_⟩, fun hall => by rw [both hall] at ht; simp at ht⟩
    · rw [start, es, ht]; rfl
    · rcases hnone with h | ⟨T', R', e', d', q, s, W, hr, h⟩
      · exact Or.inl fun l j hh => h _ ((small0 l j).1 hh)
      · exact Or.inr ⟨q, s, _, W, _, hr.selected hX, fun l j hh => h _ ((smallR hr l j).1 hh)⟩
  · rw [es, hok] at start
    simp only [Outcome.ok_bind, Outcome.pure_eq] at start
    obtain ⟨B, V, hb, hres, -, -⟩ := hst.val
    have e6 := (logLDet_spec hres pm work en.mm).1 (Or.inr ((posDef_cov pN _).2 (hfl B)))
    simp only [Outcome.ok_bind, e6, if_true] at start
    rcases eq_or_lt_of_le a1 with hz | hz
    · obtain ⟨q1, q2, q3, q4⟩ := a4 hz.symm
      subst q1 q2 q3 q4
      have rz : IsM R' (0 : Matrix (Fin (m * k)) (Fin (m * k)) K) :=
        isM_of_get (rsz.same s5) fun i j => by rw [z5 _ _ (rsz.inR i j)]; rfl
      obtain ⟨v', e7, i7⟩ := variances_re hy.cols hx.cols pm pk pmk work (en.var rfl _ le_rfl) e' rz hgv u.gamma dr.place
      obtain ⟨df, e8, h8⟩ := probs_of_variances f hy.rows (some R') work e' u.beta dr v' e7 i7
      have hres0 : IsM e'.resid (left Y X B0) := by rw [left_eq]; exact u.resid
      obtain ⟨gf, e9, h9⟩ := goodness_spec f.fcdf hy hres0 pm pk (fullRank_lt hX pm hfl)
      rw [e8] at start
      simp only [Outcome.ok_bind, e9] at start
      refine ⟨Or.inr ⟨_, start, hz.le, by rw [← hz]; exact hn.le, fun _ => ⟨⟨u.beta, ?_, ?_, ures⟩, fun l j => ?_,
        ⟨_, hgv, fun j l j' l' => kronM_number _ _ _ _ _ _⟩, ⟨df, rfl, ?_⟩, gf, rfl, h9⟩, fun h => ?_⟩,
        fun _ => ⟨_, start, hz.symm⟩⟩
      · have e : X * B0 = (fun i j => ∑ l, X i l * B0 l j : Matrix (Fin N) (Fin m) K) := by funext i j; rw [mul_apply]
        rw [← e]; exact u.yhat
      · rw [left_eq]; exact u.resid
      · rw [small0]
        exact a6 (by omega) _ (Finset.mem_univ _)
      · have hz : (fun l j => ((0 : Matrix (Fin (m * k)) (Fin (m * k)) K) * kronM (cov (left Y X B0)) G * (0 : Matrix (Fin (m * k)) (Fin (m * k)) K)ᵀ)
            (number j l) (number j l) : Matrix (Fin k) (Fin m) K) = fun _ _ => 0 := by
          funext l j; rw [Matrix.zero_mul, Matrix.zero_mul]; rfl
        rw [hz] at h8
        exact h8.report
      · exact absurd h (by simp only [← hz]; exact lt_irrefl _)
    · obtain ⟨q, s, W, rd⟩ := a5 hz
      have hinj := rd.mono.injective
      have hq : q ≤ m * k := by
        have := Fintype.card_le_of_injective s hinj
        simpa using this
      obtain ⟨v', e7, i7⟩ := variances_re hy.cols hx.cols pm pk rd.pos work (en.var rfl _ hq) e' rd.restr rd.re.gammaVar rd.re.gamma
        dr.place
      have hbeta := rd.re.beta
      rw [coef_eq] at hbeta
      obtain ⟨df, e8, h8⟩ := probs_of_variances f hy.rows (some R') work e' hbeta dr v' e7 i7
      obtain ⟨gf, e9, h9⟩ := goodness_spec f.fcdf hy rd.re.fitted.resid pm pk (fullRank_lt hX pm hfl)
      rw [e8] at start
      simp only [Outcome.ok_bind, e9] at start
      have hle : it ≤ n := by rw [nn] at a2; omega
      refine ⟨Or.inr ⟨_, start, a1, hle, fun h => absurd hz (by rw [show it = 0 from h]; exact lt_irrefl _), fun _ => ?_⟩, fun hall => by
        have hh := hok.symm.trans (both hall)
        have : it = 0 := by simpa using congrArg (fun o => match o with | .ok r => r.1 | _ => 0) hh
        exact absurd hz (by omega)⟩
      have hT : T.card = q := by
        have : T = Finset.univ.image s := by
          ext p; rw [rd.image]; simp
        rw [this, Finset.card_image_of_injective _ hinj, Finset.card_univ, Fintype.card_fin]
      refine ⟨q, s, _, W, _, rd.selected hX, ?_, ?_, ?_, rd.re.fitted, ⟨R', rfl, rd.restr⟩, ⟨df, rfl, ?_⟩, ⟨gf, rfl, h9⟩, fun hlt l j ⟨c, hc⟩ => ?_,
        fun l j hno => ⟨places_coef s _ j l hno, ?_⟩⟩
      · rw [hT, Finset.card_univ, Fintype.card_fin] at a3
        simpa using a3
      · have : (fun p _ => gammaR W X (places (K := K) s) Y p 0 : Matrix (Fin q) (Fin 1) K) = gammaR W X (places (K := K) s) Y := by
          funext p z; rw [Subsingleton.elim z 0]
        rw [this]; exact rd.re.gamma
      · rw [information_eq]; exact rd.re.gammaVar
      · rw [information_eq, ← spread_eq]; exact h8.report
      · rw [smallR rd]
        have hlt' : it < n := hlt
        exact a6 (by rw [nn]; omega) _ ((rd.image _).2 ⟨c, hc⟩)
      · rw [← spread_eq]
        exact places_var s _ _ hno

/-- **C90**: with independent regressors and residuals, the search either reports that no coefficient is significant (in the first
or in a later round), or it ends after at most the given number of rounds; each round drops at least one coefficient; if there was a
round, the coefficients are those of the restricted system in which only the kept ones are free, the others are exactly zero, the
matrix `R` of the caller tells which are kept, the variances and details belong to this system; and if the rounds were not used up, all
kept coefficients are significant. Without a round, the coefficients are those of least squares, all significant. -/
theorem C90_search_partial (lu : List K → List K) (f : Fns K) (hf : f.sqrt 0 = some 0) {N0 m0 k0 : Int} {y x Rs : Mat K}
    {Y : Matrix (Fin N) (Fin m) K} {X : Matrix (Fin N) (Fin k) K} (hy : IsM y Y) (hx : IsM x X) (pN : 0 < N) (pm : 0 < m)
    (pk : 0 < k) (hN : (N : Int) ≤ N0) (hm : (m : Int) ≤ m0) (hk : (k : Int) ≤ k0) (a b : Bool) (n : Int) (hn : 0 < n) (maxProb : K)
    (hp : maxProb ≠ 0) (hR : Rs.Wf ∧ Rs.rows = (k : Int) * m ∧ Rs.cols = (k : Int) * m) (storage work : List K)
    (hs : storageSize (Opts.make a b n) N0 m0 k0 ≤ storage.length)
    (hw : workSize (Opts.make a b n) N0 m0 k0 ≤ work.length) (hX : FullRank X)
    (hE : ∀ B, LeastSquares Y X B → FullRank (left Y X B)) :
    ∃ (B0 : Matrix (Fin k) (Fin m) K) (G : Matrix (Fin k) (Fin k) K), LeastSquares Y X B0 ∧ G * (Xᵀ * X) = 1 ∧
    ((sur lu f (Opts.make a b n) N0 m0 k0 y x (some Rs) maxProb storage work = .throws ∧
      ((∀ l j, ¬ Significant f N maxProb (B0 l j) (cov (left Y X B0) j j * G l l)) ∨
        ∃ q s g W V, Selected (q := q) Y X s g W V ∧
          ∀ l j, ¬ Significant f N maxProb (coef (places s) g l j) (spread (places s) V l j))) ∨
    (∃ r : Res K, sur lu f (Opts.make a b n) N0 m0 k0 y x (some Rs) maxProb storage work = .ok r ∧
      0 ≤ r.iter ∧ r.iter ≤ n ∧
      (r.iter = 0 → Fitted r.est Y X B0 ∧ (∀ l j, Significant f N maxProb (B0 l j) (cov (left Y X B0) j j * G l l)) ∧
        ∃ gf, r.fit = some gf ∧ GoodFit f.fcdf Y (left Y X B0) k gf) ∧
      (0 < r.iter → ∃ q s g W V, Selected (q := q) Y X s g W V ∧ r.iter + q ≤ m * k ∧
        IsM r.est.gamma (fun p _ => g p : Matrix (Fin q) (Fin 1) K) ∧ IsM r.est.gammaVar V ∧ Fitted r.est Y X (coef (places s) g) ∧
        (∃ R', r.R = some R' ∧ IsM R' (places s)) ∧
        (∃ d, r.details = some d ∧ Report f N (coef (places s) g) (spread (places s) V) d) ∧
        (∃ gf, r.fit = some gf ∧ GoodFit f.fcdf Y (left Y X (coef (places s) g)) k gf) ∧
        (r.iter < n → ∀ l j, (∃ a, s a = number j l) → Significant f N maxProb (coef (places s) g l j) (spread (places s) V l j)) ∧
        (∀ l j, (∀ a, s a ≠ number j l) → coef (places s) g l j = 0 ∧ spread (places s) V l j = 0))))
    ∧ ((∀ l j, Significant f N maxProb (B0 l j) (cov (left Y X B0) j j * G l l)) →
      ∃ r : Res K, sur lu f (Opts.make a b n) N0 m0 k0 y x (some Rs) maxProb storage work = .ok r ∧ r.iter = 0) := by
  obtain ⟨B0, G, h1, h2, h⟩ := search_all lu f hf hy hx pN pm pk hN hm hk a b n hn maxProb hp hR storage work hs hw hX hE
  refine ⟨B0, G, h1, h2, h.1.imp id ?_, h.2⟩
  rintro ⟨r, h3, h4, h5, h6, h7⟩
  exact ⟨r, h3, h4, h5, fun h => ⟨(h6 h).1, (h6 h).2.1, (h6 h).2.2.2.2⟩, h7⟩

/-- **C90**, what is refused: a search without `R`, with an `R` that is not square with a row for each coefficient, or with the
limit zero. -/
theorem C90_refused (lu : List K → List K) (f : Fns K) (N0 m0 k0 : Int) (y x : Mat K) (R : Option (Mat K)) (a b : Bool) (n : Int)
    (hn : n ≠ 0) (maxProb : K) (storage work : List K)
    (h : R = none ∨ maxProb = 0 ∨ ∃ R', R = some R' ∧ (R'.rows ≠ x.cols * y.cols ∨ R'.cols ≠ x.cols * y.cols)) :
    sur lu f (Opts.make a b n) N0 m0 k0 y x R maxProb storage work = .throws := by
  rw [make_search a b hn]
  unfold sur
  dsimp only
  by_cases h1 : y.rows < 1 ∨ y.cols < 1 ∨ x.cols < 1
  · rw [if_pos h1]
  rw [if_neg h1]
  by_cases h2 : workSize ⟨true, true, n⟩ y.rows y.cols x.cols > workSize ⟨true, true, n⟩ N0 m0 k0 ∨
      storageSize ⟨true, true, n⟩ y.rows y.cols x.cols > storageSize ⟨true, true, n⟩ N0 m0 k0
  · rw [if_pos h2]
  rw [if_neg h2]
  by_cases h3 : badR ⟨true, true, n⟩ (x.cols * y.cols) R = true
  · rw [if_pos h3]
  rw [if_neg h3]
  rcases h with h | h | ⟨R', h, h'⟩
  · subst h; simp [badR, hn] at h3
  · rw [if_pos ⟨hn, h⟩]
  · subst h
    rcases h' with h' | h' <;> simp [badR, hn, h'] at h3

end

/-! ## A concrete case -/

/-- **C90**, violated: two equations with a constant, every coefficient is significant, so that there is no round. The variance of the
first coefficient is `2/9`, but its reported standard deviation is zero. -/
theorem C90_details_violated (lu : List ℚ → List ℚ) (f : Fns ℚ) (hf : f.sqrt 0 = some 0)
    (hs : ∀ v, 0 < v → ∃ s, s ≠ 0 ∧ f.sqrt v = some s) (hp : ∀ n t, f.pnum n t ≤ 1) :
    ∃ (r : Res ℚ) (d : Det ℚ) (V : Matrix (Fin (2 * 1)) (Fin (2 * 1)) ℚ), sur lu f (Opts.make true true 5) 3 2 1
      ⟨3, 2, some [0, 1, 2, 1, 0, 2]⟩ ⟨3, 1, some [1, 1, 1]⟩ (some ⟨2, 2, some [0, 0, 0, 0]⟩) 1 (List.replicate 40 0)
      (List.replicate 60 0) = .ok r ∧ IsM r.est.gammaVar V ∧ V 0 0 = 2 / 9 ∧ r.details = some d ∧ d.std.get 0 0 = .ok (some 0) := by
  have rw2 : (⟨2, 2, some [0, 0, 0, 0]⟩ : Mat ℚ).Wf := ⟨by decide, by decide, rfl, by decide⟩
  obtain ⟨B0, G, h1, h2, h⟩ := search_all (N0 := 3) (m0 := 2) (k0 := 1) lu f hf ex_y2 ex_x1 (by decide) (by decide) (by decide)
    (by decide) (by decide) (by decide) true true 5 (by decide) 1 (by decide) ⟨rw2, by decide, by decide⟩ (List.replicate 40 0)
    (List.replicate 60 0) (by decide) (by decide) ex_rank1 (fun B _ => ex_left B)
  have hB : B0 = !![1, 1] := by
    have : LeastSquares exY2 exX1 !![1, 1] := by
      intro j b
      simp only [squares, misfit, Fin.sum_univ_three, exX1, exY2]
      fin_cases j <;> simp <;> nlinarith [sq_nonneg (b 0 - 1)]
    rw [(leastSquares_iff ex_rank1 _).1 h1, ← (leastSquares_iff ex_rank1 _).1 this]
  have hG : G = !![1 / 3] := by
    have hx : exX1ᵀ * exX1 = !![3] := by decide +kernel
    rw [hx] at h2
    have h3 : (!![3] : Matrix (Fin 1) (Fin 1) ℚ) * !![1 / 3] = 1 := by decide +kernel
    calc G = G * (!![3] * !![1 / 3]) := by rw [h3, Matrix.mul_one]
      _ = !![1 / 3] := by rw [← Matrix.mul_assoc, h2, Matrix.one_mul]
  subst hB hG
  have hc : cov (left exY2 exX1 !![1, 1]) = !![2 / 3, 1 / 3; 1 / 3, 2 / 3] := by decide +kernel
  rw [hc] at h
  have hsig : ∀ (l : Fin 1) (j : Fin 2), Significant f (3 : Nat) 1 ((!![1, 1] : Matrix (Fin 1) (Fin 2) ℚ) l j)
      ((!![2 / 3, 1 / 3; 1 / 3, 2 / 3] : Matrix (Fin 2) (Fin 2) ℚ) j j * (!![1 / 3] : Matrix (Fin 1) (Fin 1) ℚ) l l) := by
    intro l j
    obtain ⟨s, h0, h3⟩ := hs ((!![2 / 3, 1 / 3; 1 / 3, 2 / 3] : Matrix (Fin 2) (Fin 2) ℚ) j j * (!![1 / 3] : Matrix (Fin 1) (Fin 1) ℚ) l l)
      (by fin_cases l; fin_cases j <;> norm_num)
    exact ⟨_, _, _, .regular s h3 h0, hp _ _⟩
  obtain ⟨h, hall⟩ := h
  obtain ⟨r, h3, h4⟩ := hall hsig
  rcases h with ⟨ht, -⟩ | ⟨r', h3', -, -, h6, -⟩
  · rw [ht] at h3; simp at h3
  · obtain rfl : r' = r := Outcome.ok.inj (h3'.symm.trans h3)
    obtain ⟨-, -, ⟨V, hV, hv⟩, ⟨d, hd, rep⟩, -⟩ := h6 h4
    refine ⟨r', d, V, h3, hV, ?_, hd, ?_⟩
    · have := hv 0 0 0 0
      have e : (number (0 : Fin 2) (0 : Fin 1)) = 0 := rfl
      rw [e] at this
      rw [this]; norm_num
    · obtain ⟨s, t, p, g1, g2, g3, hrep⟩ := rep 0 0
      have : s = some 0 := by
        cases hrep with
        | regular s h1 h2 => rw [hf] at h1; cases h1; exact absurd rfl h2
        | certain => rfl
        | nothing => rfl
        | undefined h => rw [hf] at h; simp at h
      rw [this] at g1
      exact g1

end Su
end LDT
