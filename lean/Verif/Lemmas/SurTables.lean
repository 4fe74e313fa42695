import Verif.Lemmas.SurSearcher
/-! # Lemmas for C126: the tables -/
namespace LDT
namespace Su
open Mx Op Ls Score
open Dc (bind_ok)
open Arr (Val)

section
variable {len : ℕ} {n : ℤ} {beta : Mat ℝ} {std : Mat (Val ℝ)} {t : ℕ}

theorem coefColumn_ok : ∀ (cur : List ℤ) (i : ℕ) (s s' : SsTables), cur.Nodup → coefColumn len n beta std t cur i s = .ok s' →
    s'.metric = s.metric ∧ (∀ k j, j ≠ t → s'.mean k j = s.mean k j ∧ s'.variance k j = s.variance k j) ∧
    (∀ (a : ℕ) (b : ℤ), cur[a]? = some b → 0 ≤ b - n ∧ b - n < len ∧ ∃ v d, beta.get0 ((i + a : ℕ) : ℤ) t = .ok v ∧ std.get0 ((i + a : ℕ) : ℤ) t = .ok d ∧
      s'.mean (b - n).toNat t = some v ∧ s'.variance (b - n).toNat t = square d) ∧
    ∀ k : ℕ, (k : ℤ) + n ∉ cur → s'.mean k t = s.mean k t ∧ s'.variance k t = s.variance k t
  | [], i, s, s', _, h => by
    rw [coefColumn] at h
    obtain rfl := Outcome.ok.inj h
    exact ⟨rfl, fun _ _ _ => ⟨rfl, rfl⟩, fun a b h => by simp at h, fun _ _ => ⟨rfl, rfl⟩⟩
  | b :: bs, i, s, s', hn, h => by
    rw [coefColumn] at h
    by_cases hr : b - n < 0 ∨ (len : ℤ) ≤ b - n
    · rw [if_pos hr] at h; cases h
    rw [if_neg hr] at h
    obtain ⟨v, h1, h⟩ := bind_ok h
    obtain ⟨d, h2, h⟩ := bind_ok h
    obtain ⟨hb, hn'⟩ := List.nodup_cons.1 hn
    obtain ⟨r1, r2, r3, r4⟩ := coefColumn_ok bs (i + 1) _ s' hn' h
    have hk : (((b - n).toNat : ℕ) : ℤ) = b - n := by omega
    refine ⟨r1, fun k j hj => ?_, fun a c ha => ?_, fun k hk => ?_⟩
    · obtain ⟨q1, q2⟩ := r2 k j hj
      refine ⟨q1.trans ?_, q2.trans ?_⟩
      · exact if_neg fun hh => hj hh.2
      · exact if_neg fun hh => hj hh.2
    · cases a with
      | zero =>
        obtain rfl : b = c := by simpa using ha
        obtain ⟨q1, q2⟩ := r4 (b - n).toNat (by rw [hk]; simpa using hb)
        refine ⟨by omega, by omega, v, d, h1, h2, q1.trans (if_pos ⟨hk, rfl⟩), q2.trans (if_pos ⟨hk, rfl⟩)⟩
      | succ a =>
        obtain ⟨q0, q1, v', d', q2, q3, q4, q5⟩ := r3 a c (by simpa using ha)
        rw [show i + 1 + a = i + (a + 1) by omega] at q2 q3
        exact ⟨q0, q1, v', d', q2, q3, q4, q5⟩
    · rw [List.mem_cons, not_or] at hk
      obtain ⟨q1, q2⟩ := r4 k hk.2
      refine ⟨q1.trans (if_neg fun hh => hk.1 (by omega)), q2.trans (if_neg fun hh => hk.1 (by omega))⟩

theorem coefColumn_exists : ∀ (cur : List ℤ) (i : ℕ) (s : SsTables), (∀ b ∈ cur, 0 ≤ b - n ∧ b - n < len) →
    (∀ a < cur.length, ∃ v d, beta.get0 ((i + a : ℕ) : ℤ) t = .ok v ∧ std.get0 ((i + a : ℕ) : ℤ) t = .ok d) →
    ∃ s', coefColumn len n beta std t cur i s = .ok s'
  | [], i, s, _, _ => ⟨s, by rw [coefColumn]⟩
  | b :: bs, i, s, hb, hg => by
    have := hb b List.mem_cons_self
    obtain ⟨v, d, h1, h2⟩ := hg 0 (by simp)
    rw [coefColumn, if_neg (by omega)]
    rw [Nat.add_zero] at h1 h2
    rw [h1, Outcome.ok_bind, h2, Outcome.ok_bind]
    exact coefColumn_exists bs (i + 1) _ (fun b hb' => hb b (List.mem_cons_of_mem _ hb')) fun a ha => by
      obtain ⟨v, d, h1, h2⟩ := hg (a + 1) (by simpa using ha)
      rw [show i + (a + 1) = i + 1 + a by omega] at h1 h2
      exact ⟨v, d, h1, h2⟩

theorem coefColumns_ok {cur : List ℤ} (hn : cur.Nodup) : ∀ (ts : List ℕ) (s s' : SsTables), ts.Nodup → coefColumns len n beta std cur ts s = .ok s' →
    s'.metric = s.metric ∧
    (∀ t ∈ ts, ∀ (a : ℕ) (b : ℤ), cur[a]? = some b → 0 ≤ b - n ∧ b - n < len ∧ ∃ v d, beta.get0 (a : ℤ) t = .ok v ∧ std.get0 (a : ℤ) t = .ok d ∧
      s'.mean (b - n).toNat t = some v ∧ s'.variance (b - n).toNat t = square d) ∧
    (∀ (k : ℕ) (t : ℕ), (k : ℤ) + n ∉ cur ∨ t ∉ ts → s'.mean k t = s.mean k t ∧ s'.variance k t = s.variance k t)
  | [], s, s', _, h => by
    rw [coefColumns] at h
    obtain rfl := Outcome.ok.inj h
    exact ⟨rfl, fun t ht => by simp at ht, fun _ _ _ => ⟨rfl, rfl⟩⟩
  | t :: ts, s, s', hd, h => by
    rw [coefColumns] at h
    obtain ⟨s1, h1, h⟩ := bind_ok h
    obtain ⟨ht, hd'⟩ := List.nodup_cons.1 hd
    obtain ⟨a1, a2, a3, a4⟩ := coefColumn_ok cur 0 s s1 hn h1
    obtain ⟨b1, b2, b3⟩ := coefColumns_ok hn ts s1 s' hd' h
    refine ⟨b1.trans a1, fun t' ht' a b hab => ?_, fun k t' hh => ?_⟩
    · rcases List.mem_cons.1 ht' with rfl | ht'
      · obtain ⟨q0, q1, v, d, q2, q3, q4, q5⟩ := a3 a b hab
        rw [zero_add] at q2 q3
        obtain ⟨c1, c2⟩ := b3 (b - n).toNat t' (Or.inr ht)
        exact ⟨q0, q1, v, d, q2, q3, c1.trans q4, c2.trans q5⟩
      · exact b2 t' ht' a b hab
    · obtain ⟨c1, c2⟩ := b3 k t' (hh.imp id fun hh hm => hh (List.mem_cons_of_mem _ hm))
      by_cases htt : t' = t
      · subst htt
        have hk : (k : ℤ) + n ∉ cur := hh.resolve_right fun hh => hh List.mem_cons_self
        obtain ⟨d1, d2⟩ := a4 k hk
        exact ⟨c1.trans d1, c2.trans d2⟩
      · obtain ⟨d1, d2⟩ := a2 k t' htt
        exact ⟨c1.trans d1, c2.trans d2⟩

theorem coefColumns_exists {cur : List ℤ} (hb : ∀ b ∈ cur, 0 ≤ b - n ∧ b - n < len) : ∀ (ts : List ℕ) (s : SsTables),
    (∀ t ∈ ts, ∀ a < cur.length, ∃ v d, beta.get0 (a : ℤ) t = .ok v ∧ std.get0 (a : ℤ) t = .ok d) →
    ∃ s', coefColumns len n beta std cur ts s = .ok s'
  | [], s, _ => ⟨s, by rw [coefColumns]⟩
  | t :: ts, s, hg => by
    obtain ⟨s1, h1⟩ := coefColumn_exists (len := len) (n := n) (beta := beta) (std := std) (t := t) cur 0 s hb fun a ha => by
      rw [zero_add]; exact hg t List.mem_cons_self a ha
    obtain ⟨s2, h2⟩ := coefColumns_exists hb ts s1 fun t' ht' => hg t' (List.mem_cons_of_mem _ ht')
    exact ⟨s2, by rw [coefColumns, h1, Outcome.ok_bind, h2]⟩
end

section
variable {n T : ℕ} {ind : ℤ} {v : ℕ → Val ℝ} {t t' : SsTables}

theorem setRow_ok (h : setRow n T ind v t = .ok t') : 0 ≤ ind ∧ ind < n ∧ t'.mean = t.mean ∧ t'.variance = t.variance ∧
    ∀ i j, t'.metric i j = if (i : ℤ) = ind ∧ j < T then v j else t.metric i j := by
  unfold setRow at h
  by_cases c : ind < 0 ∨ (n : ℤ) ≤ ind
  · rw [if_pos c] at h; cases h
  rw [if_neg c] at h
  obtain rfl := Outcome.ok.inj h
  exact ⟨by omega, by omega, rfl, rfl, fun _ _ => rfl⟩

theorem setRow_exists (h0 : 0 ≤ ind) (h1 : ind < n) : ∃ t', setRow n T ind v t = .ok t' := by
  unfold setRow
  rw [if_neg (by omega)]
  exact ⟨_, rfl⟩
end

/-- The rows of the in-sample criteria. -/
theorem ssCrit_ok {u : SsSetup} {T : ℕ} {aic sic : Dbl ℝ} {t t' : SsTables} (hx : Dc.Indexed u.metrics) (h : ssCrit u T aic sic t = .ok t') :
    t'.mean = t.mean ∧ t'.variance = t.variance ∧
    (∀ i : ℕ, u.metrics.indexIn .aic = some (i : ℤ) → ∀ j < T, t'.metric i j = Srch.toVal aic) ∧
    (∀ i : ℕ, u.metrics.indexIn .sic = some (i : ℤ) → ∀ j < T, t'.metric i j = Srch.toVal sic) ∧
    ∀ (i j : ℕ), u.metrics.indexIn .aic ≠ some (i : ℤ) → u.metrics.indexIn .sic ≠ some (i : ℤ) → t'.metric i j = t.metric i j := by
  unfold ssCrit at h
  obtain ⟨a, h1, h⟩ := bind_ok h
  obtain ⟨t1, h2, h⟩ := bind_ok h
  obtain ⟨s, h3, h⟩ := bind_ok h
  have pa : u.metrics.indexIn .aic = some a := by
    obtain ⟨i, hi, -⟩ := hx.1 .aic
    unfold Dc.pos Outcome.ofOption at h1
    rw [hi] at h1 ⊢
    rw [Outcome.ok.inj h1]
  have ps : u.metrics.indexIn .sic = some s := by
    obtain ⟨i, hi, -⟩ := hx.1 .sic
    unfold Dc.pos Outcome.ofOption at h3
    rw [hi] at h3 ⊢
    rw [Outcome.ok.inj h3]
  have hne : ∀ i : ℕ, a = i → s ≠ i := fun i ha hs => by
    subst ha
    rcases Dc.indexed_in hx pa with ⟨-, q⟩ | ⟨k, q1, q2, -⟩
    · omega
    rcases Dc.indexed_in hx ps with ⟨-, q'⟩ | ⟨k', q1', q2', -⟩
    · omega
    have : k = k' := by omega
    subst this
    rw [q2] at q2'
    cases q2'
  have A : t1.mean = t.mean ∧ t1.variance = t.variance ∧ ∀ i j : ℕ, t1.metric i j = if (i : ℤ) = a ∧ j < T then Srch.toVal aic else t.metric i j := by
    by_cases c : a ≥ 0
    · rw [if_pos c] at h2
      obtain ⟨-, -, q1, q2, q3⟩ := setRow_ok h2
      exact ⟨q1, q2, q3⟩
    · rw [if_neg c] at h2
      obtain rfl := Outcome.ok.inj h2
      exact ⟨rfl, rfl, fun i j => (if_neg (by omega)).symm⟩
  have B : t'.mean = t1.mean ∧ t'.variance = t1.variance ∧ ∀ i j : ℕ, t'.metric i j = if (i : ℤ) = s ∧ j < T then Srch.toVal sic else t1.metric i j := by
    by_cases c : s ≥ 0
    · rw [if_pos c] at h
      obtain ⟨-, -, q1, q2, q3⟩ := setRow_ok h
      exact ⟨q1, q2, q3⟩
    · rw [if_neg c] at h
      obtain rfl := Outcome.ok.inj h
      exact ⟨rfl, rfl, fun i j => (if_neg (by omega)).symm⟩
  refine ⟨B.1.trans A.1, B.2.1.trans A.2.1, fun i hi j hj => ?_, fun i hi j hj => ?_, fun i j h1 h2 => ?_⟩
  · rw [pa] at hi
    have := Option.some.inj hi
    rw [B.2.2, if_neg (fun hh => hne i this hh.1.symm), A.2.2, if_pos ⟨this.symm, hj⟩]
  · rw [ps] at hi
    have := Option.some.inj hi
    rw [B.2.2, if_pos ⟨this.symm, hj⟩]
  · rw [B.2.2, if_neg (fun hh => h2 (by rw [ps, hh.1])), A.2.2, if_neg (fun hh => h1 (by rw [pa, hh.1]))]

theorem ssCrit_exists {u : SsSetup} {T : ℕ} {aic sic : Dbl ℝ} {t : SsTables} (hx : Dc.Indexed u.metrics) : ∃ t', ssCrit u T aic sic t = .ok t' := by
  unfold ssCrit
  obtain ⟨a, ha, pa⟩ := hx.1 .aic
  obtain ⟨s, hs, ps⟩ := hx.1 .sic
  have e1 : Dc.pos u.metrics.indexIn .aic = .ok a := by unfold Dc.pos Outcome.ofOption; rw [ha]
  have e2 : Dc.pos u.metrics.indexIn .sic = .ok s := by unfold Dc.pos Outcome.ofOption; rw [hs]
  have la := Dc.position_lt pa
  have ls := Dc.position_lt ps
  have hl : (u.metrics.metricsIn.length : ℤ) ≤ u.rows := by unfold SsSetup.rows; push_cast; omega
  rw [e1, Outcome.ok_bind, e2]
  obtain ⟨t1, h1⟩ : ∃ t1, (if a ≥ 0 then setRow u.rows T a (fun _ => Srch.toVal aic) t else .ok t) = .ok t1 := by
    by_cases c : a ≥ 0
    · rw [if_pos c]; exact setRow_exists c (by omega)
    · rw [if_neg c]; exact ⟨t, rfl⟩
  rw [h1, Outcome.ok_bind, Outcome.ok_bind]
  by_cases c : s ≥ 0
  · rw [if_pos c]; exact setRow_exists c (by omega)
  · rw [if_neg c]; exact ⟨t1, rfl⟩

theorem ssIn_exists {u : SsSetup} {T : ℕ} {e : ExtRes} {t : SsTables} (hx : Dc.Indexed u.metrics) : ∃ t', ssIn u T e t = .ok t' := ssCrit_exists hx

theorem ssIn_ok {u : SsSetup} {T : ℕ} {e : ExtRes} {t t' : SsTables} (hx : Dc.Indexed u.metrics) (h : ssIn u T e t = .ok t') :
    t'.mean = t.mean ∧ t'.variance = t.variance ∧
    (∀ i : ℕ, u.metrics.indexIn .aic = some (i : ℤ) → ∀ j < T, t'.metric i j = Srch.toVal e.aic) ∧
    (∀ i : ℕ, u.metrics.indexIn .sic = some (i : ℤ) → ∀ j < T, t'.metric i j = Srch.toVal e.sic) ∧
    ∀ (i j : ℕ), u.metrics.indexIn .aic ≠ some (i : ℤ) → u.metrics.indexIn .sic ≠ some (i : ℤ) → t'.metric i j = t.metric i j := ssCrit_ok hx h

/-- A row of the scores out of the sample. -/
theorem ssOutOne_ok {u : SsSetup} {T : ℕ} {r : Results} {e : Sco} {t t' : SsTables} (h : ssOutOne u T r e t = .ok t') :
    t'.mean = t.mean ∧ t'.variance = t.variance ∧
    (∀ i : ℕ, u.metrics.indexOut e = some (i : ℤ) → ∃ v, r[i]? = some v ∧ T ≤ v.length ∧
      ∀ j < T, t'.metric (u.metrics.metricsIn.length + i) j = Srch.toVal (v.getD j .nan)) ∧
    ∀ (i j : ℕ), (∀ k : ℕ, u.metrics.indexOut e = some (k : ℤ) → i ≠ u.metrics.metricsIn.length + k) → t'.metric i j = t.metric i j := by
  unfold ssOutOne at h
  obtain ⟨ind, h1, h⟩ := bind_ok h
  have p : u.metrics.indexOut e = some ind := by
    unfold Dc.pos Outcome.ofOption at h1
    cases hi : u.metrics.indexOut e with
    | none => rw [hi] at h1; cases h1
    | some i => rw [hi] at h1; rw [Outcome.ok.inj h1]
  by_cases c : ind ≥ 0
  · rw [if_pos c] at h
    obtain ⟨v, h2, h⟩ := bind_ok h
    obtain ⟨-, -, q1, q2, q3⟩ := setRow_ok h
    refine ⟨q1, q2, fun i hi => ?_, fun i j hi => ?_⟩
    · rw [p] at hi
      obtain rfl := Option.some.inj hi
      unfold resultRow at h2
      rw [Int.toNat_natCast] at h2
      cases hv : r[i]? with
      | none => rw [hv] at h2; cases h2
      | some w =>
        rw [hv] at h2
        dsimp only at h2
        by_cases hl : w.length < T
        · rw [if_pos hl] at h2; cases h2
        rw [if_neg hl] at h2
        refine ⟨w, rfl, by omega, fun j hj => ?_⟩
        rw [q3, if_pos ⟨by push_cast; rfl, hj⟩, ← Outcome.ok.inj h2]
    · rw [q3, if_neg]
      intro hh
      exact hi ind.toNat (by rw [p]; congr 1; omega) (by omega)
  · rw [if_neg c] at h
    obtain rfl := Outcome.ok.inj h
    refine ⟨rfl, rfl, fun i hi => ?_, fun _ _ _ => rfl⟩
    rw [p] at hi
    have := Option.some.inj hi
    omega

theorem ssOut_ok {u : SsSetup} {T : ℕ} {r : Results} (hx : Dc.Indexed u.metrics) : ∀ (es : List Sco) (t t' : SsTables), es.Nodup → ssOut u T r es t = .ok t' →
    t'.mean = t.mean ∧ t'.variance = t.variance ∧
    (∀ e ∈ es, ∀ i : ℕ, u.metrics.indexOut e = some (i : ℤ) → ∃ v, r[i]? = some v ∧ T ≤ v.length ∧
      ∀ j < T, t'.metric (u.metrics.metricsIn.length + i) j = Srch.toVal (v.getD j .nan)) ∧
    ∀ (i j : ℕ), (∀ e ∈ es, ∀ k : ℕ, u.metrics.indexOut e = some (k : ℤ) → i ≠ u.metrics.metricsIn.length + k) → t'.metric i j = t.metric i j
  | [], t, t', _, h => by
    rw [ssOut] at h
    obtain rfl := Outcome.ok.inj h
    exact ⟨rfl, rfl, fun e he => by simp at he, fun _ _ _ => rfl⟩
  | e :: es, t, t', hd, h => by
    rw [ssOut] at h
    obtain ⟨t1, h1, h⟩ := bind_ok h
    obtain ⟨hne, hd'⟩ := List.nodup_cons.1 hd
    obtain ⟨a1, a2, a3, a4⟩ := ssOutOne_ok h1
    obtain ⟨b1, b2, b3, b4⟩ := ssOut_ok hx es t1 t' hd' h
    refine ⟨b1.trans a1, b2.trans a2, fun e' he' i hi => ?_, fun i j hh => ?_⟩
    · rcases List.mem_cons.1 he' with rfl | he'
      · obtain ⟨v, q1, q2, q3⟩ := a3 i hi
        refine ⟨v, q1, q2, fun j hj => ?_⟩
        rw [b4 _ _ fun e'' he'' k hk hik => ?_, q3 j hj]
        have : i = k := by omega
        subst this
        rcases Dc.indexed_out hx hi with ⟨-, q⟩ | ⟨k1, p1, p2, -⟩
        · omega
        rcases Dc.indexed_out hx hk with ⟨-, q⟩ | ⟨k2, p1', p2', -⟩
        · omega
        have : k1 = k2 := by omega
        subst this
        rw [p2] at p2'
        exact hne (by rw [Option.some.inj p2']; exact he'')
      · exact b3 e' he' i hi
    · rw [b4 i j fun e' he' => hh e' (List.mem_cons_of_mem _ he'), a4 i j (hh e List.mem_cons_self)]

end Su
end LDT
