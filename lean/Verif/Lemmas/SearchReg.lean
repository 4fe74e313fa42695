import Verif.Spec.SearchReg
import Verif.Props.AverageMore
/-!
# The summaries of a searcher of regression models
-/
namespace LDT
namespace Srch
open Arr Di Score

theorem putAt_eq : ∀ (vs pre old post : List Int), old.length = vs.length →
    putAt pre.length vs (pre ++ old ++ post) = pre ++ vs ++ post := by
  intro vs
  induction vs with
  | nil => intro pre old post h; have : old = [] := by simpa using h
           subst this; simp [putAt]
  | cons v vs ih =>
    intro pre old post h
    obtain ⟨x, old, rfl⟩ : ∃ x o, old = x :: o := by
      cases old with
      | nil => simp at h
      | cons x o => exact ⟨x, o, rfl⟩
    have e : (pre ++ (x :: old) ++ post).set pre.length v = (pre ++ [v]) ++ old ++ post := by
      simp
    unfold putAt
    rw [e]
    have := ih (pre ++ [v]) old post (by simpa using h)
    rw [List.length_append, List.length_singleton] at this
    rw [this]; simp

/-- The weight column. -/
def wcol (c : RegCfg) : List Int := if c.hasWeight then [(c.numEndo : Int)] else []

theorem wcol_length (c : RegCfg) : (wcol c).length = c.w := by unfold wcol RegCfg.w; split_ifs <;> rfl

/-- The part of the state that the estimator reads. -/
def ColsOk (c : RegCfg) (st : RegSt) : Prop :=
  ∃ x : List Int, x.length = c.n ∧
    if c.innerExo then st.cols = x ++ wcol c ++ c.inner.map (· + (c.w : Int))
    else st.cols = c.inner ++ wcol c ++ x ∧ st.targets = targetsOf c c.inner

theorem tableColumns_eq (c : RegCfg) (cur : List Int) : tableColumns c cur =
    if c.innerExo then cur ++ wcol c ++ c.inner.map (· + (c.w : Int)) else c.inner ++ wcol c ++ cur.map (· + (c.w : Int)) := by
  unfold tableColumns endoOf exoOf wcol RegCfg.w
  cases c.hasWeight <;> cases c.innerExo <;> simp

theorem setIndices_spec {c : RegCfg} {cur : List Int} {st : RegSt} (h : ColsOk c st) (hl : cur.length = c.n) :
    (setIndices c cur st).cols = tableColumns c cur ∧ (setIndices c cur st).targets = wanted c cur ∧
    (setIndices c cur st).s0 = st.s0 ∧ (setIndices c cur st).s1 = st.s1 ∧ ColsOk c (setIndices c cur st) := by
  obtain ⟨x, hx, h⟩ := h
  rw [tableColumns_eq]
  unfold setIndices wanted endoOf
  cases hi : c.innerExo with
  | true =>
    rw [hi] at h
    simp only [if_true] at h ⊢
    have e : putAt 0 cur st.cols = cur ++ wcol c ++ c.inner.map (· + (c.w : Int)) := by
      have := putAt_eq cur [] x (wcol c ++ c.inner.map (· + (c.w : Int))) (by omega)
      simp only [List.length_nil, List.nil_append, ← List.append_assoc] at this
      rw [h]; exact this
    refine ⟨e, rfl, by simp, by simp, ⟨cur, hl, ?_⟩⟩
    rw [if_pos hi]; exact e
  | false =>
    rw [hi] at h
    simp only [Bool.false_eq_true, if_false] at h ⊢
    have e : putAt (c.inner.length + c.w) (cur.map fun a => a + (c.w : Int)) st.cols = c.inner ++ wcol c ++ cur.map (· + (c.w : Int)) := by
      have := putAt_eq (cur.map fun a => a + (c.w : Int)) (c.inner ++ wcol c) x [] (by simp; omega)
      simp only [List.length_append, wcol_length, List.append_nil] at this
      rw [h.1]; exact this
    refine ⟨e, by rw [h.2]; rfl, by simp, by simp, ⟨cur.map fun a => a + (c.w : Int), by simpa using hl, ?_⟩⟩
    rw [if_neg (by simp [hi])]
    exact ⟨e, h.2⟩

theorem construct_spec {c : RegCfg} {big tiny : ℝ} {st : RegSt} (h : regConstruct c big tiny = .ok st) :
    ColsOk c st ∧ st.s0 = (fun (i k : Nat) => newSumm c.items big tiny c.numEndo c.numExo i k 0) ∧
    st.s1 = (fun (i k j : Nat) => newSumm c.items big tiny c.numEndo c.numExo i k j) ∧
    0 < c.lengthEvals ∧ 0 < c.lengthTargets ∧ c.pos.length = c.lengthEvals ∧ (c.innerExo = false → wanted c [] ≠ []) := by
  unfold regConstruct at h
  by_cases h1 : c.lengthEvals = 0 ∨ c.lengthTargets = 0
  · rw [if_pos h1] at h; cases h
  rw [if_neg h1] at h
  by_cases h2 : c.lengthEvals ≠ c.pos.length
  · rw [if_pos h2] at h; cases h
  rw [if_neg h2] at h
  by_cases h3 : c.keepModels = false ∧ c.length1 = 0
  · rw [if_pos h3] at h; cases h
  rw [if_neg h3] at h
  dsimp only at h
  have h1' : 0 < c.lengthEvals ∧ 0 < c.lengthTargets := by omega
  have h2' : c.pos.length = c.lengthEvals := by omega
  cases hi : c.innerExo with
  | true =>
    rw [hi, if_pos rfl] at h
    have h := Outcome.ok.inj h
    subst h
    refine ⟨⟨List.replicate c.n 0, by simp, ?_⟩, rfl, rfl, h1'.1, h1'.2, h2', by simp⟩
    rw [if_pos hi]
    have e : (List.replicate (c.n + c.w + c.inner.length) 0 : List Int) =
        (List.replicate c.n 0 ++ List.replicate c.w 0) ++ List.replicate c.inner.length 0 ++ [] := by
      rw [List.append_nil, ← List.replicate_add, ← List.replicate_add]
    have := putAt_eq (c.inner.map fun a => a + (c.w : Int)) (List.replicate c.n 0 ++ List.replicate c.w 0) (List.replicate c.inner.length 0) [] (by simp)
    rw [← e] at this
    simp only [List.length_append, List.length_replicate] at this
    simp only [this, List.append_nil]
    unfold wcol RegCfg.w
    cases c.hasWeight <;> simp
  | false =>
    rw [hi, if_neg (by simp)] at h
    by_cases h4 : (targetsOf c c.inner).length = 0
    · rw [if_pos h4] at h; cases h
    rw [if_neg h4] at h
    have h := Outcome.ok.inj h
    subst h
    refine ⟨⟨List.replicate c.n 0, by simp, ?_⟩, rfl, rfl, h1'.1, h1'.2, h2', fun _ => ?_⟩
    · rw [if_neg (by simp [hi])]
      refine ⟨?_, rfl⟩
      have e : (List.replicate (c.n + c.w + c.inner.length) 0 : List Int) =
          [] ++ List.replicate c.inner.length 0 ++ (List.replicate c.w 0 ++ List.replicate c.n 0) := by
        rw [List.nil_append, ← List.replicate_add, ← List.replicate_add]; congr 1; omega
      have := putAt_eq c.inner [] (List.replicate c.inner.length 0) (List.replicate c.w 0 ++ List.replicate c.n 0) (by simp)
      rw [← e] at this
      simp only [List.length_nil, List.nil_append] at this
      simp only [this]
      unfold wcol RegCfg.w
      cases c.hasWeight <;> simp
    · unfold wanted endoOf
      rw [if_neg (by simp [hi])]
      intro hn; apply h4; unfold targetsOf; rw [hn]; rfl

/-! ## The weight -/

theorem atI_some {α : Type} {l : List α} {t : Nat} (h : t < l.length) : atI l (t : Int) = some l[t] := by
  unfold atI
  rw [if_neg (by omega), Int.toNat_natCast, List.getElem?_eq_getElem h]

theorem weightOf_eq {c : RegCfg} (hr : Ready c) {i t : Nat} (hi : i < c.lengthEvals) (ht : t < c.lengthTargets) (q : ℝ) :
    weightOf c i (t : Int) q = some (regWeight c i t q) := by
  unfold weightOf regWeight
  by_cases h : i < c.metricsIn.length
  · rw [dif_pos h, List.getElem?_eq_getElem h]
    dsimp only
    cases hm : c.minIn c.metricsIn[i] with
    | none => rfl
    | some l =>
      have hl : t < l.length := lt_of_lt_of_le ht (hr.minIn _ _ hm)
      simp only [atI_some hl, Option.map_some, leastOf]
      simp [List.getD, List.getElem?_eq_getElem hl]
  · rw [dif_neg h, List.getElem?_eq_none (by omega)]
    have h' : i - c.metricsIn.length < c.metricsOut.length := by rw [hr.evals] at hi; omega
    rw [dif_pos h', List.getElem?_eq_getElem h']
    dsimp only
    cases hm : c.minOut c.metricsOut[i - c.metricsIn.length] with
    | none => rfl
    | some l =>
      have hl : t < l.length := lt_of_lt_of_le ht (hr.minOut _ _ hm)
      simp only [atI_some hl, Option.map_some, leastOf]
      simp [List.getD, List.getElem?_eq_getElem hl]

/-! ## Pushing -/

theorem feed_append {S : Fns} {items : Items} {pos : Bool} (a b : List (Bool × Est)) (s : Summ) :
    feed S items pos (a ++ b) s = feed S items pos a s >>= feed S items pos b := by
  induction a generalizing s with
  | nil => rfl
  | cons p a ih =>
    show (push S items pos p.1 s p.2 >>= feed S items pos (a ++ b)) = (push S items pos p.1 s p.2 >>= feed S items pos a) >>= feed S items pos b
    cases push S items pos p.1 s p.2 with
    | ok t => exact ih t
    | throws => rfl
    | ub => rfl
    | diverges => rfl

/-- The orientation of the metrics. -/
def posOf (c : RegCfg) (i : Int) : Bool := c.pos.getD i.toNat false

/-- The estimation's variables are in the data. -/
def InData (c : RegCfg) (e : Est) : Prop := ∀ i ∈ e.endo ++ e.exo, 0 ≤ i ∧ i < (c.numEndo + c.numExo : Nat)

/-- The summaries after the pushes `h0`, `h1`. -/
structure Inv (S : Fns) (c : RegCfg) (big tiny : ℝ) (st : RegSt) (h0 : Nat → Nat → List (Bool × Est)) (h1 : Nat → Nat → Nat → List (Bool × Est)) : Prop where
  /-- models -/
  s0 : ∀ i t : Nat, feed S c.items (posOf c i) (h0 i t) (newSumm c.items big tiny c.numEndo c.numExo i t 0) = .ok (st.s0 i t)
  /-- coefficients -/
  s1 : ∀ i t k : Nat, feed S c.items (posOf c i) (h1 i t k) (newSumm c.items big tiny c.numEndo c.numExo i t k) = .ok (st.s1 i t k)
  /-- variables -/
  r0 : ∀ i t : Nat, ∀ p ∈ h0 i t, InData c p.2
  /-- variables -/
  r1 : ∀ i t k : Nat, ∀ p ∈ h1 i t k, InData c p.2

variable {S : Fns} {c : RegCfg} {big tiny : ℝ}

theorem Inv.congr {st : RegSt} {h0 h1 h0' h1'} (h : Inv S c big tiny st h0 h1) (e0 : ∀ i t, h0' i t = h0 i t) (e1 : ∀ i t k, h1' i t k = h1 i t k) :
    Inv S c big tiny st h0' h1' := by
  have a : h0' = h0 := funext fun i => funext fun t => e0 i t
  have b : h1' = h1 := funext fun i => funext fun t => funext fun k => e1 i t k
  rw [a, b]; exact h

/-- One more push succeeds. -/
theorem feed_one {l : List (Bool × Est)} {i t k : Int} {s : Summ}
    (hf : feed S c.items (posOf c i) l (newSumm c.items big tiny c.numEndo c.numExo i t k) = .ok s) (hl : ∀ p ∈ l, InData c p.2)
    (b : Bool) (e : Est) (he : InData c e) :
    ∃ s', push S c.items (posOf c i) b s e = .ok s' ∧
      feed S c.items (posOf c i) (l ++ [(b, e)]) (newSumm c.items big tiny c.numEndo c.numExo i t k) = .ok s' := by
  obtain ⟨s', a1, a2, a3, hs'⟩ := C118_total (S := S) (items := c.items) (pos := posOf c) (big := big) (tiny := tiny) (ne := c.numEndo) (nx := c.numExo)
    i t k (l ++ [(b, e)]) (by
      intro _ e' he' a ha
      unfold models at he'
      obtain ⟨p, hp, rfl⟩ := List.mem_map.1 he'
      have hp := (List.mem_filter.1 hp).1
      rcases List.mem_append.1 hp with hp | hp
      · exact hl p hp a ha
      · rw [List.mem_singleton.1 hp] at ha; exact he a ha)
  unfold FedBy at hs'
  rw [a1, a2, a3] at hs'
  refine ⟨s', ?_, hs'⟩
  rw [feed_append, hf] at hs'
  have hs' : (push S c.items (posOf c i) b s e >>= fun t => Outcome.ok t) = .ok s' := hs'
  cases hp : push S c.items (posOf c i) b s e <;> rw [hp] at hs' <;> first | exact hs' | cases hs'

theorem push0_spec {st : RegSt} {h0 h1} (hI : Inv S c big tiny st h0 h1) (e : Est) (he : InData c e) {i t : Nat} (hi : i < c.lengthEvals)
    (ht : t < c.lengthTargets) :
    ∃ st', push0 S c e i (t : Int) st = (st', true) ∧ st'.cols = st.cols ∧ st'.targets = st.targets ∧
      Inv S c big tiny st' (fun a b => h0 a b ++ if a = i ∧ b = t then [(true, e)] else []) h1 := by
  obtain ⟨s', e1, e2⟩ := feed_one (hI.s0 i t) (hI.r0 i t) true e he
  have hp : c.pos.getD i false = posOf c i := by simp [posOf]
  refine ⟨{ st with s0 := fun a b => if a = i ∧ b = t then s' else st.s0 a b }, ?_, rfl, rfl, ?_⟩
  · unfold push0
    rw [if_pos ⟨hi, by omega, by exact_mod_cast ht⟩, Int.toNat_natCast, hp, e1]
  · refine ⟨fun a b => ?_, hI.s1, fun a b p h => ?_, hI.r1⟩
    · by_cases h : a = i ∧ b = t
      · simp only [if_pos h]
        obtain ⟨rfl, rfl⟩ := h
        exact e2
      · simp only [if_neg h, List.append_nil]
        exact hI.s0 a b
    · rcases List.mem_append.1 h with h | h
      · exact hI.r0 a b p h
      · split_ifs at h
        · rw [List.mem_singleton.1 h]; exact he
        · simp at h

theorem push1_spec {st : RegSt} {h0 h1} (hI : Inv S c big tiny st h0 h1) (e : Est) (he : InData c e) {i t k : Nat} (hi : i < c.lengthEvals)
    (ht : t < c.lengthTargets) (hk : k < c.length1) :
    ∃ st', push1 S c e i (t : Int) k st = (st', true) ∧ st'.cols = st.cols ∧ st'.targets = st.targets ∧
      Inv S c big tiny st' h0 (fun a b d => h1 a b d ++ if a = i ∧ b = t ∧ d = k then [(false, e)] else []) := by
  obtain ⟨s', e1, e2⟩ := feed_one (hI.s1 i t k) (hI.r1 i t k) false e he
  have hp : c.pos.getD i false = posOf c i := by simp [posOf]
  refine ⟨{ st with s1 := fun a b d => if a = i ∧ b = t ∧ d = k then s' else st.s1 a b d }, ?_, rfl, rfl, ?_⟩
  · unfold push1
    rw [if_pos ⟨hi, by omega, by exact_mod_cast ht, hk⟩, Int.toNat_natCast, hp, e1]
  · refine ⟨hI.s0, fun a b d => ?_, hI.r0, fun a b d p h => ?_⟩
    · by_cases h : a = i ∧ b = t ∧ d = k
      · simp only [if_pos h]
        obtain ⟨rfl, rfl, rfl⟩ := h
        exact e2
      · simp only [if_neg h, List.append_nil]
        exact hI.s1 a b d
    · rcases List.mem_append.1 h with h | h
      · exact hI.r1 a b d p h
      · split_ifs at h
        · rw [List.mem_singleton.1 h]; exact he
        · simp at h

/-- The coefficient `k` of a cell. -/
noncomputable def coefOf (c : RegCfg) (cur : List Int) (o : RegOut) (q w : ℝ) (j k : Nat) : List (Bool × Est) :=
  match o.mean k j with
  | some m => [(false, keepOf c cur o q w (some m) (o.variance k j))]
  | none => []

theorem keepOf_inData (hr : Ready c) {cur : List Int} (hc : ∀ a ∈ cur, 0 ≤ a ∧ a < (c.numEndo + c.numExo : Nat)) (o : RegOut) (q w : ℝ) (m v : Val ℝ) :
    InData c (keepOf c cur o q w m v) := by
  intro a ha
  unfold keepOf at ha
  split_ifs at ha <;> rcases List.mem_append.1 ha with h | h
  · exact hc a h
  · exact hr.inner a h
  · exact hr.inner a h
  · exact hc a h

theorem pushCoefs_spec (hr : Ready c) {cur : List Int} (hc : ∀ a ∈ cur, 0 ≤ a ∧ a < (c.numEndo + c.numExo : Nat)) (o : RegOut) (q w : ℝ)
    {i t : Nat} (hi : i < c.lengthEvals) (ht : t < c.lengthTargets) (j : Nat) : ∀ (ks : List Nat) (st : RegSt) (h0 h1), (∀ k ∈ ks, k < c.length1) → ks.Nodup →
    Inv S c big tiny st h0 h1 →
    ∃ st', pushCoefs S c cur o q w i (t : Int) j ks st = (st', true) ∧ st'.cols = st.cols ∧ st'.targets = st.targets ∧
      Inv S c big tiny st' h0 (fun a b d => h1 a b d ++ if a = i ∧ b = t ∧ d ∈ ks then coefOf c cur o q w j d else []) := by
  intro ks
  induction ks with
  | nil => intro st h0 h1 _ _ hI; exact ⟨st, rfl, rfl, rfl, by simpa using hI⟩
  | cons k ks ih =>
    intro st h0 h1 hk hn hI
    have hks : ∀ k ∈ ks, k < c.length1 := fun k h => hk k (by simp [h])
    obtain ⟨hnk, hn⟩ := List.nodup_cons.1 hn
    unfold pushCoefs
    cases hm : o.mean k j with
    | none =>
      obtain ⟨st', e1, e2, e3, e4⟩ := ih st h0 h1 hks hn hI
      refine ⟨st', e1, e2, e3, ?_⟩
      refine e4.congr (fun _ _ => rfl) fun a b d => ?_
      by_cases hd : d = k
      · subst hd
        have : coefOf c cur o q w j d = [] := by unfold coefOf; rw [hm]
        simp [this, hnk]
      · simp [hd]
    | some m =>
      dsimp only
      obtain ⟨st1, f1, f2, f3, f4⟩ := push1_spec hI (keepOf c cur o q w (some m) (o.variance k j)) (keepOf_inData hr hc o q w _ _) hi ht (hk k (by simp))
      rw [f1]
      simp only [if_true]
      obtain ⟨st', e1, e2, e3, e4⟩ := ih st1 h0 _ hks hn f4
      refine ⟨st', e1, e2.trans f2, e3.trans f3, ?_⟩
      refine e4.congr (fun _ _ => rfl) fun a b d => ?_
      rw [List.append_assoc]
      congr 1
      by_cases hd : d = k
      · subst hd
        have : coefOf c cur o q w j d = [(false, keepOf c cur o q w (some m) (o.variance d j))] := by unfold coefOf; rw [hm]
        simp [this, hnk]
      · simp [hd]

/-- What a cell adds to the summary of metric `a`, target `b`. -/
noncomputable def cell0 (c : RegCfg) (cur : List Int) (o : RegOut) (targets : List Int) (a b : Nat) (p : Nat × Nat) : List (Bool × Est) :=
  if a = p.1 ∧ targets[p.2]? = some (b : Int) then
    match o.metric p.1 p.2 with
    | some q => if c.keepModels then [(true, keepOf c cur o q (regWeight c a b q) none none)] else []
    | none => []
  else []

/-- What a cell adds to the summary of metric `a`, target `b`, coefficient `d`. -/
noncomputable def cell1 (c : RegCfg) (cur : List Int) (o : RegOut) (targets : List Int) (a b d : Nat) (p : Nat × Nat) : List (Bool × Est) :=
  if a = p.1 ∧ targets[p.2]? = some (b : Int) ∧ d < c.length1 then
    match o.metric p.1 p.2 with
    | some q => coefOf c cur o q (regWeight c a b q) p.2 d
    | none => []
  else []

theorem pushCell_spec (hr : Ready c) {cur : List Int} (hc : ∀ a ∈ cur, 0 ≤ a ∧ a < (c.numEndo + c.numExo : Nat)) (o : RegOut) (targets : List Int)
    {i j t : Nat} (hi : i < c.lengthEvals) (ht : t < c.lengthTargets) (hj : targets[j]? = some (t : Int)) {q : ℝ} (hq : o.metric i j = some q)
    {st : RegSt} {h0 h1} (hI : Inv S c big tiny st h0 h1) :
    ∃ st', pushCell S c cur o q i (t : Int) j st = (st', true) ∧ st'.cols = st.cols ∧ st'.targets = st.targets ∧
      Inv S c big tiny st' (fun a b => h0 a b ++ cell0 c cur o targets a b (i, j)) (fun a b d => h1 a b d ++ cell1 c cur o targets a b d (i, j)) := by
  unfold pushCell
  rw [weightOf_eq hr hi ht q]
  dsimp only
  have c0 : ∀ a b, cell0 c cur o targets a b (i, j) = if a = i ∧ b = t then
      (if c.keepModels then [(true, keepOf c cur o q (regWeight c i t q) none none)] else []) else [] := by
    intro a b
    unfold cell0
    dsimp only
    rw [hj, hq]
    by_cases h : a = i ∧ b = t
    · obtain ⟨rfl, rfl⟩ := h; simp
    · rw [if_neg h, if_neg (by
        rintro ⟨h1, h2⟩; apply h
        have h2 := Option.some.inj h2
        exact ⟨h1, by omega⟩)]
  have c1 : ∀ a b d, cell1 c cur o targets a b d (i, j) = if a = i ∧ b = t ∧ d ∈ List.range c.length1 then
      coefOf c cur o q (regWeight c i t q) j d else [] := by
    intro a b d
    unfold cell1
    dsimp only
    rw [hj, hq]
    by_cases h : a = i ∧ b = t ∧ d ∈ List.range c.length1
    · obtain ⟨rfl, rfl, h⟩ := h; rw [List.mem_range] at h; simp [h]
    · rw [if_neg h, if_neg (by
        rintro ⟨h1, h2, h3⟩; apply h
        have h2 := Option.some.inj h2
        exact ⟨h1, by omega, by simpa using h3⟩)]
  have step : ∃ st1, (if c.keepModels = true then push0 S c (keepOf c cur o q (regWeight c i t q) none none) i (t : Int) st else (st, true)) = (st1, true) ∧
      st1.cols = st.cols ∧ st1.targets = st.targets ∧ Inv S c big tiny st1 (fun a b => h0 a b ++ cell0 c cur o targets a b (i, j)) h1 := by
    by_cases hk : c.keepModels = true
    · rw [if_pos hk]
      obtain ⟨st1, f1, f2, f3, f4⟩ := push0_spec hI (keepOf c cur o q (regWeight c i t q) none none) (keepOf_inData hr hc o q _ _ _) hi ht
      refine ⟨st1, f1, f2, f3, ?_⟩
      refine f4.congr (fun a b => ?_) fun _ _ _ => rfl
      rw [c0, if_pos hk]
    · rw [if_neg hk]
      refine ⟨st, rfl, rfl, rfl, ?_⟩
      refine hI.congr (fun a b => ?_) fun _ _ _ => rfl
      rw [c0, if_neg hk]; simp
  obtain ⟨st1, f1, f2, f3, f4⟩ := step
  rw [f1]
  simp only [if_true]
  obtain ⟨st', e1, e2, e3, e4⟩ := pushCoefs_spec hr hc o q (regWeight c i t q) hi ht j (List.range c.length1) st1 _ _
    (fun k h => List.mem_range.1 h) List.nodup_range f4
  refine ⟨st', e1, e2.trans f2, e3.trans f3, ?_⟩
  refine e4.congr (fun _ _ => rfl) fun a b d => ?_
  rw [c1]

theorem pushCells_spec (hr : Ready c) {cur : List Int} (hc : ∀ a ∈ cur, 0 ≤ a ∧ a < (c.numEndo + c.numExo : Nat)) (o : RegOut) (targets : List Int)
    (ht : ∀ a ∈ targets, 0 ≤ a ∧ a < (c.lengthTargets : Int)) : ∀ (L : List (Nat × Nat)) (st : RegSt) (b : Bool) (h0 h1),
    (∀ p ∈ L, p.1 < c.lengthEvals ∧ p.2 < targets.length) → Inv S c big tiny st h0 h1 →
    ∃ st', pushCells S c cur o targets L st b = (st', some (b && L.all fun p => (o.metric p.1 p.2).isNone)) ∧
      st'.cols = st.cols ∧ st'.targets = st.targets ∧ ((L.all fun p => (o.metric p.1 p.2).isNone) = true → st' = st) ∧
      Inv S c big tiny st' (fun i t => h0 i t ++ L.flatMap (cell0 c cur o targets i t)) (fun i t k => h1 i t k ++ L.flatMap (cell1 c cur o targets i t k)) := by
  intro L
  induction L with
  | nil => intro st b h0 h1 _ hI; exact ⟨st, by simp [pushCells], rfl, rfl, fun _ => rfl, by simpa using hI⟩
  | cons p L ih =>
    intro st b h0 h1 hp hI
    have hpL : ∀ p ∈ L, p.1 < c.lengthEvals ∧ p.2 < targets.length := fun q h => hp q (by simp [h])
    obtain ⟨hp1, hp2⟩ := hp p (by simp)
    obtain ⟨i, j⟩ := p
    obtain ⟨ht1, ht2⟩ := ht _ (List.getElem_mem hp2)
    obtain ⟨t, htt⟩ : ∃ t : Nat, targets[j] = (t : Int) := ⟨targets[j].toNat, by dsimp only at ht1; omega⟩
    have hj : targets[j]? = some (t : Int) := by rw [List.getElem?_eq_getElem hp2, htt]
    unfold pushCells
    dsimp only at hp1 hp2 ⊢
    rw [hj]
    dsimp only
    cases hq : o.metric i j with
    | none =>
      obtain ⟨st', e1, e2, e3, e4, e5⟩ := ih st b h0 h1 hpL hI
      refine ⟨st', by rw [e1]; simp [hq], e2, e3, fun h => e4 (by simpa [hq] using h), ?_⟩
      refine e5.congr (fun a b => ?_) fun a b d => ?_
      · have : cell0 c cur o targets a b (i, j) = [] := by unfold cell0; simp [hq]
        rw [List.flatMap_cons, this, List.nil_append]
      · have : cell1 c cur o targets a b d (i, j) = [] := by unfold cell1; simp [hq]
        rw [List.flatMap_cons, this, List.nil_append]
    | some q =>
      dsimp only
      obtain ⟨st1, f1, f2, f3, f4⟩ := pushCell_spec hr hc o targets hp1 (by rw [htt] at ht2; exact_mod_cast ht2) hj hq hI
      rw [f1]
      simp only [if_true]
      obtain ⟨st', e1, e2, e3, e4, e5⟩ := ih st1 false _ _ hpL f4
      refine ⟨st', by rw [e1]; simp [hq], e2.trans f2, e3.trans f3, fun h => by simp [hq] at h, ?_⟩
      refine e5.congr (fun a b => ?_) fun a b d => ?_
      · rw [List.flatMap_cons, List.append_assoc]
      · rw [List.flatMap_cons, List.append_assoc]

end Srch
end LDT
