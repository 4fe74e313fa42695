import Verif.Lemmas.ChoiceSearch
/-! # Lemmas for C121: the simulations of a search when rows are missing -/
namespace LDT
namespace Dc
open Op Di Mx Arr Score

section Split
open Split
variable {K : Type} [Field K] [LinearOrder K] [FloorRing K]

theorem place_sizes {data : Mat K} {rowi : List ℤ} {op : Bool × ℤ} {f f' : Fill K} (h : place data rowi f op = .ok f') :
    f'.s.n0 = f.s.n0 ∧ f'.s.cols = f.s.cols := by
  unfold place at h
  cases hr : rowi[op.2.toNat]? with
  | none => rw [hr] at h; cases h
  | some v =>
    rw [hr] at h
    dsimp only at h
    split_ifs at h
    · obtain ⟨s, hs, h⟩ := bind_ok h
      obtain ⟨m, -, hs⟩ := bind_ok hs
      rw [← Outcome.ok.inj h, ← Outcome.ok.inj hs]
      exact ⟨rfl, rfl⟩
    · obtain ⟨s, hs, h⟩ := bind_ok h
      obtain ⟨m, -, hs⟩ := bind_ok hs
      rw [← Outcome.ok.inj h, ← Outcome.ok.inj hs]
      exact ⟨rfl, rfl⟩

theorem places_sizes {data : Mat K} {rowi : List ℤ} : ∀ (l : List (Bool × ℤ)) (f f' : Fill K), l.foldlM (place data rowi) f = .ok f' →
    f'.s.n0 = f.s.n0 ∧ f'.s.cols = f.s.cols
  | [], f, f', h => by rw [← Outcome.ok.inj h]; exact ⟨rfl, rfl⟩
  | o :: l, f, f', h => by
    rw [List.foldlM_cons] at h
    obtain ⟨g, hg, h⟩ := bind_ok h
    obtain ⟨a, b⟩ := places_sizes l g f' h
    obtain ⟨a', b'⟩ := place_sizes hg
    exact ⟨a.trans a', b.trans b'⟩

theorem classLoop_sizes {data : Mat K} {st : Strata K K} {n0 : ℤ} {workI : ℕ → List ℤ} : ∀ (l : List ℕ) (sumM : ℤ) (f f' : Fill K),
    classLoop data st n0 workI l sumM f = .ok f' → f'.s.n0 = f.s.n0 ∧ f'.s.cols = f.s.cols
  | [], _, f, f', h => by rw [← Outcome.ok.inj h]; exact ⟨rfl, rfl⟩
  | a :: rest, sumM, f, f', h => by
    rw [classLoop] at h
    obtain ⟨mi, -, h⟩ := bind_ok h
    obtain ⟨rowi, -, h⟩ := bind_ok h
    have tail : ∀ (mi0 sumM' : ℤ), (if mi0 < 0 then Outcome.ub
        else do
          let f ← List.foldlM (place data rowi) f (List.map (fun w => (false, w)) (List.take mi0.toNat (workI a)))
          let f ← List.foldlM (place data rowi) f (List.map (fun w => (true, w)) (List.drop mi0.toNat (workI a)))
          classLoop data st n0 workI rest sumM' f) = Outcome.ok f' → f'.s.n0 = f.s.n0 ∧ f'.s.cols = f.s.cols := by
      intro mi0 sumM' h
      by_cases hm : mi0 < 0
      · rw [if_pos hm] at h; cases h
      rw [if_neg hm] at h
      obtain ⟨g, hg, h⟩ := bind_ok h
      obtain ⟨g', hg', h⟩ := bind_ok h
      obtain ⟨a1, b1⟩ := classLoop_sizes rest _ _ _ h
      obtain ⟨a2, b2⟩ := places_sizes _ _ _ hg'
      obtain ⟨a3, b3⟩ := places_sizes _ _ _ hg
      exact ⟨a1.trans (a2.trans a3), b1.trans (b2.trans b3)⟩
    dsimp only at h
    by_cases he : rest.isEmpty = true
    · rw [if_pos he] at h
      by_cases h1 : n0 - sumM ≤ 0
      · rw [if_pos h1] at h; cases h
      rw [if_neg h1] at h
      by_cases h2 : n0 - sumM > mi
      · rw [if_pos h2] at h; cases h
      rw [if_neg h2] at h
      exact tail _ _ h
    · rw [if_neg he] at h
      exact tail _ _ h

/-- The sizes of the training sample. -/
theorem shuffle_sizes {n : ℕ} {data : Mat K} {storage : List K} {ratio : K} {fix : ℤ} {st : Strata K K} {w : ℕ → List ℤ} {s : Samples K}
    (h1 : calculateD n data storage ratio fix = .ok st) (h2 : shuffleD data st w = .ok s) :
    s.n0 = trainSize data.rows ratio fix ∧ s.cols = data.cols := by
  have hst : st.samples.n0 = trainSize data.rows ratio fix ∧ st.samples.cols = data.cols := by
    unfold calculateD at h1
    dsimp only at h1
    obtain ⟨counts, -, h1⟩ := bind_ok h1
    split_ifs at h1
    obtain ⟨rows, -, h1⟩ := bind_ok h1
    obtain ⟨order, -, h1⟩ := bind_ok h1
    rw [← Outcome.ok.inj h1]
    exact ⟨rfl, rfl⟩
  unfold shuffleD at h2
  obtain ⟨f, hf, h2⟩ := bind_ok h2
  obtain ⟨a, b⟩ := classLoop_sizes _ _ _ _ hf
  rw [← Outcome.ok.inj h2]
  exact ⟨a.trans hst.1, b.trans hst.2⟩

end Split

/-- More rows need more work space. -/
theorem construct_strict {form : Form} {n n' x c : ℤ} {dd : Bool} {a b : Sizes} (hn : n < n') (hx : 0 ≤ x) (ha : construct form n x c dd = .ok a)
    (hb : construct form n' x c dd = .ok b) : a.work < b.work := by
  unfold construct at ha hb
  split_ifs at ha hb
  all_goals
    rw [← Outcome.ok.inj ha, ← Outcome.ok.inj hb]
    dsimp only
    unfold priorOls Ls.olsWork
    have h1 : n * x ≤ n' * x := mul_le_mul_of_nonneg_right hn.le hx
    have h2 : x * n ≤ x * n' := mul_le_mul_of_nonneg_left hn.le hx
    apply max_lt_max
    · linarith
    · linarith

theorem ext_work {form : Form} {rows cols c nf : ℤ} {hasWeight : Bool} {sz : ExtSizes}
    (h : extConstruct form rows cols hasWeight false c false nf none = .ok sz) :
    ∃ m, construct form rows (cols - (if hasWeight then 2 else 1)) c false = .ok m ∧
      sz.work = if nf > 0 then max m.work (rows + c - 2) else m.work := by
  unfold extConstruct at h
  obtain ⟨ds, h1, h⟩ := bind_ok h
  obtain ⟨m, h2, h⟩ := bind_ok h
  dsimp only at h
  simp only [Bool.false_eq_true, if_false] at h
  exact ⟨m, h2, by rw [← Outcome.ok.inj h]⟩

theorem construct_work_ge {form : Form} {rows x c : ℤ} {dd : Bool} {m : Sizes} (hr : 0 ≤ rows) (hx : 1 ≤ x) (h : construct form rows x c dd = .ok m) :
    rows + c - 2 ≤ m.work := by
  unfold construct at h
  split_ifs at h
  all_goals
    rw [← Outcome.ok.inj h]
    dsimp only
    refine le_trans ?_ (le_max_left _ _)
    unfold priorOls Ls.olsWork
    have h1 : 0 ≤ rows * x := mul_nonneg hr (by omega)
    have h2 : 0 ≤ x * rows := mul_nonneg (by omega) hr
    have h3 : 0 ≤ 2 * x * x := by nlinarith
    linarith

/-- A model that was made for fewer rows than the training sample has cannot be estimated. -/
theorem fit_throws {S : Fns} {u : SimSetup} {n0 n1 : ℤ} {sz : ExtSizes} {E : ∀ k, Env k} {other : Outcome (Ext u.form u.model.cuts)} {junk : ℕ → ℕ → Val ℝ}
    {s : Split.Samples ℝ} (hsz : extConstruct u.form n0 s.cols u.hasWeight false u.numChoices false n1 none = .ok sz) (h0 : 0 ≤ n0) (hlt : n0 < s.n0)
    (hx : 1 ≤ s.cols - (if u.hasWeight then 2 else 1)) : ∀ q, simFit S u sz E other junk s ≠ .ok q := by
  intro q h
  unfold simFit at h
  dsimp only at h
  obtain ⟨e, he, -⟩ := bind_ok h
  unfold extended at he
  dsimp only at he
  obtain ⟨temp, ht, he⟩ := bind_ok he
  have hcosts : u.model.costs.map (fun c => (c.length : ℤ)) = none := rfl
  rw [hcosts] at ht
  obtain ⟨m, hm, ew⟩ := ext_work hsz
  obtain ⟨m', hm', ew'⟩ := ext_work (show extConstruct u.form s.n0 s.cols u.hasWeight false u.numChoices false _ none = .ok temp from ht)
  have hs := construct_strict hlt (by omega) hm hm'
  have g1 := construct_work_ge h0 hx hm
  have g2 := construct_work_ge (by omega) hx hm'
  have : temp.work > sz.work := by
    rw [ew, ew']
    split_ifs <;> simp only [gt_iff_lt, max_eq_left g1, max_eq_left g2] <;> exact hs
  rw [if_pos (Or.inl this)] at he
  cases he

theorem loop_none {u : SimSetup} {A : Type} {draw : ℕ → Outcome A} {fit : A → Outcome (Data × (ℕ → ℕ → Val ℝ))}
    (hf : ∀ i a, draw i = .ok a → ∀ q, fit a ≠ .ok q) : ∀ (l : List ℕ) (s s' : SimState), simLoop u draw fit l s = .ok s' → s'.valid = s.valid
  | [], s, s', h => by rw [← Outcome.ok.inj h]
  | i :: l, s, s', h => by
    rw [simLoop] at h
    obtain ⟨a, ha, h⟩ := bind_ok h
    cases hq : fit a with
    | throws =>
      rw [hq] at h
      exact loop_none hf l { tally := s.tally, valid := s.valid, invalid := s.invalid + 1 } s' h
    | ub => rw [hq] at h; cases h
    | diverges => rw [hq] at h; cases h
    | ok q => exact absurd hq (hf i a ha q)

section
variable {S : Fns} {u : SimSetup} {E : ∀ k, Env k} {other : Outcome (Ext u.form u.model.cuts)} {junk : ℕ → ℕ → Val ℝ} {simMax : ℕ} {data : Mat ℝ}
  {storage : List ℝ} {orders : ℕ → ℕ → List ℤ}

/-- If the training sample is larger than the model was made for, there is no result. -/
theorem made_larger {n1 : ℤ} {check : Bool} (h0 : 0 ≤ data.rows - n1) (hlt : data.rows - n1 < Split.trainSize data.rows u.ratio u.fix)
    (hx : 1 ≤ data.cols - (if u.hasWeight then 2 else 1)) : ∀ r, simulateMade S u n1 check E other junk simMax data storage orders ≠ .ok r := by
  intro r h
  unfold simulateMade at h
  obtain ⟨_, -, h⟩ := bind_ok h
  by_cases hb : u.form ≠ .binary
  · rw [if_pos hb] at h; cases h
  rw [if_neg hb] at h
  obtain ⟨sz, hsz, h⟩ := bind_ok h
  obtain ⟨st, hst, h⟩ := bind_ok h
  obtain ⟨s, hs, h⟩ := bind_ok h
  have := loop_none (fun i a ha q => by
    obtain ⟨e1, e2⟩ := shuffle_sizes hst ha
    refine fit_throws (n0 := data.rows - n1) (n1 := n1) ?_ h0 ?_ ?_ q
    · rw [e2]; exact hsz
    · rw [e1]; exact hlt
    · rw [e2]; exact hx) _ _ _ hs
  have hv := (simEnd_ok h).2.1
  exact hv this

theorem simConstruct_ok {rows cols : ℤ} {sz : SimSizes} (h : simConstruct u rows cols = .ok sz) :
    sz.n1 = rows - Split.trainSize rows u.ratio u.fix ∧ Split.trainSize rows u.ratio u.fix ≠ 0 ∧ Split.trainSize rows u.ratio u.fix ≠ rows ∧
    (u.fix = 0 → 0 < u.ratio ∧ u.ratio < 1) ∧ 0 ≤ u.fix ∧
    extConstruct u.form (rows - sz.n1) cols u.hasWeight false u.numChoices false sz.n1 none = .ok sz.model := by
  unfold simConstruct at h
  dsimp only at h
  by_cases h1 : u.numChoices < 1
  · rw [if_pos h1] at h; cases h
  rw [if_neg h1] at h
  by_cases h2 : u.numChoices = 2 ∧ u.form = Form.ordered
  · rw [if_pos h2] at h; cases h
  rw [if_neg h2] at h
  by_cases h3 : u.numChoices > 2 ∧ u.form = Form.binary
  · rw [if_pos h3] at h; cases h
  rw [if_neg h3] at h
  by_cases h4 : u.costs = [] ∧ u.doTable = false ∧ u.doAuc = false
  · rw [if_pos h4] at h; cases h
  rw [if_neg h4] at h
  by_cases h5 : u.fix < 0
  · rw [if_pos h5] at h; cases h
  rw [if_neg h5] at h
  by_cases h6 : u.fix = 0 ∧ (u.ratio ≥ 1 ∨ u.ratio ≤ 0)
  · rw [if_pos h6] at h; cases h
  rw [if_neg h6] at h
  by_cases h7 : Split.trainSize rows u.ratio u.fix = 0 ∨ Split.trainSize rows u.ratio u.fix = rows
  · rw [if_pos h7] at h; cases h
  rw [if_neg h7] at h
  obtain ⟨m, hm, h⟩ := bind_ok h
  push Not at h7
  rw [← Outcome.ok.inj h]
  refine ⟨rfl, h7.1, h7.2, ?_, by omega, ?_⟩
  · intro hf
    by_contra hcon
    apply h6
    refine ⟨hf, ?_⟩
    by_contra hc
    push Not at hc
    exact hcon ⟨hc.2, hc.1⟩
  · rw [show rows - (rows - Split.trainSize rows u.ratio u.fix) = Split.trainSize rows u.ratio u.fix by ring]
    exact hm

/-- With the rows it was made for, an object simulates as a new one. -/
theorem made_same {check : Bool} {sz : SimSizes} (h : simConstruct u data.rows data.cols = .ok sz) :
    simulateMade S u sz.n1 check E other junk simMax data storage orders = simulate S u E other junk simMax data storage orders := by
  obtain ⟨-, -, -, -, -, h6⟩ := simConstruct_ok h
  unfold simulateMade simulate
  rw [h, h6]
  cases check <;> rfl

/-- The test sample does not shrink slower than the data. -/
theorem train_ge {R rows : ℤ} {ratio : ℝ} {fix : ℤ} (hle : rows ≤ R) (h0 : 0 ≤ rows) (hf : 0 ≤ fix) (hr : fix = 0 → 0 < ratio ∧ ratio < 1) :
    rows - (R - Split.trainSize R ratio fix) ≤ Split.trainSize rows ratio fix := by
  unfold Split.trainSize
  by_cases h : fix > 0
  · rw [if_pos h, if_pos h]; omega
  · rw [if_neg h, if_neg h]
    obtain ⟨r0, r1⟩ := hr (by omega)
    unfold Split.round
    have a1 : (0 : ℝ) ≤ (R : ℝ) * ratio := mul_nonneg (by exact_mod_cast h0.trans hle) r0.le
    have a2 : (0 : ℝ) ≤ (rows : ℝ) * ratio := mul_nonneg (by exact_mod_cast h0) r0.le
    rw [if_pos a1, if_pos a2]
    have key : (R : ℝ) * ratio + 1 / 2 ≤ (rows : ℝ) * ratio + 1 / 2 + ((R - rows : ℤ) : ℝ) := by
      push_cast
      have : (0 : ℝ) ≤ (R : ℝ) - rows := by exact_mod_cast sub_nonneg.2 hle
      nlinarith
    have := Int.floor_le_floor key
    rw [Int.floor_add_intCast] at this
    omega

end
end Dc
end LDT
