import Verif.Lemmas.RResults
/-!
# C142 The results of a search that is called from R
-/
namespace LDT
namespace Rs
variable {α : Type}

/-- For every request, every data with names and everything the searchers have gathered: the results are, metric by
metric and target by target, exactly what is wanted, in this order, with the names of the variables; nothing is read
outside of the names, whether or not there are weights between the variables. -/
theorem C142_results (g : Gathered α) (items : Items) (endo exo names1 ms ts : List String) (w : Option String)
    (hw : g.hasWeight = w.isSome) (hf : Fits g items endo exo names1) :
    results g items (endo ++ exo).length ts.length ms.length ms (columns endo exo w) ts names1 (endo ++ exo) =
      .ok ((ms.zipIdx).flatMap fun x => (ts.zipIdx).flatMap fun y =>
        wanted g items (endo ++ exo) names1 x.2 y.2 x.1 y.1) :=
  results_ok g items endo exo names1 ms ts w hw hf

/-- With different names of metrics and of targets: the items that carry the names of metric `e` and target `t` are
exactly those that are wanted for them. -/
theorem C142_found (g : Gathered α) (items : Items) (endo exo names1 ms ts : List String) (w : Option String)
    (hw : g.hasWeight = w.isSome) (hf : Fits g items endo exo names1) (hm : ms.Nodup) (ht : ts.Nodup)
    (e t : ℕ) (he : e < ms.length) (h't : t < ts.length) :
    ∃ l, results g items (endo ++ exo).length ts.length ms.length ms (columns endo exo w) ts names1 (endo ++ exo)
        = .ok l ∧
      (l.filter fun x => decide (x.metric = ms[e] ∧ x.target = ts[t])) =
        wanted g items (endo ++ exo) names1 e t ms[e] ts[t] := by
  refine ⟨_, results_ok g items endo exo names1 ms ts w hw hf, ?_⟩
  have hin : ∀ x : String × ℕ, ((ts.zipIdx).flatMap fun y =>
      wanted g items (endo ++ exo) names1 x.2 y.2 x.1 y.1).filter
        (fun z => decide (z.metric = ms[e] ∧ z.target = ts[t])) =
      if x.1 = ms[e] then wanted g items (endo ++ exo) names1 x.2 t x.1 ts[t] else [] := by
    intro x
    by_cases hx : x.1 = ms[e]
    · rw [if_pos hx, filter_flatMap _ (fun y => y.1 = ts[t]) _ ts.zipIdx]
      · rw [zipIdx_name ts ht t h't]; simp
      · intro y _ hy
        refine filter_all fun z hz => ?_
        obtain ⟨h1, h2⟩ := wanted_label _ _ _ _ _ _ _ _ z hz
        simp [h1, h2, hx, hy]
      · intro y _ hy
        refine List.filter_eq_nil_iff.2 fun z hz => ?_
        obtain ⟨h1, h2⟩ := wanted_label _ _ _ _ _ _ _ _ z hz
        simp [h1, h2, hy]
    · rw [if_neg hx, List.filter_eq_nil_iff]
      intro z hz
      obtain ⟨y, -, hz⟩ := List.mem_flatMap.1 hz
      obtain ⟨h1, h2⟩ := wanted_label _ _ _ _ _ _ _ _ z hz
      simp [h1, hx]
  have hout : ∀ l : List (String × ℕ), (l.flatMap fun x => (ts.zipIdx).flatMap fun y =>
      wanted g items (endo ++ exo) names1 x.2 y.2 x.1 y.1).filter
        (fun z => decide (z.metric = ms[e] ∧ z.target = ts[t])) =
      (l.filter fun x => decide (x.1 = ms[e])).flatMap fun x =>
        wanted g items (endo ++ exo) names1 x.2 t x.1 ts[t] := by
    intro l
    induction l with
    | nil => rfl
    | cons x l ih =>
      rw [List.flatMap_cons, List.filter_append, ih, hin x, List.filter_cons]
      by_cases hx : x.1 = ms[e]
      · rw [if_pos hx, if_pos (by simpa using hx), List.flatMap_cons]
      · rw [if_neg hx, if_neg (by simpa using hx), List.nil_append]
  rw [hout, zipIdx_name ms hm e he]
  simp

/-- A wrong number of names of targets or metrics is refused. -/
theorem C142_refused (g : Gathered α) (items : Items) (covars lt le : ℕ) (ms cs ts names1 inc : List String)
    (h : ts.length ≠ lt ∨ ms.length ≠ le) : results g items covars lt le ms cs ts names1 inc = .throws := by
  unfold results
  rcases h with h | h
  · rw [if_pos h]
  · split_ifs <;> rfl

/-- A wrong number of names of rows or columns of a table is refused; no names at all are possible. -/
theorem C142_table (cells : List (List α)) (rows cols : List String) (n m : ℕ) :
    (asMatrix cells rows cols n m = .throws ↔ (rows ≠ [] ∧ rows.length ≠ n) ∨ (cols ≠ [] ∧ cols.length ≠ m)) ∧
    ∀ v, asMatrix cells rows cols n m = .ok v → v = .table rows cols cells := by
  unfold asMatrix
  split_ifs with h1 h2
  · simp [h1]
  · simp [h2]
  · refine ⟨⟨fun h => (by cases h), fun h => absurd h (by tauto)⟩, fun v h => ?_⟩
    cases h; rfl

/-- The options of the search are the wanted ones; evaluations of the models are kept if they are wanted, if inclusion
weights are wanted, or if parameters are wanted and they need the estimated models. -/
theorem C142_options (a : Ask) (length1 : ℕ) (needs : Bool) (it : Items) (h : updateItems a length1 needs = .ok it) :
    it.keepAll = a.all ∧ it.keepMixture = a.mixture4 ∧ it.keepInclusion = a.inclusion ∧ it.bestK = a.bestK ∧
    it.multiplier = a.extremeMultiplier ∧ it.cdfs = a.cdfs ∧ it.length1 = (if a.type1 then length1 else 0) ∧
    it.length2 = 0 ∧
    (it.keepModel = true ↔ a.model = true ∨ a.inclusion = true ∨ (needs = true ∧ a.type1 = true ∧ 0 < length1)) := by
  unfold updateItems at h
  dsimp only at h
  split_ifs at h <;> first | cases h | skip
  all_goals simp_all

/-- A request is refused exactly if neither models nor parameters are wanted or nothing about them is. -/
theorem C142_asked (a : Ask) (length1 : ℕ) (needs : Bool) :
    updateItems a length1 needs = .throws ↔
      (a.model = false ∧ a.inclusion = false ∧ (a.type1 = false ∨ length1 = 0)) ∨
      (a.bestK = 0 ∧ a.all = false ∧ a.cdfs = [] ∧ a.mixture4 = false ∧ a.extremeMultiplier ≤ 0 ∧
        a.inclusion = false) := by
  obtain ⟨m, al, mi, i, b, x, c, t⟩ := a
  unfold updateItems
  dsimp only
  have hb : b = 0 ↔ ¬ 0 < b := by omega
  have hx : x ≤ 0 ↔ ¬ 0 < x := Rat.not_lt.symm
  have hl : length1 = 0 ↔ ¬ 0 < length1 := by omega
  rw [hb, hx]
  cases m <;> cases al <;> cases mi <;> cases i <;> cases t <;> cases needs <;>
    by_cases h1 : 0 < b <;> by_cases h2 : 0 < x <;> by_cases h3 : c = [] <;> by_cases h4 : length1 = 0 <;>
    simp [h1, h2, h3, h4, Nat.pos_iff_ne_zero]

/-- Inclusion weights that are wanted are given for every metric and target: exactly one table, with a row for each
variable. -/
theorem C142_inclusion (a : Ask) (length1 : ℕ) (needs : Bool) (it : Items)
    (h : updateItems a length1 needs = .ok it) (hi : a.inclusion = true) (g : Gathered α)
    (vars names1 : List String) (e t : ℕ) (m tn : String) :
    ((wanted g it vars names1 e t m tn).filter fun x => decide (x.type = "inclusion")) =
      [⟨m, tn, "inclusion", .none, .table vars ["Mean", "Count"]
        ((List.range vars.length).map fun i => g.inclusion e t i)⟩] := by
  obtain ⟨-, -, h3, -, -, -, -, -, h9⟩ := C142_options a length1 needs it h
  have hk : it.keepModel = true := h9.2 (Or.inr (Or.inl hi))
  have hi' : it.keepInclusion = true := h3.trans hi
  rw [wanted_filter g it vars names1 e t m tn "inclusion" (by decide) (by decide)]
  simp [hk, hi', range_zipIdx vars fun i => g.inclusion e t i]

/-- If parameters are wanted, their moments, if wanted, are given for every metric and target: exactly one table, with a
row for each parameter; and none if they are not wanted. -/
theorem C142_mixture (a : Ask) (length1 : ℕ) (needs : Bool) (it : Items)
    (h : updateItems a length1 needs = .ok it) (ht : a.type1 = true) (g : Gathered α)
    (vars names1 : List String) (hl : names1.length = it.length1) (hn : 0 < length1) (e t : ℕ) (m tn : String) :
    ((wanted g it vars names1 e t m tn).filter fun x => decide (x.type = "mixture")) =
      if a.mixture4 then
        [⟨m, tn, "mixture", .none, .table names1 ["Mean", "Variance", "Skewness", "Kurtosis", "Count", "SumWeights"]
          ((List.range length1).map fun i => g.mixture e t i)⟩]
      else [] := by
  obtain ⟨-, h2, -, -, -, -, h7, -, -⟩ := C142_options a length1 needs it h
  rw [ht, if_pos rfl] at h7
  have h0 : it.length1 ≠ 0 := by omega
  have hl' : names1.length = length1 := hl.trans h7
  subst hl'
  rw [wanted_filter g it vars names1 e t m tn "mixture" (by decide) (by decide)]
  simp [h0, ← h2, range_zipIdx names1 fun i => g.mixture e t i]

/-- The same for the bounds. -/
theorem C142_bounds (a : Ask) (length1 : ℕ) (needs : Bool) (it : Items)
    (h : updateItems a length1 needs = .ok it) (ht : a.type1 = true) (g : Gathered α)
    (vars names1 : List String) (hl : names1.length = it.length1) (hn : 0 < length1) (e t : ℕ) (m tn : String) :
    ((wanted g it vars names1 e t m tn).filter fun x => decide (x.type = "extreme bound")) =
      if 0 < a.extremeMultiplier then
        [⟨m, tn, "extreme bound", .number a.extremeMultiplier, .table names1 ["Lower", "Upper"]
          ((List.range length1).map fun i => g.bounds e t i)⟩]
      else [] := by
  obtain ⟨-, -, -, -, h2, -, h7, -, -⟩ := C142_options a length1 needs it h
  rw [ht, if_pos rfl] at h7
  have h0 : it.length1 ≠ 0 := by omega
  have hl' : names1.length = length1 := hl.trans h7
  subst hl'
  rw [wanted_filter g it vars names1 e t m tn "extreme bound" (by decide) (by decide)]
  simp [h0, ← h2, range_zipIdx names1 fun i => g.bounds e t i]

/-- The names in a search for discrete choice models: the data has one endogenous variable, perhaps weights, and the
exogenous variables. The rows of the tables are named after the exogenous variables and the thresholds, as many as
there are parameters; the inclusion weights after all variables, without the weights. -/
theorem C142_dcNames (y : String) (exo : List String) (w : Option String) (numChoices : ℕ) :
    ∃ thresholds : List String, thresholds.length = numChoices - 2 ∧
      dcNames (columns [y] exo w) 1 1 numChoices w.isSome = (exo ++ thresholds, [y], [y] ++ exo) := by
  refine ⟨(List.range (numChoices - 2)).map fun i => "Threshold" ++ toString (i + 1), by simp, ?_⟩
  cases w <;> simp [dcNames, columns]

/-- The number of failures is the sum over the messages; the last line tells that all estimations failed exactly if as
many failed as were searched. -/
theorem C142_counts (fails : List (String × ℕ)) (searched : ℕ) (printMsg : Bool) :
    (counts fails searched printMsg).1 = (fails.map (·.2)).sum ∧
    ((counts fails searched printMsg).2 = some true ↔
      printMsg = true ∧ 0 < searched ∧ (fails.map (·.2)).sum = searched) ∧
    ((counts fails searched printMsg).2 = none ↔ printMsg = false ∨ (fails.map (·.2)).sum = 0) := by
  unfold counts
  dsimp only
  refine ⟨rfl, ?_, ?_⟩
  · split_ifs with h
    · obtain ⟨h1, h2⟩ := h
      simp only [Option.some.injEq, decide_eq_true_eq]
      exact ⟨fun h3 => ⟨h2, by omega, h3⟩, fun h3 => h3.2.2⟩
    · refine ⟨fun h' => (by cases h'), fun ⟨h1, h2, h3⟩ => absurd ⟨by omega, h1⟩ h⟩
  · split_ifs with h
    · obtain ⟨h1, h2⟩ := h
      refine ⟨fun h' => (by cases h'), fun h' => ?_⟩
      rcases h' with h' | h'
      · rw [h2] at h'; cases h'
      · omega
    · refine ⟨fun _ => ?_, fun _ => rfl⟩
      cases printMsg
      · exact Or.inl rfl
      · exact Or.inr (by simpa using h)

/-- Violated: in a search for discrete choice models the option `weightedEval` has no effect. -/
theorem C142_weighted_violated : ∀ wanted, searchDcWeighted wanted = false := fun _ => rfl

/-- Violated: a request is accepted although nothing it asks for is given: the moments of the parameters are wanted, but
the parameters are not. -/
theorem C142_goal_violated (g : Gathered α) :
    ∃ (a : Ask) (it : Items), a.mixture4 = true ∧ updateItems a 2 true = .ok it ∧
      ∀ vars names1 e t m tn, wanted g it vars names1 e t m tn = [] := by
  refine ⟨⟨true, false, true, false, 0, 0, [], false⟩, ⟨true, false, true, false, 0, 0, [], 0, 0⟩, rfl,
    by decide +kernel, ?_⟩
  intro vars names1 e t m tn
  simp [wanted]

/-- One endogenous and two exogenous variables with weights; one best model with the second exogenous variable. -/
def sample : Gathered ℕ :=
  ⟨true, fun _ _ => [⟨1, 2, 3, 4, [0], [2], []⟩], fun _ _ => [], fun _ _ i => [i, i], fun _ _ _ => [],
    fun _ _ _ _ => [], fun _ _ _ => [], fun _ _ _ => []⟩

/-- The case meets the hypotheses. -/
theorem C142_example :
    Fits sample ⟨true, false, false, true, 1, 0, [], 0, 0⟩ ["y"] ["a", "b"] ["a", "b"] ∧
    updateItems ⟨false, false, false, true, 1, 0, [], false⟩ 2 true =
      .ok ⟨true, false, false, true, 1, 0, [], 0, 0⟩ ∧
    columns ["y"] ["a", "b"] (some "(Weights)") = ["y", "(Weights)", "a", "b"] ∧
    results sample ⟨true, false, false, true, 1, 0, [], 0, 0⟩ 3 1 1 ["aic"] ["y", "(Weights)", "a", "b"] ["y"] ["a", "b"]
      ["y", "a", "b"] =
      .ok [⟨"aic", "y", "best model", .index 0, .keep 1 2 ["y"] ["b"] none []⟩,
        ⟨"aic", "y", "inclusion", .none, .table ["y", "a", "b"] ["Mean", "Count"] [[0, 0], [1, 1], [2, 2]]⟩] := by
  refine ⟨⟨fun h => absurd h (by decide), rfl, ?_, ?_, ?_⟩, by decide +kernel, by decide +kernel, by decide +kernel⟩
  · intro e t b hb
    have hb := List.mem_singleton.1 hb
    subst hb
    exact ⟨by decide, by decide⟩
  · intro e t b hb; simp [sample] at hb
  · intro e t i b hb; simp [sample] at hb

/-- **C142**, violated: an index of a variable without a name is not refused: memory after the names is read. -/
theorem C142_violated_index (vec : List String) (indices : List ℕ) (skip : ℕ) :
    (∃ i ∈ indices, vec.length ≤ i + skip) ↔ extractElements vec indices skip = .ub := by
  unfold extractElements
  induction indices with
  | nil =>
    constructor
    · rintro ⟨i, h, -⟩; cases h
    · intro h; cases h
  | cons a l ih =>
    rw [List.mapM_cons]
    rcases Nat.lt_or_ge (a + skip) vec.length with h | h
    · rw [List.getElem?_eq_getElem h]
      constructor
      · rintro ⟨i, hi, hl⟩
        rcases List.mem_cons.1 hi with rfl | hi
        · omega
        · show (_ >>= _) = _
          rw [ih.1 ⟨i, hi, hl⟩]
          rfl
      · intro e
        have e' : (l.mapM fun i => match vec[i + skip]? with | some x => Outcome.ok x | none => Outcome.ub) = .ub := by
          revert e
          show (_ >>= _) = _ → _
          cases (l.mapM fun i => match vec[i + skip]? with | some x => Outcome.ok x | none => Outcome.ub) <;> intro e
          · cases e
          · cases e
          · rfl
          · cases e
        obtain ⟨i, hi, hl⟩ := ih.2 e'
        exact ⟨i, List.mem_cons_of_mem _ hi, hl⟩
    · rw [List.getElem?_eq_none h]
      exact ⟨fun _ => rfl, fun _ => ⟨a, List.mem_cons_self, h⟩⟩

end Rs
end LDT
