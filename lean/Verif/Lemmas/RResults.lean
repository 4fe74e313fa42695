import Verif.Spec.RResults
import Verif.Lemmas.Outcome
import Mathlib.Data.List.Nodup
import Mathlib.Tactic.SplitIfs
/-!
# Lemmas for C142
-/
namespace LDT
namespace Rs
variable {α : Type}

theorem mapM_all {β γ : Type} (f : β → Outcome γ) (g : β → γ) : ∀ (l : List β), (∀ a ∈ l, f a = .ok (g a)) →
    l.mapM f = .ok (l.map g)
  | [], _ => rfl
  | a :: l, h => by
    rw [List.mapM_cons, h a (List.mem_cons_self ..), mapM_all f g l fun b hb => h b (List.mem_cons_of_mem _ hb)]
    rfl

theorem extract_endo (endo exo : List String) (w : Option String) (l : List ℕ) (h : ∀ i ∈ l, i < endo.length) :
    extractElements (columns endo exo w) l 0 = .ok (l.map fun i => (endo ++ exo).getD i "") := by
  refine mapM_all _ _ l fun i hi => ?_
  have := h i hi
  have h1 : (columns endo exo w)[i + 0]? = some endo[i] := by
    unfold columns
    rw [List.append_assoc, List.getElem?_append_left (by simpa using this)]
    simp [this]
  rw [h1]
  simp [List.getElem?_append_left, this]

theorem extract_exo (endo exo : List String) (w : Option String) (l : List ℕ)
    (h : ∀ i ∈ l, endo.length ≤ i ∧ i < (endo ++ exo).length) :
    extractElements (columns endo exo w) l (if w.isSome then 1 else 0) =
      .ok (l.map fun i => (endo ++ exo).getD i "") := by
  refine mapM_all _ _ l fun i hi => ?_
  obtain ⟨h1, h2⟩ := h i hi
  obtain ⟨k, rfl⟩ := Nat.exists_eq_add_of_le h1
  rw [List.length_append] at h2
  have hk : k < exo.length := by omega
  have h3 : (columns endo exo w)[endo.length + k + (if w.isSome then 1 else 0)]? = some exo[k] := by
    unfold columns
    cases w with
    | none => simp [hk]
    | some x =>
      simp only [Option.toList, Option.isSome, if_true]
      rw [List.getElem?_append_right (by simp)]
      simp only [List.length_append, List.length_singleton]
      rw [show endo.length + k + 1 - (endo.length + 1) = k by omega]
      simp [hk]
  rw [h3]
  simp [List.getElem?_append_right, hk]

theorem addKeeps_ok (endo exo : List String) (w : Option String) (m t type : String) (coefs : Bool) :
    ∀ (l : List (Keep α)) (j : ℕ), (∀ b ∈ l, b.Valid endo.length (endo ++ exo).length) →
    addKeeps m t type (columns endo exo w) coefs w.isSome j l =
      .ok ((l.zipIdx j).map fun x => ⟨m, t, type, .index x.2, tell (endo ++ exo) coefs x.1⟩)
  | [], _, _ => rfl
  | b :: l, j, h => by
    obtain ⟨h1, h2⟩ := h b (List.mem_cons_self ..)
    show (extractElements _ b.endo 0 >>= _) = _
    rw [extract_endo endo exo w _ h1]
    show (extractElements _ b.exo _ >>= _) = _
    rw [extract_exo endo exo w _ h2]
    show (addKeeps _ _ _ _ _ _ _ l >>= _) = _
    rw [addKeeps_ok endo exo w m t type coefs l (j + 1) fun b hb => h b (List.mem_cons_of_mem _ hb)]
    rfl

theorem asMatrix_ok (cells : List (List α)) (rows cols : List String) (n m : ℕ) (h1 : rows.length = n)
    (h2 : cols.length = m) : asMatrix cells rows cols n m = .ok (.table rows cols cells) := by
  unfold asMatrix
  rw [if_neg (by simp [h1]), if_neg (by simp [h2])]

theorem range_zipIdx {β γ : Type} (l : List β) (f : ℕ → γ) :
    (List.range l.length).map f = l.zipIdx.map fun x => f x.2 := by
  rw [List.zipIdx_eq_zip_range', ← List.range_eq_range']
  have : (l.zip (List.range l.length)).map Prod.snd = List.range l.length :=
    List.map_snd_zip (by simp)
  conv_lhs => rw [← this]
  rw [List.map_map]; rfl

theorem range_zip_get {β γ : Type} (l : List β) (d : β) (f : β → ℕ → γ) :
    (List.range l.length).map (fun i => f (l.getD i d) i) = l.zipIdx.map fun x => f x.1 x.2 := by
  refine List.ext_getElem (by simp) fun i h1 h2 => ?_
  simp at h1
  simp [h1]

theorem addLength_ok (g : Gathered α) (items : Items) (endo exo names1 : List String) (w : Option String)
    (hw : g.hasWeight = w.isSome) (hf : Fits g items endo exo names1) (hn : names1.length = items.length1) (e t : ℕ) (m tn : String) :
    addLength g items e t m tn (columns endo exo w) names1 = .ok (
    (if 0 < items.bestK then
      names1.zipIdx.flatMap fun x => told (endo ++ exo) m tn ("best item for '" ++ x.1 ++ "'") true (g.best1 e t x.2)
      else []) ++
    (items.cdfs.zipIdx.map fun x => ⟨m, tn, "cdf", .number x.1,
      .table names1 ["Mean", "Count", "SumWeights"] (names1.zipIdx.map fun y => g.cdf e t y.2 x.2)⟩) ++
    (if 0 < items.multiplier then
      [⟨m, tn, "extreme bound", .number items.multiplier,
        .table names1 ["Lower", "Upper"] (names1.zipIdx.map fun y => g.bounds e t y.2)⟩] else []) ++
    (if items.keepMixture then
      [⟨m, tn, "mixture", .none, .table names1 ["Mean", "Variance", "Skewness", "Kurtosis", "Count", "SumWeights"]
        (names1.zipIdx.map fun y => g.mixture e t y.2)⟩] else [])) := by
  have h1 : (List.range items.length1).mapM (bestItems g e t m tn (columns endo exo w) names1) = .ok (names1.zipIdx.map fun x =>
        told (endo ++ exo) m tn ("best item for '" ++ x.1 ++ "'") true (g.best1 e t x.2)) := by
    rw [← hn, ← range_zip_get names1 "" fun a i =>
        told (endo ++ exo) m tn ("best item for '" ++ a ++ "'") true (g.best1 e t i)]
    refine mapM_all _ _ _ fun i hi => ?_
    have hi := List.mem_range.1 hi
    unfold bestItems
    rw [List.getElem?_eq_getElem hi, hw]
    show addKeeps _ _ _ _ _ _ _ _ = _
    rw [addKeeps_ok endo exo w m tn _ true _ 0 (hf.best1 e t i)]
    simp [told, hi]
  have h2 : ((List.range items.cdfs.length).mapM fun k =>
      tableItem m tn "cdf" (.number (items.cdfs.getD k 0))
      (asMatrix ((List.range items.length1).map fun i => g.cdf e t i k) names1
        ["Mean", "Count", "SumWeights"] items.length1 3)) =
      .ok (items.cdfs.zipIdx.map fun x => [⟨m, tn, "cdf", .number x.1,
      .table names1 ["Mean", "Count", "SumWeights"] (names1.zipIdx.map fun y => g.cdf e t y.2 x.2)⟩]) := by
    rw [← range_zip_get items.cdfs 0 fun a k => [(⟨m, tn, "cdf", .number a,
      .table names1 ["Mean", "Count", "SumWeights"] (names1.zipIdx.map fun y => g.cdf e t y.2 k)⟩ : Item α)]]
    refine mapM_all _ _ _ fun k _ => ?_
    rw [asMatrix_ok _ _ ["Mean", "Count", "SumWeights"] _ 3 hn rfl, ← hn,
      range_zipIdx names1 fun i => g.cdf e t i k]
    rfl
  have h3 : (items.cdfs.zipIdx.map fun x => [(⟨m, tn, "cdf", .number x.1,
      .table names1 ["Mean", "Count", "SumWeights"] (names1.zipIdx.map fun y => g.cdf e t y.2 x.2)⟩ : Item α)]).flatten =
      items.cdfs.zipIdx.map fun x => ⟨m, tn, "cdf", .number x.1,
      .table names1 ["Mean", "Count", "SumWeights"] (names1.zipIdx.map fun y => g.cdf e t y.2 x.2)⟩ := by
    induction items.cdfs.zipIdx with
    | nil => rfl
    | cons a l ih => rw [List.map_cons, List.flatten_cons, ih]; rfl
  unfold addLength
  rw [h1, h2, asMatrix_ok _ _ ["Lower", "Upper"] _ 2 hn rfl,
    asMatrix_ok _ _ ["Mean", "Variance", "Skewness", "Kurtosis", "Count", "SumWeights"] _ 6 hn rfl, ← hn,
    range_zipIdx names1 fun i => g.bounds e t i, range_zipIdx names1 fun i => g.mixture e t i]
  unfold opt tableItem
  rw [← h3]
  by_cases hb : 0 < items.bestK <;> by_cases hx : 0 < items.multiplier <;> by_cases hm : items.keepMixture = true <;>
    simp only [hb, hx, hm, if_true, if_false, decide_true, decide_false] <;> rfl

theorem block_ok (g : Gathered α) (items : Items) (endo exo names1 : List String) (w : Option String)
    (hw : g.hasWeight = w.isSome) (hf : Fits g items endo exo names1) (e t : ℕ) (m tn : String) :
    block g items (endo ++ exo).length e t m tn (columns endo exo w) names1 (endo ++ exo) =
      .ok (wanted g items (endo ++ exo) names1 e t m tn) := by
  unfold block
  rw [hw, addKeeps_ok endo exo w m tn _ false _ 0 (hf.best e t),
    addKeeps_ok endo exo w m tn _ false _ 0 (hf.all e t), asMatrix_ok _ _ ["Mean", "Count"] _ 2 rfl rfl,
    range_zipIdx (endo ++ exo) fun i => g.inclusion e t i, hf.length2]
  by_cases h5 : items.length1 = 0
  · unfold wanted opt tableItem
    by_cases h1 : items.keepModel = true <;> by_cases h2 : 0 < items.bestK <;> by_cases h3 : items.keepAll = true <;>
      by_cases h4 : items.keepInclusion = true <;>
      simp only [h1, h2, h3, h4, h5, if_true, if_false, decide_true, decide_false, Bool.and_true, Bool.and_false,
        Bool.true_and, Bool.false_and, and_self, and_true, and_false,
        Nat.lt_irrefl] <;> rfl
  · have hp : 0 < items.length1 := Nat.pos_of_ne_zero h5
    rw [addLength_ok g items endo exo names1 w hw hf (hf.length1 hp)]
    unfold wanted opt tableItem
    by_cases h1 : items.keepModel = true <;> by_cases h2 : 0 < items.bestK <;> by_cases h3 : items.keepAll = true <;>
      by_cases h4 : items.keepInclusion = true <;>
      simp only [h1, h2, h3, h4, h5, hp, if_true, if_false, decide_true, decide_false, Bool.and_true, Bool.and_false,
        Bool.true_and, Bool.false_and, and_self, and_true, and_false,
        Nat.lt_irrefl] <;> rfl

theorem results_ok (g : Gathered α) (items : Items) (endo exo names1 ms ts : List String) (w : Option String)
    (hw : g.hasWeight = w.isSome) (hf : Fits g items endo exo names1) :
    results g items (endo ++ exo).length ts.length ms.length ms (columns endo exo w) ts names1 (endo ++ exo) =
      .ok ((ms.zipIdx).flatMap fun x => (ts.zipIdx).flatMap fun y =>
        wanted g items (endo ++ exo) names1 x.2 y.2 x.1 y.1) := by
  unfold results
  rw [if_neg (by simp), if_neg (by simp)]
  have h1 : ∀ x ∈ ms.zipIdx, (do
      let l ← (ts.zipIdx).mapM fun (tName, t) =>
        block g items (endo ++ exo).length x.2 t x.1 tName (columns endo exo w) names1 (endo ++ exo)
      pure l.flatten) = (.ok ((ts.zipIdx).flatMap fun y =>
        wanted g items (endo ++ exo) names1 x.2 y.2 x.1 y.1) : Outcome _) := by
    intro x _
    rw [mapM_all _ _ (ts.zipIdx) fun y _ => block_ok g items endo exo names1 w hw hf x.2 y.2 x.1 y.1]
    rfl
  show ((ms.zipIdx).mapM _ >>= _) = _
  rw [mapM_all _ _ (ms.zipIdx) h1]
  rfl

theorem told_label (vars : List String) (m t type : String) (coefs : Bool) (l : List (Keep α)) :
    ∀ x ∈ told vars m t type coefs l, x.metric = m ∧ x.target = t ∧ x.type = type := by
  intro x hx
  obtain ⟨y, -, rfl⟩ := List.mem_map.1 hx
  exact ⟨rfl, rfl, rfl⟩

theorem wanted_label (g : Gathered α) (items : Items) (vars names1 : List String) (e t : ℕ) (m tn : String) :
    ∀ x ∈ wanted g items vars names1 e t m tn, x.metric = m ∧ x.target = tn := by
  intro x hx
  have H : ∀ (p : Prop) [Decidable p] (l : List (Item α)), (∀ x ∈ l, x.metric = m ∧ x.target = tn) →
      x ∈ (if p then l else []) → x.metric = m ∧ x.target = tn := by
    intro p _ l hl hx
    split_ifs at hx
    · exact hl x hx
    · simp at hx
  unfold wanted at hx
  simp only [List.mem_append] at hx
  rcases hx with ((hx | hx) | hx) | hx
  · exact H _ _ (fun x hx => ⟨(told_label _ _ _ _ _ _ x hx).1, (told_label _ _ _ _ _ _ x hx).2.1⟩) hx
  · exact H _ _ (fun x hx => ⟨(told_label _ _ _ _ _ _ x hx).1, (told_label _ _ _ _ _ _ x hx).2.1⟩) hx
  · refine H _ _ ?_ hx
    intro x hx
    rw [List.mem_singleton.1 hx]; exact ⟨rfl, rfl⟩
  · by_cases h0 : items.length1 = 0
    · rw [if_pos h0] at hx; simp at hx
    · rw [if_neg h0] at hx
      simp only [List.mem_append] at hx
      rcases hx with ((hx | hx) | hx) | hx
      · refine H _ _ ?_ hx
        intro x hx
        obtain ⟨y, -, hx⟩ := List.mem_flatMap.1 hx
        exact ⟨(told_label _ _ _ _ _ _ x hx).1, (told_label _ _ _ _ _ _ x hx).2.1⟩
      · obtain ⟨y, -, rfl⟩ := List.mem_map.1 hx
        exact ⟨rfl, rfl⟩
      · refine H _ _ ?_ hx
        intro x hx
        rw [List.mem_singleton.1 hx]; exact ⟨rfl, rfl⟩
      · refine H _ _ ?_ hx
        intro x hx
        rw [List.mem_singleton.1 hx]; exact ⟨rfl, rfl⟩

/-- In lists for distinct names, the part with one name. -/
theorem filter_flatMap {β : Type} (p : Item α → Bool) (key : β → Prop) [DecidablePred key]
    (f : β → List (Item α)) : ∀ (l : List β), (∀ b ∈ l, key b → (f b).filter p = f b) →
    (∀ b ∈ l, ¬ key b → (f b).filter p = []) →
    (l.flatMap f).filter p = (l.filter fun b => decide (key b)).flatMap f
  | [], _, _ => rfl
  | b :: l, h1, h2 => by
    rw [List.flatMap_cons, List.filter_append, filter_flatMap p key f l
      (fun c hc => h1 c (List.mem_cons_of_mem _ hc)) fun c hc => h2 c (List.mem_cons_of_mem _ hc)]
    by_cases hk : key b
    · rw [h1 b (List.mem_cons_self ..) hk, List.filter_cons, if_pos (by simpa using hk), List.flatMap_cons]
    · rw [h2 b (List.mem_cons_self ..) hk, List.filter_cons, if_neg (by simpa using hk), List.nil_append]

theorem zipIdx_name (l : List String) (hn : l.Nodup) (i : ℕ) (hi : i < l.length) :
    (l.zipIdx.filter fun x => decide (x.1 = l[i])) = [(l[i], i)] := by
  have H : ∀ (l : List String) (k : ℕ), l.Nodup → ∀ (i : ℕ) (hi : i < l.length),
      ((l.zipIdx k).filter fun x => decide (x.1 = l[i])) = [(l[i], k + i)] := by
    intro l
    induction l with
    | nil => intro _ _ i hi; simp at hi
    | cons a l ih =>
      intro k hn i hi
      obtain ⟨ha, hn⟩ := List.nodup_cons.1 hn
      rw [List.zipIdx_cons]
      cases i with
      | zero =>
        rw [List.filter_cons, if_pos (by simp)]
        have : ((l.zipIdx (k + 1)).filter fun x => decide (x.1 = (a :: l)[0])) = [] := by
          rw [List.filter_eq_nil_iff]
          intro x hx
          simp only [List.getElem_cons_zero, decide_eq_true_eq]
          rintro rfl
          exact ha (List.fst_mem_of_mem_zipIdx hx)
        rw [this]; rfl
      | succ i =>
        have hi' : i < l.length := by simpa using hi
        rw [List.filter_cons, if_neg (by
          simp only [List.getElem_cons_succ, decide_eq_true_eq]
          intro h; exact ha (h ▸ List.getElem_mem hi'))]
        have := ih (k + 1) hn i hi'
        simp only [List.getElem_cons_succ]
        rw [this, show k + 1 + i = k + (i + 1) by omega]
  simpa using H l 0 hn i hi

theorem filter_all {p : Item α → Bool} {l : List (Item α)} (h : ∀ x ∈ l, p x = true) : l.filter p = l :=
  List.filter_eq_self.2 h

theorem filter_told (vars : List String) (m t type : String) (coefs : Bool) (l : List (Keep α)) (s : String)
    (h : type ≠ s) : ((told vars m t type coefs l).filter fun x => decide (x.type = s)) = [] := by
  refine List.filter_eq_nil_iff.2 fun x hx => ?_
  simp [(told_label _ _ _ _ _ _ x hx).2.2, h]

/-- The text of the type of a best item is not one of the other types: its sixth letter is an i. -/
theorem best_item_ne (nm s : String) (h : s.toList[5]? ≠ some 'i') : "best item for '" ++ nm ++ "'" ≠ s := by
  rintro rfl
  apply h
  rw [String.toList_append, String.toList_append, List.append_assoc]
  rw [List.getElem?_append_left (by decide)]
  decide

theorem filter_ite (p : Prop) [Decidable p] (l : List (Item α)) (f : Item α → Bool) :
    (if p then l else []).filter f = if p then l.filter f else [] := by
  split_ifs <;> rfl

/-- The items of a type other than those for single models. -/
theorem wanted_filter (g : Gathered α) (items : Items) (vars names1 : List String) (e t : ℕ) (m tn s : String)
    (hs : s ≠ "best model" ∧ s ≠ "model" ∧ s ≠ "cdf") (h5 : s.toList[5]? ≠ some 'i') :
    ((wanted g items vars names1 e t m tn).filter fun x => decide (x.type = s)) =
    (if items.keepModel ∧ items.keepInclusion ∧ s = "inclusion" then
      [⟨m, tn, "inclusion", .none, .table vars ["Mean", "Count"] (vars.zipIdx.map fun x => g.inclusion e t x.2)⟩]
      else []) ++
    (if items.length1 ≠ 0 ∧ 0 < items.multiplier ∧ s = "extreme bound" then
        [⟨m, tn, "extreme bound", .number items.multiplier,
          .table names1 ["Lower", "Upper"] (names1.zipIdx.map fun y => g.bounds e t y.2)⟩] else []) ++
    (if items.length1 ≠ 0 ∧ items.keepMixture ∧ s = "mixture" then
        [⟨m, tn, "mixture", .none, .table names1 ["Mean", "Variance", "Skewness", "Kurtosis", "Count", "SumWeights"]
          (names1.zipIdx.map fun y => g.mixture e t y.2)⟩] else []) := by
  obtain ⟨h1, h2, h3⟩ := hs
  have hb : (names1.zipIdx.flatMap fun x => told vars m tn ("best item for '" ++ x.1 ++ "'") true
      (g.best1 e t x.2)).filter (fun x => decide (x.type = s)) = [] := by
    refine List.filter_eq_nil_iff.2 fun x hx => ?_
    obtain ⟨y, -, hx⟩ := List.mem_flatMap.1 hx
    simp [(told_label _ _ _ _ _ _ x hx).2.2, best_item_ne y.1 s h5]
  have hc : (items.cdfs.zipIdx.map fun x => (⟨m, tn, "cdf", .number x.1,
      .table names1 ["Mean", "Count", "SumWeights"] (names1.zipIdx.map fun y => g.cdf e t y.2 x.2)⟩ : Item α)).filter
      (fun x => decide (x.type = s)) = [] := by
    refine List.filter_eq_nil_iff.2 fun x hx => ?_
    obtain ⟨y, -, rfl⟩ := List.mem_map.1 hx
    simpa using Ne.symm h3
  unfold wanted
  simp only [List.filter_append, filter_ite, filter_told _ _ _ _ _ _ s (Ne.symm h1),
    filter_told _ _ _ _ _ _ s (Ne.symm h2)]
  by_cases h0 : items.length1 = 0
  · by_cases hi : s = "inclusion"
    · subst hi; simp [h0]
    · simp [h0, hi, Ne.symm hi, List.filter_cons]
  · rw [if_neg h0]
    simp only [List.filter_append, filter_ite, hb, hc]
    by_cases hi : s = "inclusion"
    · subst hi; simp [List.filter_cons]
    · by_cases hx : s = "extreme bound"
      · subst hx; simp [List.filter_cons, h0]
      · by_cases hm : s = "mixture"
        · subst hm; simp [List.filter_cons, h0]
        · simp [List.filter_cons, hi, hx, hm, Ne.symm hi, Ne.symm hx, Ne.symm hm]

end Rs
end LDT
