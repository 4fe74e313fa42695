import Verif.Model.RStat
import Verif.Props.ClusterGroup
import Mathlib.Tactic.IntervalCases
import Batteries.Data.Char.AsciiCasing
import Mathlib.Tactic.Linarith
import Mathlib.Tactic.NormNum
import Mathlib.Tactic.Ring
/-!
# C144: hierarchical clustering called from R
-/
namespace LDT
namespace RStat
open Arr (Val)
open Text (Str)

theorem triangle_floor (k : Nat) (hk : 2 ≤ k) (len : Nat) (h : 2 * len = k * (k - 1)) :
    (1 + Real.sqrt (1 + 8 * (len : ℝ))) / 2 = k := by
  obtain ⟨j, rfl⟩ : ∃ j, k = j + 1 := ⟨k - 1, by omega⟩
  have h' : (2 * (len : ℝ)) = (j + 1) * j := by
    have := h
    simp only [Nat.add_sub_cancel] at this
    exact_mod_cast this
  have e : 1 + 8 * (len : ℝ) = (2 * j + 1) ^ 2 := by linear_combination 4 * h'
  have p : (0 : ℝ) ≤ 2 * (j : ℝ) + 1 := by positivity
  rw [e, Real.sqrt_sq p]
  push_cast
  ring

/-- **C144**. The distances are accepted exactly when their number is the number of pairs of `n ≥ 2` variables, and then `n` is
found. (`2 ^ 52` is the longest vector in R.) -/
theorem C144_variables (len : Nat) (hlen : len ≤ 2 ^ 52) :
    (∀ n, clusterVars len = .ok n ↔ 2 ≤ n ∧ 2 * len = n * (n - 1)) ∧
    ((¬ ∃ n, 2 ≤ n ∧ 2 * len = n * (n - 1)) → clusterVars len = .throws) := by
  have fwd : ∀ n, 2 ≤ n → 2 * len = n * (n - 1) → clusterVars len = .ok n := by
    intro n hn h
    have e := triangle_floor n hn len h
    unfold clusterVars
    simp only [e, Int.floor_natCast]
    rw [if_neg]
    · rfl
    · simp only [Int.cast_natCast, sub_self, abs_zero, not_or, not_lt, not_le]
      exact ⟨by norm_num, by omega⟩
  have bwd : ∀ n, clusterVars len = .ok n → 2 ≤ n ∧ 2 * len = n * (n - 1) := by
    intro n h
    unfold clusterVars at h
    simp only at h
    split at h
    · cases h
    · rename_i hc
      rw [not_or, not_lt, not_le] at hc
      obtain ⟨h1, h2⟩ := hc
      set x : ℝ := (1 + Real.sqrt (1 + 8 * (len : ℝ))) / 2 with hx
      obtain ⟨k, hk⟩ := Int.eq_ofNat_of_zero_le (show 0 ≤ ⌊x⌋ by omega)
      rw [hk] at h1 h2 h
      simp only [Int.toNat_natCast, Outcome.ok.injEq] at h
      subst h
      have hk2 : 2 ≤ k := by omega
      refine ⟨hk2, ?_⟩
      have hs : Real.sqrt (1 + 8 * (len : ℝ)) ^ 2 = 1 + 8 * (len : ℝ) := Real.sq_sqrt (by positivity)
      have hsx : Real.sqrt (1 + 8 * (len : ℝ)) = 2 * x - 1 := by rw [hx]; ring
      rw [hsx] at hs
      have hxx : x * (x - 1) = 2 * (len : ℝ) := by linear_combination hs / 4
      have hfl : (k : ℝ) ≤ x := by
        have := Int.floor_le x
        rw [hk] at this
        simpa using this
      simp only [Int.cast_natCast] at h1
      rw [abs_of_nonneg (by linarith)] at h1
      have hl : (len : ℝ) ≤ 2 ^ 52 := by exact_mod_cast hlen
      have hk2' : (2 : ℝ) ≤ k := by exact_mod_cast hk2
      have hxb : x < 10 ^ 9 := by
        by_contra hc
        rw [not_lt] at hc
        nlinarith
      obtain ⟨j, rfl⟩ : ∃ j, k = j + 1 := ⟨k - 1, by omega⟩
      simp only [Nat.add_sub_cancel]
      push_cast at *
      have lo : ((j : ℝ) + 1) * j ≤ 2 * (len : ℝ) := by nlinarith
      have hi : 2 * (len : ℝ) < ((j : ℝ) + 1) * j + 1 := by
        have : 2 * (len : ℝ) - ((j : ℝ) + 1) * j = (x - (j + 1)) * (x + j) := by rw [← hxx]; ring
        have b1 : (x - (j + 1)) * (x + j) ≤ 1e-16 * (2 * 10 ^ 9) := by
          apply mul_le_mul h1 _ (by linarith) (by norm_num)
          linarith
        norm_num at b1
        linarith
      have lo' : (j + 1) * j ≤ 2 * len := by exact_mod_cast lo
      have hi' : 2 * len < (j + 1) * j + 1 := by exact_mod_cast hi
      omega
  refine ⟨fun n => ⟨bwd n, fun h => fwd n h.1 h.2⟩, fun h => ?_⟩
  have c : (∃ n, clusterVars len = .ok n) ∨ clusterVars len = .throws := by
    unfold clusterVars
    simp only
    split
    · exact .inr rfl
    · exact .inl ⟨_, rfl⟩
  rcases c with ⟨n, hn⟩ | hn
  · exact absurd ⟨n, bwd n hn⟩ h
  · exact hn

theorem low_idem (c : Char) : c.toLower.toLower = c.toLower := by
  apply Char.toLower_eq_of_not_isUpper
  simp

theorem triangle_len (n : Nat) (hn : 2 ≤ n) (len : Nat) (h : 2 * len = n * (n - 1)) : ((len : Nat) : Int) = Mx.symLength false n := by
  obtain ⟨j, rfl⟩ : ∃ j, n = j + 1 := ⟨n - 1, by omega⟩
  simp only [Nat.add_sub_cancel] at h
  have h' : (2 * (len : Int)) = (j + 1) * j := by exact_mod_cast h
  unfold Mx.symLength
  rw [if_neg (by simp)]
  push_cast
  rw [show ((j : Int) + 1) * (j + 1 - 1) = 2 * len by rw [h']; ring]
  rw [Int.mul_tdiv_cancel_left _ (by omega)]

/-- The words with which R names the linkages. -/
def linkageWords : List (Str × Cl.Linkage) :=
  [("single".toList, .single), ("complete".toList, .complete), ("averageu".toList, .averageU), ("uaverage".toList, .averageU),
    ("upgma".toList, .averageU), ("averagew".toList, .averageW), ("waverage".toList, .averageW), ("wpgma".toList, .averageW),
    ("ward".toList, .ward)]

/-- **C144**. Each linkage is found by its names, in small or capital letters. -/
theorem C144_linkage_names (name : Str) (l : Cl.Linkage) (h : (name.map Char.toLower, l) ∈ linkageWords) :
    linkageOfName (lowerName name) = .ok l := by
  change linkageOfName (name.map Char.toLower) = .ok l
  generalize name.map Char.toLower = v at h
  revert h
  simp only [linkageWords, List.mem_cons, Prod.mk.injEq, List.not_mem_nil, or_false]
  rintro (⟨rfl, rfl⟩ | ⟨rfl, rfl⟩ | ⟨rfl, rfl⟩ | ⟨rfl, rfl⟩ | ⟨rfl, rfl⟩ | ⟨rfl, rfl⟩ | ⟨rfl, rfl⟩ | ⟨rfl, rfl⟩ | ⟨rfl, rfl⟩) <;>
    decide +kernel

/-- The beginnings of the accepted names. -/
def linkageHeads : List Str := ["sin", "com", "averageu", "uav", "upg", "averagew", "wav", "wpg", "war"].map String.toList

/-- **C144**. A name that begins with none of the words is refused. -/
theorem C144_linkage_refused (name : Str) (h : ∀ w ∈ linkageHeads, ¬ w <+: name.map Char.toLower) :
    linkageOfName (lowerName name) = .throws := by
  have idem : ∀ c : Char, c ∈ name.map Char.toLower → c.toLower = c := by
    intro c hc
    obtain ⟨d, -, rfl⟩ := List.mem_map.1 hc
    exact low_idem d
  change linkageOfName (name.map Char.toLower) = .throws
  have hm : (name.map Char.toLower).map Char.toLower = name.map Char.toLower := by
    conv_rhs => rw [← List.map_id (name.map Char.toLower)]
    exact List.map_congr_left idem
  generalize name.map Char.toLower = v at h hm
  simp only [linkageHeads, List.map_cons, List.map_nil, List.mem_cons, List.not_mem_nil, or_false, forall_eq_or_imp,
    forall_eq, ← List.isPrefixOf_iff_prefix] at h
  obtain ⟨a1, a2, a3, a4, a5, a6, a7, a8, a9⟩ := h
  have e : ∀ w : Str, w.map Char.toLower = w → ¬ w.isPrefixOf v = true → Text.areEqualI w v = false := by
    intro w hw hp
    unfold Text.areEqualI
    rw [hw, hm, beq_eq_false_iff_ne]
    rintro rfl
    exact hp (by simp)
  have b1 := e "averageu".toList (by decide) a3
  have b2 := e "averagew".toList (by decide) a6
  have f : ∀ w : Str, ¬ w.isPrefixOf v = true → Text.startsWith w v = false := fun w hw => Bool.eq_false_iff.2 hw
  unfold linkageOfName
  rw [f _ a1, f _ a2, b1, f _ a4, f _ a5, b2, f _ a7, f _ a8, f _ a9]
  rfl

/-- **C144**, violated: the texts that the library itself prints for the two average linkages are not accepted back. -/
theorem C144_violated_printed_names :
    linkageOfName (lowerName (linkageName .averageU)) = .throws ∧ linkageOfName (lowerName (linkageName .averageW)) = .throws ∧
    (∀ l, l ≠ .averageU → l ≠ .averageW → linkageOfName (lowerName (linkageName l)) = .ok l) := by
  refine ⟨by decide +kernel, by decide +kernel, ?_⟩
  intro l h1 h2
  cases l <;> first | exact absurd rfl h1 | exact absurd rfl h2 | decide +kernel

/-- The words with which R names the distances, by their first three letters. -/
def distHeads : DistMethod → Str
  | .euclidean => "euc".toList
  | .manhattan => "man".toList
  | .maximum => "max".toList
  | .correlation => "cor".toList
  | .absCorrelation => "abs".toList

/-- **C144**. A distance method is found by the first three letters of its name, and only so. -/
theorem C144_distance_words (v : Str) (d : DistMethod) : distOfName v = .ok d ↔ distHeads d <+: v := by
  have one : ∀ a b : DistMethod, distHeads a <+: v → distHeads b <+: v → a = b := by
    intro a b h1 h2
    have hl : (distHeads a).length = (distHeads b).length := by cases a <;> cases b <;> rfl
    have e := List.prefix_of_prefix_length_le h1 h2 hl.le
    have e := e.eq_of_length hl
    revert e
    cases a <;> cases b <;> decide
  have key : ∀ w, distOfName v = .ok w → distHeads w <+: v := by
    intro w h
    unfold distOfName Text.startsWith at h
    split_ifs at h with h1 h2 h3 h4 h5 <;> cases h <;> first
      | exact List.isPrefixOf_iff_prefix.1 h1
      | exact List.isPrefixOf_iff_prefix.1 h2
      | exact List.isPrefixOf_iff_prefix.1 h3
      | exact List.isPrefixOf_iff_prefix.1 h4
      | exact List.isPrefixOf_iff_prefix.1 h5
  refine ⟨key d, fun h => ?_⟩
  have ex : ∃ w, distOfName v = .ok w := by
    have h' := List.isPrefixOf_iff_prefix.2 h
    unfold distOfName Text.startsWith
    split_ifs with h1 h2 h3 h4 h5
    · exact ⟨_, rfl⟩
    · exact ⟨_, rfl⟩
    · exact ⟨_, rfl⟩
    · exact ⟨_, rfl⟩
    · exact ⟨_, rfl⟩
    · exfalso
      cases d
      · exact h1 h'
      · exact h2 h'
      · exact h3 h'
      · exact h5 h'
      · exact h4 h'
  obtain ⟨w, hw⟩ := ex
  rw [hw, one w d (key w hw) h]

/-- **C144**. The printed names of the distance methods are accepted back. -/
theorem C144_distance_names (d : DistMethod) : distOfName (lowerName (distName d)) = .ok d := by
  cases d <;> decide +kernel

section
variable {K : Type} [Field K] [LinearOrder K] [IsStrictOrderedRing K]

/-- **C144**. With the distances of all pairs of `n ≥ 2` variables, none missing, and a known linkage, R gets a merge matrix that
follows its convention, made from a complete clustering of the `n` variables with that linkage. -/
theorem C144_cluster (n : Nat) (hn : 2 ≤ n) (distances : List (Val K)) (hl : 2 * distances.length = n * (n - 1))
    (hmax : distances.length ≤ 2 ^ 52) (hd : none ∉ distances) (linkage : Str) (l : Cl.Linkage)
    (hw : (linkage.map Char.toLower, l) ∈ linkageWords) (fuel : Nat) (hf : 3 * (n - 1) ≤ fuel) :
    ∃ nodes dist rows heights order, Cl.calculate l n fuel ⟨n, distances⟩ = .ok (nodes, dist) ∧ Cl.IsDendrogram n nodes ∧
      clusterH fuel distances linkage = .ok (rows, heights, order) ∧ Cl.IsMergeR n nodes rows heights order := by
  have hi : Cl.IsDist n (⟨n, distances⟩ : Mx.SymMat (Val K)) :=
    ⟨rfl, triangle_len n hn _ hl, fun x hx e => hd (e ▸ hx)⟩
  obtain ⟨nodes, dist, e, g⟩ := Cl.C68_dendrogram l (by omega) hf hi
  obtain ⟨rows, heights, order, em, hm⟩ := Cl.C71_mergeR l hn hf hi e
  refine ⟨nodes, dist, rows, heights, order, e, g, ?_, hm⟩
  unfold clusterH
  rw [((C144_variables _ hmax).1 n).2 ⟨hn, hl⟩, C144_linkage_names linkage l hw]
  show (Cl.calculate l n fuel _ >>= _) = _
  rw [e]
  exact em

/-- **C144**. A missing distance, a number of distances that no number of variables has, or an unknown linkage is refused. -/
theorem C144_refused (distances : List (Val K)) (hmax : distances.length ≤ 2 ^ 52) (linkage : Str) (fuel : Nat)
    (h : none ∈ distances ∨ (¬ ∃ n, 2 ≤ n ∧ 2 * distances.length = n * (n - 1)) ∨
      (∀ w ∈ linkageHeads, ¬ w <+: linkage.map Char.toLower)) :
    clusterH fuel distances linkage = .throws := by
  by_cases h1 : ∃ n, 2 ≤ n ∧ 2 * distances.length = n * (n - 1)
  · obtain ⟨n, hn⟩ := h1
    have e := ((C144_variables _ hmax).1 n).2 hn
    rcases h with h | h | h
    · unfold clusterH
      rw [e]
      show (linkageOfName (lowerName linkage) >>= _) = _
      have c : (∃ l, linkageOfName (lowerName linkage) = .ok l) ∨ linkageOfName (lowerName linkage) = .throws := by
        unfold linkageOfName
        repeat' split
        all_goals first | exact .inl ⟨_, rfl⟩ | exact .inr rfl
      rcases c with ⟨l, hl⟩ | hl
      · rw [hl]
        show (Cl.calculate l n fuel ⟨n, distances⟩ >>= _) = _
        rw [Cl.C68_nan_refused l n fuel _ h]
        rfl
      · rw [hl]; rfl
    · exact absurd ⟨n, hn⟩ h
    · unfold clusterH
      rw [e, C144_linkage_refused linkage h]
      rfl
  · unfold clusterH
    rw [(C144_variables _ hmax).2 h1]
    rfl

/-- **C144**. The groups that R gets without a threshold: `k` groups that are not empty and together contain every
column number from 1 to `n` exactly once, each in increasing order; no column is removed. -/
theorem C144_groups (n : Nat) (hn : 1 ≤ n) (distances : List (Val K)) (hl : (distances.length : Int) = Mx.symLength false n)
    (linkage : Str) (l : Cl.Linkage) (hw : (linkage.map Char.toLower, l) ∈ linkageWords) (fuel : Nat) (hf : 3 * (n - 1) ≤ fuel)
    (k : Nat) (hk : 1 ≤ k) (hkn : k ≤ n) :
    ∃ groups nan, clusterHGroup fuel linkage n distances k (0 : K) = .ok ((groups, []), nan) ∧ groups.length = k ∧
      groups.flatten.Perm (List.range' 1 n) ∧ (∀ s ∈ groups, s ≠ [] ∧ s.Pairwise (· < ·)) ∧
      (nan = true ↔ none ∈ distances) := by
  obtain ⟨r, nodes, dist, e, -, hlen, hg, hr, hnan⟩ :=
    Cl.C72_groups l hf (d := ⟨n, distances⟩) ⟨rfl, hl⟩ hk hkn (thr := (0 : K)) le_rfl
  refine ⟨r.groups.map (fun s => s.map (· + 1)), r.nanFound, ?_, by simpa using hlen, ?_, ?_, hnan⟩
  · unfold clusterHGroup
    rw [if_neg (lt_irrefl _), C144_linkage_names linkage l hw]
    show (Cl.groupData l n fuel ⟨n, distances⟩ k 0 >>= _) = _
    rw [e]
    show Outcome.ok (groupsR r, r.nanFound) = _
    unfold groupsR
    rw [hr]
    rfl
  · rw [← List.map_flatten]
    have := hg.part.map (· + 1)
    rwa [show (List.range n).map (· + 1) = List.range' 1 n from by
      rw [List.range'_eq_map_range]
      exact List.map_congr_left (fun a _ => Nat.add_comm a 1)] at this
  · intro s hs
    obtain ⟨g, hgm, rfl⟩ := List.mem_map.1 hs
    refine ⟨by simpa using hg.nonempty g hgm, ?_⟩
    rw [List.pairwise_map]
    exact (hg.sorted g hgm).imp (fun h => by omega)

/-- **C144**. With a threshold R gets the groups and the removed columns of the library, each number one larger, and the warning
about missing distances. -/
theorem C144_filtered (n : Nat) (distances : List (Val K)) (linkage : Str) (l : Cl.Linkage)
    (hw : (linkage.map Char.toLower, l) ∈ linkageWords) (fuel k : Nat) (thr : K) (ht : 0 ≤ thr) (r : Cl.Groups)
    (hr : Cl.groupData l n fuel ⟨n, distances⟩ k thr = .ok r) :
    ∃ groups removed, clusterHGroup fuel linkage n distances k thr = .ok ((groups, removed), r.nanFound) ∧
      List.Forall₂ (List.Forall₂ (fun c i => c = i + 1)) groups r.groups ∧
      List.Forall₂ (fun c i => c = i + 1) removed r.removed := by
  have f : ∀ g : List Nat, List.Forall₂ (fun c i => c = i + 1) (g.map (· + 1)) g := by
    intro g
    induction g with
    | nil => exact .nil
    | cons a g ih => exact .cons rfl ih
  refine ⟨r.groups.map (fun s => s.map (· + 1)), _, ?_, ?_, f r.removed⟩
  · unfold clusterHGroup
    rw [if_neg (not_lt.2 ht), C144_linkage_names linkage l hw]
    show (Cl.groupData l n fuel ⟨n, distances⟩ k thr >>= _) = _
    rw [hr]
    rfl
  · induction r.groups with
    | nil => exact .nil
    | cons a g ih => exact .cons (f a) ih

/-- **C144**. A negative threshold is refused. -/
theorem C144_negative_threshold (fuel : Nat) (linkage : Str) (n : Nat) (distances : List (Val K)) (k : Nat) (thr : K) (h : thr < 0) :
    clusterHGroup fuel linkage n distances k thr = .throws := by
  unfold clusterHGroup
  rw [if_pos h]

end

/-- Four variables: six distances; seven are refused. -/
example : clusterVars 6 = .ok 4 ∧ clusterVars 7 = .throws := by
  refine ⟨((C144_variables 6 (by norm_num)).1 4).2 (by decide), (C144_variables 7 (by norm_num)).2 ?_⟩
  rintro ⟨n, h1, h2⟩
  have : n < 6 := by
    by_contra hc
    obtain ⟨j, rfl⟩ : ∃ j, n = j + 6 := ⟨n - 6, by omega⟩
    have : (j + 6) * (j + 6 - 1) = j * j + 11 * j + 30 := by
      rw [show j + 6 - 1 = j + 5 by omega]; ring
    rw [this] at h2
    have := Nat.zero_le (j * j)
    omega
  interval_cases n <;> omega

end RStat
end LDT
