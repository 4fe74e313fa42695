import Verif.Props.Spearman
/-!
# C78 (second part): what Spearman's coefficient is
-/
namespace LDT
namespace Co
open Mx Stat
open Arr (Val)
open Rk (rankIn before)

section
variable {K : Type} [Field K]

theorem sum_products_expand (a b : K) (l : List (K × K)) :
    (l.map (fun p => (p.1 - a) * (p.2 - b))).sum =
      (l.map (fun p => p.1 * p.2)).sum - b * (l.map Prod.fst).sum - a * (l.map Prod.snd).sum + l.length * (a * b) := by
  induction l with
  | nil => simp
  | cons p l ih =>
    simp only [List.map_cons, List.sum_cons, List.length_cons, Nat.cast_add, Nat.cast_one, ih]
    ring

theorem coSum_expand (l : List (K × K)) (hn : (l.length : K) ≠ 0) :
    coSum l = (l.map (fun p => p.1 * p.2)).sum - (l.map Prod.fst).sum * (l.map Prod.snd).sum / l.length := by
  unfold coSum mean
  rw [sum_products_expand]
  rw [List.length_map, List.length_map]
  field_simp
  ring

theorem sqSum_expand (l : List K) (hn : (l.length : K) ≠ 0) :
    sqSum l = (l.map (fun x => x ^ 2)).sum - l.sum ^ 2 / l.length := by
  have h := coSum_expand (l.map (fun x => (x, x))) (by simpa using hn)
  have e : coSum (l.map (fun x => (x, x))) = sqSum l := by
    unfold coSum sqSum
    rw [List.map_map, List.map_map, List.map_map]
    congr 1
    apply List.map_congr_left
    intro x _
    simp [Function.comp_def, pow_two]
  rw [e] at h
  rw [h]
  simp only [List.map_map, List.length_map, Function.comp_def, List.map_id', pow_two]

theorem sum_range (n : Nat) : (((List.range n).map (fun k : Nat => (k : K))).sum) * 2 = n * (n - 1) := by
  induction n with
  | zero => simp
  | succ n ih =>
    rw [List.range_succ, List.map_append, List.sum_append, add_mul, ih]
    simp; ring

theorem sum_range_sq (n : Nat) : (((List.range n).map (fun k : Nat => (k : K) ^ 2)).sum) * 6 = n * (n - 1) * (2 * n - 1) := by
  induction n with
  | zero => simp
  | succ n ih =>
    rw [List.range_succ, List.map_append, List.sum_append, add_mul, ih]
    simp; ring

theorem sum_diff_sq (l : List (K × K)) :
    (l.map (fun p => (p.1 - p.2) ^ 2)).sum =
      ((l.map Prod.fst).map (fun x => x ^ 2)).sum + ((l.map Prod.snd).map (fun x => x ^ 2)).sum - 2 * (l.map (fun p => p.1 * p.2)).sum := by
  induction l with
  | nil => simp
  | cons p l ih =>
    simp only [List.map_cons, List.sum_cons, ih]
    ring

end

section
variable {K : Type} [LinearOrder K]

/-- Without ties, the ranks in the two orders are reflections of each other. -/
theorem rankIn_flip (l : List K) (h : l.Nodup) (x : K) (hx : x ∈ l) (asc : Bool) : rankIn asc l x + rankIn (!asc) l x + 1 = l.length := by
  have e : l.countP (fun y => decide (y = x)) = 1 := by
    have := List.count_eq_one_of_mem h hx
    rw [← this, List.count]
    congr 1
  have : ∀ q : List K, rankIn asc q x + rankIn (!asc) q x + q.countP (fun y => decide (y = x)) = q.length := by
    intro q
    unfold rankIn
    induction q with
    | nil => rfl
    | cons y q ih =>
      simp only [List.countP_cons, List.length_cons]
      have k : (if decide (before asc y x) = true then 1 else 0) + (if decide (before (!asc) y x) = true then 1 else 0) +
          (if decide (y = x) = true then 1 else 0) = 1 := by
        unfold before
        rcases lt_trichotomy y x with h | h | h
        · cases asc <;> simp [h, not_lt.2 h.le, ne_of_lt h]
        · cases asc <;> simp [h]
        · cases asc <;> simp [h, not_lt.2 h.le, ne_of_gt h]
      omega
  rw [← this l, e]

end

section
open Classical

theorem numbers_ranks (l : List ℝ) : numbers (ranks l) = l.map (fun x => (rankIn false l x : ℝ)) := by
  unfold numbers ranks
  rw [List.filterMap_map]
  simp [Function.comp_def]

theorem none_not_mem_ranks (l : List ℝ) : (none : Val ℝ) ∉ ranks l := by simp [ranks]

theorem pairs_ranks (xs ys : List ℝ) :
    pairs (ranks xs) (ranks ys) = (xs.zip ys).map (fun p => ((rankIn false xs p.1 : ℝ), (rankIn false ys p.2 : ℝ))) := by
  rw [pairs_eq_zip (none_not_mem_ranks xs) (none_not_mem_ranks ys), numbers_ranks, numbers_ranks, List.zip_map]
  rfl

theorem ranks_sums (l : List ℝ) (h : l.Nodup) :
    (l.map (fun x => (rankIn false l x : ℝ))).sum * 2 = l.length * (l.length - 1) ∧
    ((l.map (fun x => (rankIn false l x : ℝ))).map (fun x : ℝ => x ^ 2)).sum * 6 = (l.length : ℝ) * (l.length - 1) * (2 * l.length - 1) := by
  have p := (Rk.C77_permutation false l h).map (fun k : Nat => (k : ℝ))
  rw [List.map_map] at p
  have p2 := p.map (fun x => x ^ 2)
  rw [List.map_map] at p2
  constructor
  · rw [← sum_range]
    congr 1
    exact p.sum_eq
  · rw [← sum_range_sq]
    congr 1
    rw [List.map_map]
    have := p2.sum_eq
    rw [List.map_map] at this
    exact this

/-- C78. Without ties the coefficient is given by Spearman's formula, whichever way the ranks are counted. -/
theorem C78_formula (asc : Bool) (xs ys : List ℝ) (hx : xs.Nodup) (hy : ys.Nodup) (hl : xs.length = ys.length) (h2 : 2 ≤ xs.length) :
    rankCor xs ys = some (1 - 6 * ((xs.zip ys).map (fun p => ((rankIn asc xs p.1 : ℝ) - rankIn asc ys p.2) ^ 2)).sum /
      (xs.length * ((xs.length : ℝ) ^ 2 - 1))) := by
  -- the sum of the squared differences does not depend on the order
  have flip : ((xs.zip ys).map (fun p => ((rankIn asc xs p.1 : ℝ) - rankIn asc ys p.2) ^ 2)) =
      ((xs.zip ys).map (fun p => ((rankIn false xs p.1 : ℝ) - rankIn false ys p.2) ^ 2)) := by
    cases asc with
    | false => rfl
    | true =>
      apply List.map_congr_left
      intro p hp
      have e1 := rankIn_flip xs hx p.1 (List.of_mem_zip (a := p.1) (b := p.2) hp).1 true
      have e2 := rankIn_flip ys hy p.2 (List.of_mem_zip (a := p.1) (b := p.2) hp).2 true
      have f1 : (rankIn true xs p.1 : ℝ) = xs.length - 1 - rankIn false xs p.1 := by
        rw [← e1]; push_cast; simp
      have f2 : (rankIn true ys p.2 : ℝ) = ys.length - 1 - rankIn false ys p.2 := by
        rw [← e2]; push_cast; simp
      rw [f1, f2, hl]; ring
  rw [flip]
  clear flip
  obtain ⟨s1, q1⟩ := ranks_sums xs hx
  obtain ⟨s2, q2⟩ := ranks_sums ys hy
  have hn : (2 : ℝ) ≤ xs.length := by exact_mod_cast h2
  have hn0 : (xs.length : ℝ) ≠ 0 := by linarith
  have hnx : ((xs.map (fun x => (rankIn false xs x : ℝ))).length : ℝ) ≠ 0 := by rw [List.length_map]; exact hn0
  have hny : ((ys.map (fun x => (rankIn false ys x : ℝ))).length : ℝ) ≠ 0 := by rw [List.length_map, ← hl]; exact hn0
  have E1 := sqSum_expand _ hnx
  have E2 := sqSum_expand _ hny
  rw [List.length_map] at E1 E2
  have hp : pairs (ranks xs) (ranks ys) = (xs.zip ys).map (fun p => ((rankIn false xs p.1 : ℝ), (rankIn false ys p.2 : ℝ))) := pairs_ranks xs ys
  obtain ⟨f1, f2, f3⟩ := pairs_fst (none_not_mem_ranks xs) (none_not_mem_ranks ys) (by simp [ranks, hl])
  rw [numbers_ranks] at f1 f2
  have f3' : (pairs (ranks xs) (ranks ys)).length = xs.length := by rw [f3]; simp [ranks]
  have E3 := coSum_expand (pairs (ranks xs) (ranks ys)) (by rw [f3']; exact hn0)
  have E4 := sum_diff_sq (pairs (ranks xs) (ranks ys))
  rw [f1, f2, f3'] at E3
  rw [f1, f2] at E4
  have E5 : ((pairs (ranks xs) (ranks ys)).map (fun p => (p.1 - p.2) ^ 2)).sum =
      ((xs.zip ys).map (fun p => ((rankIn false xs p.1 : ℝ) - rankIn false ys p.2) ^ 2)).sum := by
    rw [hp, List.map_map]; rfl
  rw [E5] at E4
  rw [← hl] at s2 q2 E2
  generalize ((xs.zip ys).map (fun p => ((rankIn false xs p.1 : ℝ) - rankIn false ys p.2) ^ 2)).sum = D at E4 ⊢
  generalize ((pairs (ranks xs) (ranks ys)).map (fun p => p.1 * p.2)).sum = P at E3 E4
  generalize (xs.map (fun x => (rankIn false xs x : ℝ))).sum = S1 at s1 E1 E3
  generalize (ys.map (fun x => (rankIn false ys x : ℝ))).sum = S2 at s2 E2 E3
  generalize ((xs.map (fun x => (rankIn false xs x : ℝ))).map (fun x => x ^ 2)).sum = Q1 at q1 E1 E4
  generalize ((ys.map (fun x => (rankIn false ys x : ℝ))).map (fun x => x ^ 2)).sum = Q2 at q2 E2 E4
  unfold rankCor corOf
  rw [numbers_ranks, numbers_ranks]
  generalize sqSum (xs.map (fun x => (rankIn false xs x : ℝ))) = V1 at E1 ⊢
  generalize sqSum (ys.map (fun x => (rankIn false ys x : ℝ))) = V2 at E2 ⊢
  generalize coSum (pairs (ranks xs) (ranks ys)) = C at E3 ⊢
  generalize (xs.length : ℝ) = n at *
  have v1 : V1 = n * (n ^ 2 - 1) / 12 := by
    rw [E1, show S1 = n * (n - 1) / 2 by linarith, show Q1 = n * (n - 1) * (2 * n - 1) / 6 by linarith]
    field_simp; ring
  have v2 : V2 = n * (n ^ 2 - 1) / 12 := by
    rw [E2, show S2 = n * (n - 1) / 2 by linarith, show Q2 = n * (n - 1) * (2 * n - 1) / 6 by linarith]
    field_simp; ring
  have hpos : 0 < n * (n ^ 2 - 1) / 12 := by
    have : 0 < n ^ 2 - 1 := by nlinarith
    positivity
  have c : C = n * (n ^ 2 - 1) / 12 - D / 2 := by
    have hP : P = (Q1 + Q2 - D) / 2 := by linarith
    rw [E3, hP, show S1 = n * (n - 1) / 2 by linarith, show Q1 = n * (n - 1) * (2 * n - 1) / 6 by linarith,
      show S2 = n * (n - 1) / 2 by linarith, show Q2 = n * (n - 1) * (2 * n - 1) / 6 by linarith]
    field_simp; ring
  rw [if_neg (by
    rintro (h | h | h | h)
    · exact none_not_mem_ranks xs h
    · exact none_not_mem_ranks ys h
    · rw [v1] at h; linarith
    · rw [v2] at h; linarith), v1, v2, c, Real.mul_self_sqrt hpos.le]
  congr 1
  have : n ^ 2 - 1 ≠ 0 := by nlinarith
  field_simp
  ring

/-- C78. The coefficient only depends on the order within the columns: increasing transformations change nothing. -/
theorem C78_monotone (xs ys : List ℝ) (f g : ℝ → ℝ) (hf : StrictMono f) (hg : StrictMono g) :
    rankCor (xs.map f) (ys.map g) = rankCor xs ys := by
  have : ∀ (l : List ℝ) (f : ℝ → ℝ), StrictMono f → ranks (l.map f) = ranks l := by
    intro l f hf
    unfold ranks
    rw [List.map_map]
    apply List.map_congr_left
    intro x _
    show some (rankIn false (l.map f) (f x) : ℝ) = _
    rw [Rk.C77_monotone false l f hf]
  unfold rankCor
  rw [this xs f hf, this ys g hg]

/-- C78. Between -1 and 1. -/
theorem C78_bounds (xs ys : List ℝ) (hl : xs.length = ys.length) (r : ℝ) (h : rankCor xs ys = some r) : -1 ≤ r ∧ r ≤ 1 :=
  corOf_bounds (ranks xs) (ranks ys) (by simp [ranks, hl]) r h

/-- C78. The same order gives exactly 1 (no ties). -/
theorem C78_same_order (xs : List ℝ) (f : ℝ → ℝ) (hf : StrictMono f) (hx : xs.Nodup) (h2 : 2 ≤ xs.length) :
    rankCor xs (xs.map f) = some 1 := by
  have := C78_monotone xs xs id f strictMono_id hf
  rw [List.map_id] at this
  rw [this, C78_formula false xs xs hx hx rfl h2]
  have : ((xs.zip xs).map (fun p => ((rankIn false xs p.1 : ℝ) - rankIn false xs p.2) ^ 2)).sum = 0 := by
    apply List.sum_eq_zero
    intro z hz
    rw [List.mem_map] at hz
    obtain ⟨p, hp, rfl⟩ := hz
    have : p.1 = p.2 := by
      rw [List.zip_eq_zipWith, List.zipWith_self, List.mem_map] at hp
      obtain ⟨x, -, rfl⟩ := hp
      rfl
    rw [this]; ring
  rw [this]; simp

/-- C78. Without ties, reversing both columns changes nothing. -/
theorem C78_negate_partial (xs ys : List ℝ) (hx : xs.Nodup) (hy : ys.Nodup) (hl : xs.length = ys.length) (h2 : 2 ≤ xs.length) :
    rankCor (xs.map (fun x => -x)) (ys.map (fun y => -y)) = rankCor xs ys := by
  have anti : StrictAnti (fun x : ℝ => -x) := fun a b h => neg_lt_neg h
  rw [C78_formula true xs ys hx hy hl h2, C78_formula false _ _ (hx.map neg_injective) (hy.map neg_injective) (by simpa using hl)
    (by simpa using h2)]
  rw [List.length_map, List.zip_map, List.map_map]
  congr 5
  apply List.map_congr_left
  intro p _
  show ((rankIn false (xs.map (fun x => -x)) (-p.1) : ℝ) - rankIn false (ys.map (fun y => -y)) (-p.2)) ^ 2 = _
  rw [Rk.C77_antitone false xs (fun x => -x) anti, Rk.C77_antitone false ys (fun x => -x) anti]
  rfl

theorem rankIn_cons (asc : Bool) (a x : ℝ) (l : List ℝ) :
    rankIn asc (a :: l) x = rankIn asc l x + if before asc a x then 1 else 0 := by
  unfold rankIn; rw [List.countP_cons]; simp

theorem rankIn_nil (asc : Bool) (x : ℝ) : rankIn asc [] x = 0 := rfl

/-- C78, violated: tied cells do not share the mean of their ranks, so with ties the coefficient is not Spearman's and even depends
on the direction of the scale: negating both columns changes it. -/
theorem C78_violated_ties :
    rankCor [1, 1, 2, 3] [1, 2, 3, 4] ≠ rankCor [-1, -1, -2, -3] [-1, -2, -3, -4] := by
  have r1 : ranks [(1:ℝ), 1, 2, 3] = [some 2, some 2, some 1, some 0] := by
    simp [ranks, rankIn_cons, rankIn_nil, before]; norm_num
  have r2 : ranks [(1:ℝ), 2, 3, 4] = [some 3, some 2, some 1, some 0] := by
    simp [ranks, rankIn_cons, rankIn_nil, before]; norm_num
  have r3 : ranks [(-1:ℝ), -1, -2, -3] = [some 0, some 0, some 2, some 3] := by
    simp [ranks, rankIn_cons, rankIn_nil, before]; norm_num
  have r4 : ranks [(-1:ℝ), -2, -3, -4] = [some 0, some 1, some 2, some 3] := by
    simp [ranks, rankIn_cons, rankIn_nil, before]; norm_num
  unfold rankCor
  rw [r1, r2, r3, r4]
  have a1 : sqSum (numbers [some (2:ℝ), some 2, some 1, some 0]) = 11 / 4 := by
    rw [show numbers [some (2:ℝ), some 2, some 1, some 0] = [(2:ℝ), 2, 1, 0] from rfl]
    norm_num [sqSum, mean]
  have a2 : sqSum (numbers [some (3:ℝ), some 2, some 1, some 0]) = 5 := by
    rw [show numbers [some (3:ℝ), some 2, some 1, some 0] = [(3:ℝ), 2, 1, 0] from rfl]
    norm_num [sqSum, mean]
  have a3 : sqSum (numbers [some (0:ℝ), some 0, some 2, some 3]) = 27 / 4 := by
    rw [show numbers [some (0:ℝ), some 0, some 2, some 3] = [(0:ℝ), 0, 2, 3] from rfl]
    norm_num [sqSum, mean]
  have a4 : sqSum (numbers [some (0:ℝ), some 1, some 2, some 3]) = 5 := by
    rw [show numbers [some (0:ℝ), some 1, some 2, some 3] = [(0:ℝ), 1, 2, 3] from rfl]
    norm_num [sqSum, mean]
  have b1 : coSum (pairs [some (2:ℝ), some 2, some 1, some 0] [some (3:ℝ), some 2, some 1, some 0]) = 7 / 2 := by
    rw [show pairs [some (2:ℝ), some 2, some 1, some 0] [some (3:ℝ), some 2, some 1, some 0] = [((2:ℝ), (3:ℝ)), ((2:ℝ), (2:ℝ)), ((1:ℝ), (1:ℝ)), ((0:ℝ), (0:ℝ))] from rfl]
    norm_num [coSum, mean]
  have b2 : coSum (pairs [some (0:ℝ), some 0, some 2, some 3] [some (0:ℝ), some 1, some 2, some 3]) = 11 / 2 := by
    rw [show pairs [some (0:ℝ), some 0, some 2, some 3] [some (0:ℝ), some 1, some 2, some 3] = [((0:ℝ), (0:ℝ)), ((0:ℝ), (1:ℝ)), ((2:ℝ), (2:ℝ)), ((3:ℝ), (3:ℝ))] from rfl]
    norm_num [coSum, mean]
  unfold corOf
  have nn : ∀ x : ℝ, ¬ (none : Val ℝ) = some x := fun x h => by cases h
  rw [if_neg (by rw [a1, a2]; norm_num [nn]), if_neg (by rw [a3, a4]; norm_num [nn]), a1, a2, a3, a4, b1, b2]
  intro h
  have h := Option.some.inj h
  have s1 : Real.sqrt (11 / 4) * Real.sqrt 5 = Real.sqrt (55 / 4) := by rw [← Real.sqrt_mul (by norm_num)]; norm_num
  have s2 : Real.sqrt (27 / 4) * Real.sqrt 5 = Real.sqrt (135 / 4) := by rw [← Real.sqrt_mul (by norm_num)]; norm_num
  rw [s1, s2] at h
  have h' := congrArg (fun z => z ^ 2) h
  simp only [div_pow] at h'
  rw [Real.sq_sqrt (by norm_num), Real.sq_sqrt (by norm_num)] at h'
  norm_num at h'

end

/-! ## Examples -/

example : spearmanNan (K := ℚ) id .covariance 3 2 ⟨3, 2, some [some 1, some 5, none, some 4, some 2, some 7]⟩
    (List.replicate 50 none) (List.replicate 10 none) false true =
    .ok ⟨⟨2, 2, some [some (1 / 4), some (-1 / 4), some (-1 / 4), some (2 / 3)]⟩, ⟨2, [some 2, some 2, some 3]⟩⟩ := by decide +kernel

end Co
end LDT
