import Verif.Model.Choice
import Verif.Model.Ols
/-!
# Discrete choice: estimation, `src/ldt_statistics/modeling/discrete/discrete_choice.cpp`

Arithmetic is exact. The optimiser is `Op.newton`, least squares is `Ls.ols`. `Inv00` is replaced by its contract: `lu` is what it leaves in
the memory of a singular matrix (its return value is not looked at). `exp`, `sqrt` and `log` get arguments in their domains (weights are not
negative, `P (1 - P)` is positive); a start that is not made of numbers (division by a coefficient that is zero) is handed to `other`, which
stands for what the code then does. Sizes are unbounded integers.
-/
namespace LDT
namespace Dc
open Op Di

/-- A vector of `k` numbers as a function of the index, for the functions of Model/Choice.lean (which use the first `k`). -/
def ext {k : ℕ} (b : Fin k → ℝ) : ℕ → ℝ := fun j => if h : j < k then b ⟨j, h⟩ else 0

/-- The `k` cells of a vector. -/
def vec (k : ℕ) (g : ℕ → ℝ) : Fin k → ℝ := fun j => g j

/-- The `k x k` cells of a matrix. -/
def mat (k : ℕ) (h : ℕ → ℕ → ℝ) : Matrix (Fin k) (Fin k) ℝ := fun a b => h a b

/-- `static_cast<Ti>` of a number. -/
noncomputable def trunc (y : ℝ) : ℤ := if 0 ≤ y then ⌊y⌋ else ⌈y⌉

/-! ## Sizes -/

/-- `modelType`. -/
inductive Form where
  | binary
  | ordered
  deriving DecidableEq

/-- `Newton(k).WorkSize`, newton.cpp:12-15. -/
def newtonWork (k : ℤ) : ℤ := 3 * k

/-- `Ols(N, 1, k, false, false).WorkSize`, statistics.cpp:88. -/
def priorOls (N k : ℤ) : ℤ := Ls.olsWork N k

/-- The members the constructor sets: `StorageSize`, `WorkSize` and the number of variables of the optimiser. -/
structure Sizes where
  storage : ℤ
  work : ℤ
  vars : ℤ

/-- The constructor, discrete_choice.cpp:11-46. -/
def construct (form : Form) (numObs numExo numChoices : ℤ) (details : Bool) : Outcome Sizes :=
  if numChoices < 1 then .throws
  else if numChoices = 2 ∧ form = .ordered then .throws
  else if numChoices > 2 ∧ form = .binary then .throws
  else
    let k := numExo + numChoices - 2
    let storage := k + k * k + numChoices + (if details then 3 * k else 0)
    let priorWork := 2 * numObs + numChoices + numObs * numExo + priorOls numObs numExo
    .ok ⟨storage, max priorWork (numObs + 2 * k + k * k + newtonWork k + numChoices), k⟩

/-- The blocks laid over the storage by `Calculate`, discrete_choice.cpp:85-101. -/
def storageBlocks (numExo cutoffs : ℤ) (details : Bool) : List ℤ :=
  let k := numExo + cutoffs - 1
  [k, k * k, cutoffs + 1] ++ if details then [k, k, k] else []

/-- The blocks laid over the work array by `EstimateBinary`, discrete_choice.cpp:296-308 (and the work array of the optimiser). -/
def binaryBlocks (numObs k : ℤ) : List ℤ := [numObs, k, k, k * k, newtonWork k]

/-- The blocks laid over the work array by `EstimatePriorBinary`, discrete_choice.cpp:189-198 (and that of least squares). -/
def binaryPriorBlocks (numObs k0 : ℤ) : List ℤ := [numObs, numObs, numObs * k0, priorOls numObs k0]

/-- The blocks laid over the work array by `EstimateOrdered`, discrete_choice.cpp:647-662. -/
def orderedBlocks (numObs k0 cutoffs : ℤ) : List ℤ :=
  let k := k0 + cutoffs - 1
  [numObs, k0, k, k * k, cutoffs - 1, newtonWork k]

/-- The blocks laid over the work array by `EstimatePriorOrdered`, discrete_choice.cpp:472-482. -/
def orderedPriorBlocks (numObs k0 cutoffs : ℤ) : List ℤ := [numObs, cutoffs, numObs, numObs * k0, priorOls numObs k0]

/-! ## Counting -/

/-- `Counts.Data[j] += v`, with `last + 1` cells. -/
def countAt (last : ℤ) (c : ℕ → ℝ) (j : ℤ) (v : ℝ) : Outcome (ℕ → ℝ) :=
  if j < 0 ∨ last < j then .ub else .ok fun l => if (l : ℤ) = j then c l + v else c l

/-- The loop that counts, discrete_choice.cpp:275-279,625-634. -/
noncomputable def countLoop (last : ℤ) (D : Data) : List ℕ → (ℕ → ℝ) → Outcome (ℕ → ℝ)
  | [], c => .ok c
  | i :: r, c => do
    let c ← countAt last c (trunc (D.y i)) (D.wt i)
    countLoop last D r c

/-- `Counts` for two choices, discrete_choice.cpp:274-283; without weights by the sum of `y`. -/
noncomputable def countBinary (D : Data) : Outcome (ℕ → ℝ) :=
  match D.w with
  | some _ => countLoop 1 D (List.range D.n) fun _ => 0
  | none =>
    let s := (List.range D.n).foldl (fun a i => a + D.y i) 0
    .ok fun l => if l = 1 then s else if l = 0 then (D.n : ℝ) - s else 0

/-- The check of the counts for more choices, discrete_choice.cpp:635-639, from `i` on. -/
noncomputable def someSmall (c : ℕ → ℝ) (J : ℕ) : Prop := ∃ i ≤ J, c i < 1 / 10 ^ 16

/-! ## Starting values -/

/-- A matrix of `n` rows and `k` columns. -/
def dense (n k : ℕ) (f : ℕ → ℕ → ℝ) : Mx.Mat ℝ := ⟨n, k, some (List.ofFn fun t : Fin (n * k) => f (t % n) (t / n))⟩

/-- `ols.Calculate(y, x, this->Beta.Data, work)` with `Ols(n, 1, k0, false, false)`: the first `k0` cells of `Beta`, of which there are
`k`. -/
noncomputable def fitOls (n k0 k : ℕ) (y : ℕ → ℝ) (x : ℕ → ℕ → ℝ) : Outcome (ℕ → ℝ) := do
  let f ← Ls.ols n 1 k0 false false (dense n 1 fun i _ => y i) (dense n k0 x) (List.replicate k 0)
    (List.replicate (2 * k0 * k0 + k0 * n) 0)
  pure fun j => f.beta.val j 0

/-- `y` and `x` with row `i` multiplied by `s i`, discrete_choice.cpp:209-217,231-236,244-250,515-522,567-573,600-606. -/
def scaled (D : Data) (s : ℕ → ℝ) : Data := ⟨D.n, D.k0, fun i => D.y i * s i, fun i j => D.x i j * s i, D.w⟩

/-- The first least squares estimate, discrete_choice.cpp:206-222,512-526: with weights, on rows multiplied by their roots. -/
noncomputable def firstOls (D : Data) (k : ℕ) : Outcome (ℕ → ℝ) :=
  match D.w with
  | some w => fitOls D.n D.k0 k (scaled D fun i => Real.sqrt (w i)).y (scaled D fun i => Real.sqrt (w i)).x
  | none => fitOls D.n D.k0 k D.y D.x

/-- `Pj` of `EstimatePriorBinary` before it is squared, discrete_choice.cpp:230,241. -/
noncomputable def priorP (S : Fns) (law : Law) (xib : ℝ) : ℝ :=
  match law with
  | .logit => 1 / (1 + Real.exp xib)
  | .probit => normalCdf S (-xib)

/-- `EstimatePriorBinary`, discrete_choice.cpp:184-260. -/
noncomputable def priorBinary (S : Fns) (law : Law) (D : Data) : Outcome (ℕ → ℝ) := do
  let b ← firstOls D D.k0
  let s : ℕ → ℝ := fun i => Real.sqrt (D.wt i / (priorP S law (dot D.k0 D.x b i) * (1 - priorP S law (dot D.k0 D.x b i))))
  fitOls D.n D.k0 D.k0 (scaled D s).y (scaled D s).x

/-- `mu.Data[i]` given the share of the choices up to `i`, discrete_choice.cpp:503,508; `dist_normal_cdfInv`, helpers.cpp:42-48. -/
noncomputable def quantileOf (S : Fns) (law : Law) (p : ℝ) : ℝ :=
  match law with
  | .logit => Real.log (p / (1 - p))
  | .probit => 0 + 1 * Real.sqrt 2 * S.erfInv (2 * p - 1)

/-- The loop for `mu`, discrete_choice.cpp:497-509: (`tmp0`, `mu`) after `m` iterations. -/
noncomputable def muLoop (S : Fns) (law : Law) (counts : ℕ → ℝ) (sumW : ℝ) : ℕ → ℝ × (ℕ → ℝ)
  | 0 => (0, fun _ => 0)
  | m + 1 =>
    let q := muLoop S law counts sumW m
    let t := q.1 + counts m / sumW
    (t, setAt q.2 m (quantileOf S law t))

/-- `sum_w`, discrete_choice.cpp:464-468. -/
noncomputable def sumWeights (D : Data) : ℝ :=
  match D.w with
  | some w => (List.range D.n).foldl (fun a i => a + w i) 0
  | none => D.n

/-- `EstimatePriorOrdered`, discrete_choice.cpp:459-612; `none` if a coefficient by which the code divides is zero (a division of the first
coefficient by `mu.Data[0] = 0` gives an infinite number, and the division by that gives zero, as here). -/
noncomputable def priorOrdered (S : Fns) (law : Law) (J : ℕ) (D : Data) (counts : ℕ → ℝ) : Outcome (Option (ℕ → ℝ)) := do
  let k := D.k0 + J - 1
  let mu := (muLoop S law counts (sumWeights D) J).2
  let b ← firstOls D k
  if b 0 = 0 then pure none
  else
    let t := -b 0 / mu 0
    let β : ℕ → ℝ := fun j => if j < D.k0 then b j / t else mu (j - D.k0 + 1) + -mu 0
    let s : ℕ → ℝ := fun i =>
      let P := (D.parts S law J β i).P
      Real.sqrt (D.wt i / (P * (1 - P)))
    let g ← fitOls D.n D.k0 k (scaled D s).y (scaled D s).x
    if g 0 = 0 then pure none
    else
      let t := -g 0 / mu 0
      pure (some fun j => if j < D.k0 then g j / t else β j)

/-! ## Estimation -/

/-- The members that hold the results, discrete_choice.h:113-172; `gradient` and `iteration` are those of `Optim`. -/
structure Est (k : ℕ) where
  numObs : ℕ
  counts : ℕ → ℝ
  beta : Fin k → ℝ
  betaVar : Matrix (Fin k) (Fin k) ℝ
  condition : Option ℝ
  gradient : Fin k → ℝ
  iteration : ℕ
  logL : Dbl ℝ
  aic : Dbl ℝ
  sic : Dbl ℝ
  std : Option (Fin k → Dbl ℝ)
  z : Option (Fin k → Dbl ℝ)
  prob : Option (Fin k → Dbl ℝ)

open Classical in
/-- `Inv00`, matrix_la.cpp:563-604. -/
noncomputable def invert {k : ℕ} (lu : Matrix (Fin k) (Fin k) ℝ → Matrix (Fin k) (Fin k) ℝ) (H : Matrix (Fin k) (Fin k) ℝ) :
    Matrix (Fin k) (Fin k) ℝ :=
  if H.det ≠ 0 then H⁻¹ else lu H

/-- `Norm('1')`, matrix_la.cpp:541-561: the largest sum of the absolute values of a column. -/
noncomputable def norm1 {k : ℕ} (H : Matrix (Fin k) (Fin k) ℝ) : ℝ := (List.ofFn fun b : Fin k => ∑ a, |H a b|).foldl max 0

/-- `std::sqrt`. -/
noncomputable def sqrtD (a : ℝ) : Dbl ℝ := if a < 0 then .nan else .num (Real.sqrt a)

/-- `2 * (1 - zdist.GetCdf(std::abs(t)))` with the standard normal distribution, discrete_choice.cpp:142-144; `GetCdf` is 1 at infinity. -/
noncomputable def pValue (S : Fns) : Dbl ℝ → Dbl ℝ
  | .num t => .num (2 * (1 - normalCdf S |t|))
  | .nan => .nan
  | _ => .num (2 * (1 - 1))

/-- `setestimdetails`, discrete_choice.cpp:130-147: `BetaStd`, `BetaZ`, `BetaProb`. -/
noncomputable def details {k : ℕ} (S : Fns) (beta : Fin k → ℝ) (var : Matrix (Fin k) (Fin k) ℝ) :
    (Fin k → Dbl ℝ) × (Fin k → Dbl ℝ) × (Fin k → Dbl ℝ) :=
  let std : Fin k → Dbl ℝ := fun j => sqrtD (var j j)
  let z : Fin k → Dbl ℝ := fun j => (exact : Ops ℝ).div (.num (beta j)) (std j)
  (std, z, fun j => pValue S (z j))

/-- `Aic`, discrete_choice.cpp:156. -/
noncomputable def aicOf (k : ℕ) (logL : Dbl ℝ) : Dbl ℝ := (exact : Ops ℝ).sub (.num (2 * (k : ℝ))) ((exact : Ops ℝ).mul (.num 2) logL)

/-- `Sic`, discrete_choice.cpp:157. -/
noncomputable def sicOf (n k : ℕ) (logL : Dbl ℝ) : Dbl ℝ :=
  (exact : Ops ℝ).sub (.num (Real.log (n : ℝ) * k)) ((exact : Ops ℝ).mul (.num 2) logL)

/-- What is not determined by the code: what LAPACK leaves in memory when it has solved or refused a system, and what happens from a
starting point that is not made of numbers; and the settings of `Optim` and the number of variables it was made for. -/
structure Env (k : ℕ) where
  chol : Matrix (Fin k) (Fin k) ℝ → Matrix (Fin k) (Fin k) ℝ
  lu : Matrix (Fin k) (Fin k) ℝ → Matrix (Fin k) (Fin k) ℝ
  other : Outcome (Est k)
  opts : NewtonOpts ℝ
  vars : ℕ

/-- The end of `EstimateBinary` and `EstimateOrdered` from the call of the optimiser, discrete_choice.cpp:423-445,1045-1063. -/
noncomputable def finish {k : ℕ} (S : Fns) (E : Env k) (form : Form) (doDetails : Bool) (n : ℕ) (counts : ℕ → ℝ) (F : (ℕ → ℝ) → Dbl ℝ)
    (G : (ℕ → ℝ) → ℕ → ℝ) (H : (ℕ → ℝ) → ℕ → ℕ → ℝ) (start : Fin k → ℝ) : Outcome (Est k) := do
  let s ← newton E.vars E.opts Real.sqrt E.chol (fun b => F (ext b)) (fun b => vec k (G (ext b))) (fun b => mat k (H (ext b))) start 0 .nan
    .nan
  let h := mat k (H (ext s.x))
  let v := invert E.lu h
  let logL := negD s.f
  let d := details S s.x v
  pure ⟨n, counts, s.x, v, if form = .binary then some (norm1 h * norm1 v) else none, s.g, s.iteration, logL, aicOf k logL, sicOf n k logL,
    if doDetails then some d.1 else none, if doDetails then some d.2.1 else none, if doDetails then some d.2.2 else none⟩

/-- `EstimateBinary` after the counts, discrete_choice.cpp:289-445. `start` is what `Beta` contains, `none` if its first element is `NaN`. -/
noncomputable def fromStart {k : ℕ} (S : Fns) (E : Env k) (form : Form) (doDetails : Bool) (n : ℕ) (counts : ℕ → ℝ) (F : (ℕ → ℝ) → Dbl ℝ)
    (G : (ℕ → ℝ) → ℕ → ℝ) (H : (ℕ → ℝ) → ℕ → ℕ → ℝ) (prior : Outcome (Option (ℕ → ℝ))) (olsInitial : Bool) (start : Option (Fin k → ℝ)) :
    Outcome (Est k) :=
  match olsInitial, start with
  | false, some b => finish S E form doDetails n counts F G H b
  | _, _ => do
    let p ← prior
    match p with
    | none => E.other
    | some b => finish S E form doDetails n counts F G H (vec k b)

open Classical in
/-- `EstimateBinary`, discrete_choice.cpp:262-446. -/
noncomputable def estimateBinary (S : Fns) (law : Law) (D : Data) (E : Env D.k0) (doDetails olsInitial : Bool)
    (start : Option (Fin D.k0 → ℝ)) : Outcome (Est D.k0) :=
  if D.n < 1 ∨ D.k0 < 1 then .throws
  else do
    let counts ← countBinary D
    if counts 0 = 0 ∨ counts 1 = 0 then .throws
    else
      fromStart S E .binary doDetails D.n counts (fun β => .num (funBinary S law D β)) (gfunBinary S law D) (hfunBinary S law D)
        (do let b ← priorBinary S law D; pure (some b)) olsInitial start

open Classical in
/-- `EstimateOrdered`, discrete_choice.cpp:607-1064; `J` is `NumCutoff`. -/
noncomputable def estimateOrdered (S : Fns) (law : Law) (J : ℕ) (D : Data) (E : Env (D.k0 + J - 1)) (doDetails olsInitial : Bool)
    (start : Option (Fin (D.k0 + J - 1) → ℝ)) : Outcome (Est (D.k0 + J - 1)) :=
  if D.n < 1 ∨ D.k0 + J - 1 < 1 then .throws
  else do
    let counts ← countLoop J D (List.range D.n) fun _ => 0
    if someSmall counts J then .throws
    else
      fromStart S E .ordered doDetails D.n counts (funOrdered S law J D) (gfunOrdered S law J D) (hfunOrdered S law J D)
        (priorOrdered S law J D counts) olsInitial start

/-- The checks at the beginning of `Calculate`, discrete_choice.cpp:48-83: the number of cutoffs. `self` are the sizes of the object, `rowsX`
and `rowsW` the rows of the other arguments, `top` is `y.Maximum()`. -/
noncomputable def cutoffs (form : Form) (self : Sizes) (doDetails : Bool) (n rowsX : ℤ) (rowsW : Option ℤ) (k0 : ℤ) (top : ℝ)
    (numChoices : ℤ) : Outcome ℤ :=
  if rowsX ≠ n then .throws
  else if rowsW.isSome ∧ rowsW ≠ some n then .throws
  else do
    let choices : ℤ := if form = .binary then 2 else if numChoices ≤ 0 then trunc top + 1 else numChoices
    let cuts := choices - 1
    if form = .ordered ∧ cuts ≤ 0 then .throws
    else do
      let temp ← construct form n k0 choices doDetails
      if temp.work > self.work ∨ temp.storage > self.storage then .throws else pure cuts

end Dc
end LDT
