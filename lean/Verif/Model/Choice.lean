import Verif.Model.Distribution
import Verif.Model.Newton
import Verif.Spec.NelderMead
/-!
# Discrete choice: the functions that are maximised, `src/ldt_statistics/modeling/discrete/discrete_choice.cpp`

Arithmetic is exact, and division by zero is Lean's. `erfc` is a member of `Di.Fns`. The matrices are functions of their indices; what
`gfun` and `hfun` leave in memory is a function of all natural numbers, so that a cell outside of the vector could be seen.
`Dot0`/`DotVector0` (matrix_la.cpp:55-77,107-133) multiply by as many elements of `Beta` as the regressors have columns. The loops run over
the observations in the order of the code.
-/
namespace LDT
namespace Dc
open Op Di

/-- `DiscreteChoiceDistType`, include/math/statistics/inference/models/discrete_choice.h:26-33. -/
inductive Law where
  | logit
  | probit
  deriving DecidableEq

/-- The arguments `y`, `x` and `w` of `Calculate`. -/
structure Data where
  n : ℕ
  k0 : ℕ
  y : ℕ → ℝ
  x : ℕ → ℕ → ℝ
  w : Option (ℕ → ℝ)

/-- `w ? w->Data[i] : (Tv)1`. -/
def Data.wt (D : Data) (i : ℕ) : ℝ :=
  match D.w with
  | some w => w i
  | none => 1

/-- `x.Dot0(Beta, xb)`, matrix_la.cpp:107-133, and `x.DotVector0(Beta, xb)`, matrix_la.cpp:55-77. -/
def dot (k0 : ℕ) (x : ℕ → ℕ → ℝ) (β : ℕ → ℝ) (i : ℕ) : ℝ := ∑ j ∈ Finset.range k0, x i j * β j

/-- `dist_normal_pdf(z, 0, 1)`, helpers.cpp:27-30. -/
noncomputable def normalPdf (z : ℝ) : ℝ := Real.exp (-(1 / 2) * ((z - 0) / 1) * ((z - 0) / 1)) / (Real.sqrt (2 * Real.pi) * 1)

/-- `dist_normal_cdf(z, 0, 1)` of a finite number, helpers.cpp:35-41. -/
noncomputable def normalCdf (S : Fns) (z : ℝ) : ℝ := 1 / 2 * S.erfc ((0 - z) / (1 * Real.sqrt 2))

/-! ## Two choices -/

/-- `fun` of `EstimateBinary`, logit, discrete_choice.cpp:318-327. -/
noncomputable def funLogit (D : Data) (β : ℕ → ℝ) : ℝ :=
  -(List.range D.n).foldl (fun lnL i =>
    lnL + D.wt i * (-Real.log (1 + Real.exp (dot D.k0 D.x β i)) + D.y i * dot D.k0 D.x β i)) 0

/-- `gfun` of `EstimateBinary`, logit, discrete_choice.cpp:330-342. -/
noncomputable def gfunLogit (D : Data) (β : ℕ → ℝ) : ℕ → ℝ :=
  (List.range D.n).foldl (fun stro i j =>
    stro j - D.x i j * (D.wt i * (D.y i - 1 / (1 + Real.exp (-1 * dot D.k0 D.x β i))))) fun _ => 0

/-- `hfun` of `EstimateBinary`, logit, discrete_choice.cpp:345-360. -/
noncomputable def hfunLogit (D : Data) (β : ℕ → ℝ) : ℕ → ℕ → ℝ :=
  (List.range D.n).foldl (fun stro i a b =>
    let e := Real.exp (dot D.k0 D.x β i)
    let fxb := e / (1 + e)
    stro a b + D.wt i * (D.x i a * D.x i b) * (fxb * (1 - fxb))) fun _ _ => 0

/-- `fun` of `EstimateBinary`, probit, discrete_choice.cpp:364-374. -/
noncomputable def funProbit (S : Fns) (D : Data) (β : ℕ → ℝ) : ℝ :=
  -(List.range D.n).foldl (fun lnL i =>
    let PHI := normalCdf S (dot D.k0 D.x β i)
    lnL + D.wt i * (D.y i * Real.log PHI + (1 - D.y i) * Real.log (1 - PHI))) 0

/-- `gfun` of `EstimateBinary`, probit, discrete_choice.cpp:377-391. -/
noncomputable def gfunProbit (S : Fns) (D : Data) (β : ℕ → ℝ) : ℕ → ℝ :=
  (List.range D.n).foldl (fun stro i j =>
    let qi := 2 * D.y i - 1
    let qix := qi * dot D.k0 D.x β i
    stro j - D.x i j * (D.wt i * (qi * normalPdf qix / normalCdf S qix))) fun _ => 0

/-- `hfun` of `EstimateBinary`, probit, discrete_choice.cpp:394-416. -/
noncomputable def hfunProbit (S : Fns) (D : Data) (β : ℕ → ℝ) : ℕ → ℕ → ℝ :=
  (List.range D.n).foldl (fun stro i a b =>
    let qi := 2 * D.y i - 1
    let qix := qi * dot D.k0 D.x β i
    let c := normalCdf S qix
    let Li := qi * normalPdf qix / c
    stro a b + D.wt i * (D.x i a * D.x i b) * (Li * (Li + dot D.k0 D.x β i))) fun _ _ => 0

/-- `fun` of `EstimateBinary`, discrete_choice.cpp:314-374. -/
noncomputable def funBinary (S : Fns) : Law → Data → (ℕ → ℝ) → ℝ
  | .logit => funLogit
  | .probit => funProbit S

/-- `gfun` of `EstimateBinary`, discrete_choice.cpp:330-342,377-391. -/
noncomputable def gfunBinary (S : Fns) : Law → Data → (ℕ → ℝ) → ℕ → ℝ
  | .logit => gfunLogit
  | .probit => gfunProbit S

/-- `hfun` of `EstimateBinary`, discrete_choice.cpp:345-360,394-416. -/
noncomputable def hfunBinary (S : Fns) : Law → Data → (ℕ → ℝ) → ℕ → ℕ → ℝ
  | .logit => hfunLogit
  | .probit => hfunProbit S

/-! ## More choices -/

/-- `ordermu` with `restrictoffsets = false`, discrete_choice.cpp:163-175: the free cutoffs follow the coefficients. -/
def ordermu (k0 : ℕ) (β : ℕ → ℝ) : ℕ → ℝ := fun i => β (k0 + i)

/-- The distribution function at a cutoff `m` for the index `xib`, discrete_choice.cpp:682-694,863-875 and the like: `1/(1+exp(-m+xib))`
or the normal distribution at `m - xib`. -/
noncomputable def cdfAt (S : Fns) (law : Law) (m xib : ℝ) : ℝ :=
  match law with
  | .logit => 1 / (1 + Real.exp (-m + xib))
  | .probit => normalCdf S (m - xib)

/-- The same at the fixed cutoff zero, where the code writes `exp(xib)` and `-xib`. -/
noncomputable def cdfAt0 (S : Fns) (law : Law) (xib : ℝ) : ℝ :=
  match law with
  | .logit => 1 / (1 + Real.exp xib)
  | .probit => normalCdf S (-xib)

/-- The density at a cutoff, given the distribution function `F` there, discrete_choice.cpp:711-742,892-928. -/
noncomputable def pdfAt (law : Law) (F m xib : ℝ) : ℝ :=
  match law with
  | .logit => F * (1 - F)
  | .probit => normalPdf (m - xib)

/-- The density at the cutoff zero. -/
noncomputable def pdfAt0 (law : Law) (F xib : ℝ) : ℝ :=
  match law with
  | .logit => F * (1 - F)
  | .probit => normalPdf (-xib)

/-- The derivative of the density, given the distribution function and the density, discrete_choice.cpp:764-807,949-996. -/
noncomputable def slopeAt (law : Law) (F f m xib : ℝ) : ℝ :=
  match law with
  | .logit => f * (1 - 2 * F)
  | .probit => -f * (m - xib)

/-- The derivative of the density at the cutoff zero. -/
noncomputable def slopeAt0 (law : Law) (F f xib : ℝ) : ℝ :=
  match law with
  | .logit => f * (1 - 2 * F)
  | .probit => f * xib

/-- `Fj`, `Fj_1`, `fj`, `fj_1`, `ffj`, `ffj_1`, `r1` and `r2` (`-1` is `none`). -/
structure Parts where
  F1 : ℝ
  F0 : ℝ
  f1 : ℝ
  f0 : ℝ
  ff1 : ℝ
  ff0 : ℝ
  r1 : Option ℕ
  r2 : Option ℕ

/-- `Pj`. -/
def Parts.P (p : Parts) : ℝ := p.F1 - p.F0

/-- The four cases of an observation, discrete_choice.cpp:764-808,949-997 (`fun` and `gfun`, 682-695, 711-743, 863-876, 892-928, have the
same cases and need fewer of the values). -/
noncomputable def parts (S : Fns) (law : Law) (J k0 : ℕ) (mu : ℕ → ℝ) (yi : ℕ) (xib : ℝ) : Parts :=
  if yi = 0 then
    let F1 := cdfAt0 S law xib
    let f1 := pdfAt0 law F1 xib
    ⟨F1, 0, f1, 0, slopeAt0 law F1 f1 xib, 0, none, none⟩
  else if yi = 1 then
    let F1 := cdfAt S law (mu 0) xib
    let F0 := cdfAt0 S law xib
    let f1 := pdfAt law F1 (mu 0) xib
    let f0 := pdfAt0 law F0 xib
    ⟨F1, F0, f1, f0, slopeAt law F1 f1 (mu 0) xib, slopeAt0 law F0 f0 xib, some k0, none⟩
  else if yi = J then
    let F0 := cdfAt S law (mu (yi - 2)) xib
    let f0 := pdfAt law F0 (mu (yi - 2)) xib
    ⟨1, F0, 0, f0, 0, slopeAt law F0 f0 (mu (yi - 2)) xib, none, some (k0 + yi - 2)⟩
  else
    let F1 := cdfAt S law (mu (yi - 1)) xib
    let F0 := cdfAt S law (mu (yi - 2)) xib
    let f1 := pdfAt law F1 (mu (yi - 1)) xib
    let f0 := pdfAt law F0 (mu (yi - 2)) xib
    ⟨F1, F0, f1, f0, slopeAt law F1 f1 (mu (yi - 1)) xib, slopeAt law F0 f0 (mu (yi - 2)) xib, some (k0 + yi - 1), some (k0 + yi - 2)⟩

/-- `static_cast<Ti>(y.Data[i])` of a number above -1. -/
noncomputable def Data.cat (D : Data) (i : ℕ) : ℕ := ⌊D.y i⌋₊

/-- The parts of observation `i`. -/
noncomputable def Data.parts (S : Fns) (law : Law) (J : ℕ) (D : Data) (β : ℕ → ℝ) (i : ℕ) : Parts :=
  Dc.parts S law J D.k0 (ordermu D.k0 β) (D.cat i) (dot D.k0 D.x β i)

/-- `std::log`. -/
noncomputable def logD (z : ℝ) : Dbl ℝ := if z < 0 then .nan else if z = 0 then .ninf else .num (Real.log z)

/-- `-a`. -/
def negD : Dbl ℝ → Dbl ℝ
  | .num a => .num (-a)
  | .pinf => .ninf
  | .ninf => .pinf
  | .nan => .nan

/-- `fun` of `EstimateOrdered`, discrete_choice.cpp:673-698,854-879. -/
noncomputable def funOrdered (S : Fns) (law : Law) (J : ℕ) (D : Data) (β : ℕ → ℝ) : Dbl ℝ :=
  negD ((List.range D.n).foldl (fun lnL i =>
    (exact : Ops ℝ).add lnL ((exact : Ops ℝ).mul (.num (D.wt i)) (logD (D.parts S law J β i).P))) (.num 0))

/-- `stro.Data[r] += v`. -/
def addAt (s : ℕ → ℝ) (r : Option ℕ) (v : ℝ) : ℕ → ℝ :=
  match r with
  | none => s
  | some r => fun j => if j = r then s j + v else s j

/-- One observation of `gfun` of `EstimateOrdered`, discrete_choice.cpp:707-748,887-933. -/
noncomputable def gStep (p : Parts) (v : ℝ) (k0 : ℕ) (x : ℕ → ℝ) (stro : ℕ → ℝ) : ℕ → ℝ :=
  let stro := addAt stro p.r1 (-(v * (p.f1 / p.P)))
  let stro := addAt stro p.r2 (v * (p.f0 / p.P))
  (List.range k0).foldl (fun s j => addAt s (some j) (x j * (v * ((p.f1 - p.f0) / p.P)))) stro

/-- `gfun` of `EstimateOrdered`, discrete_choice.cpp:700-749,881-934. -/
noncomputable def gfunOrdered (S : Fns) (law : Law) (J : ℕ) (D : Data) (β : ℕ → ℝ) : ℕ → ℝ :=
  (List.range D.n).foldl (fun stro i => gStep (D.parts S law J β i) (D.wt i) D.k0 (D.x i) stro) fun _ => 0

/-- `stro.Set_Plus0(a, b, v)`. -/
def addAt2 (s : ℕ → ℕ → ℝ) (a b : ℕ) (v : ℝ) : ℕ → ℕ → ℝ := fun i j => if i = a ∧ j = b then s i j + v else s i j

/-- `stro.Set0(a, b, v)`. -/
def setAt2 (s : ℕ → ℕ → ℝ) (a b : ℕ) (v : ℝ) : ℕ → ℕ → ℝ := fun i j => if i = a ∧ j = b then v else s i j

/-- What is added to the column of a cutoff `r` above the diagonal (`c` times the regressors, times `v`) and on it, discrete_choice.cpp:810-817,818-824,999-1013. -/
def hCut (v : ℝ) (k0 : ℕ) (x : ℕ → ℝ) (r : Option ℕ) (c e : ℝ) (stro : ℕ → ℕ → ℝ) : ℕ → ℕ → ℝ :=
  match r with
  | none => stro
  | some r => addAt2 ((List.range k0).foldl (fun s a => addAt2 s a r (v * (x a * c))) stro) r r (-(v * e))

/-- What is added for two cutoffs, discrete_choice.cpp:825-826,1014-1015. -/
def hCross (r1 r2 : Option ℕ) (e : ℝ) (stro : ℕ → ℕ → ℝ) : ℕ → ℕ → ℝ :=
  match r1, r2 with
  | some r1, some r2 => addAt2 stro r2 r1 (-e)
  | _, _ => stro

/-- One observation of `hfun` of `EstimateOrdered`, discrete_choice.cpp:809-835,998-1024. -/
noncomputable def hStep (p : Parts) (v : ℝ) (k0 : ℕ) (x : ℕ → ℝ) (stro : ℕ → ℕ → ℝ) : ℕ → ℕ → ℝ :=
  let stro := hCut v k0 x p.r1 (p.ff1 / p.P - (p.f1 - p.f0) * p.f1 / (p.P * p.P)) (p.ff1 / p.P - (p.f1 / p.P) ^ 2) stro
  let stro := hCut v k0 x p.r2 (-p.ff0 / p.P + (p.f1 - p.f0) * p.f0 / (p.P * p.P)) (-p.ff0 / p.P - (p.f0 / p.P) ^ 2) stro
  let stro := hCross p.r1 p.r2 (v * (p.f1 * p.f0 / (p.P * p.P))) stro
  (List.range k0).foldl (fun s j => (List.range k0).foldl (fun s a =>
    if j > a then s
    else addAt2 s j a (-(x j * x a * (v * ((p.ff1 - p.ff0) / p.P - ((p.f1 - p.f0) / p.P) ^ 2))))) s) stro

/-- Setting the lower triangle, discrete_choice.cpp:841-848,1030-1037. -/
def mirror (k : ℕ) (stro : ℕ → ℕ → ℝ) : ℕ → ℕ → ℝ :=
  (List.range k).foldl (fun s j => (List.range k).foldl (fun s a => if j > a then s else setAt2 s a j (s j a)) s) stro

/-- `hfun` of `EstimateOrdered`, discrete_choice.cpp:751-849,936-1038; `k` coefficients and cutoffs. -/
noncomputable def hfunOrdered (S : Fns) (law : Law) (J : ℕ) (D : Data) (β : ℕ → ℝ) : ℕ → ℕ → ℝ :=
  mirror (D.k0 + J - 1) ((List.range D.n).foldl (fun stro i => hStep (D.parts S law J β i) (D.wt i) D.k0 (D.x i) stro) fun _ _ => 0)

/-! ## Probabilities -/

/-- A row of the result of `GetProbabilities` for two choices, discrete_choice.cpp:1079-1098 (`exp` does not overflow here). -/
noncomputable def binaryRow (S : Fns) (law : Law) (xib : ℝ) : ℕ → ℝ :=
  let fxb := match law with
    | .logit => Real.exp xib / (1 + Real.exp xib)
    | .probit => normalCdf S xib
  fun j => if j = 0 then 1 - fxb else if j = 1 then fxb else 0

/-- `result.Set0(i, j, v)` in a row. -/
def setAt (s : ℕ → ℝ) (j : ℕ) (v : ℝ) : ℕ → ℝ := fun l => if l = j then v else s l

/-- The inner loop of `GetProbabilities` for more choices at `j`, with `fuel` iterations left, discrete_choice.cpp:1114-1128,1135-1147. -/
noncomputable def orderedLoop (S : Fns) (law : Law) (J : ℕ) (mu : ℕ → ℝ) (xib : ℝ) : ℕ → ℕ → ℝ → ℝ → (ℕ → ℝ) → ℕ → ℝ
  | 0, _, _, _, row => row
  | fuel + 1, j, mui, preF, row =>
    let F := cdfAt S law mui xib
    let row := setAt row j (F - preF)
    if j + 1 = J then setAt row (j + 1) (1 - F)
    else orderedLoop S law J mu xib fuel (j + 1) (mu j) F row

/-- A row of the result of `GetProbabilities` for more choices, discrete_choice.cpp:1103-1149; `row` is what was there. -/
noncomputable def orderedRow (S : Fns) (law : Law) (J k0 : ℕ) (β : ℕ → ℝ) (xib : ℝ) (row : ℕ → ℝ) : ℕ → ℝ :=
  orderedLoop S law J (ordermu k0 β) xib (J + 1) 0 0 0 row

end Dc
end LDT
