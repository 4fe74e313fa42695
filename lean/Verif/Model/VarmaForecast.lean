import Verif.Model.Varma
/-!
# VARMA regressors, residuals and forecasts: `varma.cpp:63-125, 305-360`, `varma_forecast.cpp:41-180`

Numbers are elements of a ring.  Matrix products (BLAS `gemm`, `dot`) are sums of products; the small buffers that
only carry one row or column of numbers to such a product (`Xi`, `Ri`, `yhat`) are not represented.
-/
namespace LDT
namespace Varma
open Mx Poly

variable {K : Type}

/-- One entry of `A.Dot0(x, …)`: `Σ_{c < k} A(r, c) · x(c)`, with the vector read by `x`. -/
def dotVec [Zero K] [Add K] [Mul K] (A : Mat K) (x : Int → Outcome K) (k r : Int) : Outcome K :=
  (upTo 0 k).foldlM (fun s c => do
    let a ← A.get0 r c
    let b ← x c
    pure (s + a * b)) 0

/-- `data_d.GetSub0(0, ArMax, g, T, Result.y, 0, 0)`, varma.cpp:103. -/
def estimationY (z : Sizes) (T : Int) (dataD y : Mat K) : Outcome (Mat K) :=
  y.setSub0 0 0 dataD 0 z.arMax z.eqsCount T

/-- The lag loop, varma.cpp:115-119, from column `row` on. -/
def lagColumns (z : Sizes) (T : Int) (dataD : Mat K) : List Int → Int → Mat K → Outcome (Mat K)
  | [], _, X => .ok X
  | l :: ls, row, X => do
    let X ← X.setSubT0 0 row dataD 0 (z.arMax - l) T z.eqsCount
    lagColumns z T dataD ls (row + z.eqsCount) X

/-- The AR and exogenous columns of `Result.Xt`, varma.cpp:114-124 (`Restructure0` changes the number of columns
only; the matrix has `T` rows throughout). -/
def regressors (z : Sizes) (T : Int) (dataD : Mat K) (exo : Option (Mat K)) (X : Mat K) : Outcome (Mat K) := do
  let X ← lagColumns z T dataD z.arLags 0 X
  if z.exoCount ≠ 0 then
    match exo with
    | none => .ub
    | some e => X.setSubT0 0 (z.arLength * z.eqsCount) e 0 z.arMaxD T z.exoCount
  else pure X

/-- `data_d`, varma.cpp:93-102: the differenced data (over the work array) or the data themselves. -/
def differenced [Ring K] (z : Sizes) (data : Mat K) (work : List K) : Outcome (Mat K) :=
  if z.hasDiff then
    difference z.diffPoly data
      { rows := z.eqsCount, cols := data.cols - z.diffPoly.length + 1, data := some work }
  else .ok data

/-- The start of `EstimateOls`, varma.cpp:67-125: the check of the sizes, `Result.y` and the AR and exogenous columns
of `Result.Xt` (set to zero by `SetStorage`, varma_sizes.cpp:254).  `Sizes` is assumed to have been updated with the
dimensions of the data (varma.cpp:67-70). `ymem` and `xmem` are the parts of the storage for `y` and `Xt`. -/
def prepare [Ring K] (z : Sizes) (data : Mat K) (exo : Option (Mat K)) (sampleEnd : Int) (work ymem xmem : List K) :
    Outcome (Mat K × Mat K) :=
  let T := z.T - sampleEnd
  if T < 1 ∨ z.eqsCount < 1 ∨ z.numParams < 1 then .throws
  else do
    let cells ← fill xmem (T * z.numParamsEq) 0
    let dataD ← differenced z data work
    let y ← estimationY z T dataD { rows := z.eqsCount, cols := T, data := some ymem }
    let X : Mat K := { rows := T, cols := z.numParamsEq, data := some cells }
    if z.hasAr || z.exoCount != 0 then do
      let X ← regressors z T dataD exo X
      pure (y, X)
    else pure (y, X)

/-- The update of `Xt` with a new column of residuals, varma.cpp:350-357 (and 332-339 for one equation): the loop
stops at the first lag that leaves the sample. -/
def updateX (resid : Mat K) (g i n : Int) : List Int → Int → Mat K → Outcome (Mat K)
  | [], _, X => .ok X
  | l :: ls, row, X =>
    if i + l ≥ n then .ok X
    else do
      let X ← X.setSubT0 (i + l) row resid 0 i 1 g
      updateX resid g i n ls (row + g) X

/-- One turn of the loop of `MlUpdateResid`, varma.cpp:341-358 (324-340 for one equation): state `(Xt, resid)`. -/
def residStep [Ring K] (z : Sizes) (n : Int) (Pi y : Mat K) (st : Mat K × Mat K) (i : Int) :
    Outcome (Mat K × Mat K) := do
  let resid ← (upTo 0 z.eqsCount).foldlM (fun re j => do
    let d ← dotVec Pi (st.1.get0 i) z.numParamsEq j
    let v ← y.get0 j i
    re.set0 j i (v - d)) st.2
  let X ← updateX resid z.eqsCount i n z.maLags z.maStart st.1
  pure (X, resid)

/-- `MlUpdateResid`, varma.cpp:305-360, after `Pi` is set; `n` is the number of columns of `y`. -/
def mlResid [Ring K] (z : Sizes) (n : Int) (Pi y X resid : Mat K) : Outcome (Mat K × Mat K) :=
  (upTo 0 n).foldlM (residStep z n Pi y) (X, resid)

/-- The AR part of `xtprime`, varma_forecast.cpp:48-52. -/
def xtAr (forecast : Mat K) (g fRow : Int) : List Int → Int → Mat K → Outcome (Mat K)
  | [], _, xt => .ok xt
  | l :: ls, sR, xt => do
    let xt ← xt.setSub0 sR 0 forecast 0 (fRow - l) g 1
    xtAr forecast g fRow ls (sR + g) xt

/-- The MA part of `xtprime`, varma_forecast.cpp:61-70. -/
def xtMa (resid : Mat K) (g residInd fRow : Int) : List Int → Int → Mat K → Outcome (Mat K)
  | [], _, xt => .ok xt
  | l :: ls, sR, xt =>
    if residInd + fRow - l < resid.cols then do
      let xt ← xt.setSub0 sR 0 resid 0 (residInd + fRow - l) g 1
      xtMa resid g residInd fRow ls (sR + g) xt
    else xtMa resid g residInd fRow ls (sR + g) xt

/-- The exogenous part of `xtprime`, varma_forecast.cpp:54-59. -/
def xtExo (exo : Option (Mat K)) (exoCount sR col : Int) (xt : Mat K) : Outcome (Mat K) :=
  if exoCount > 0 then
    match exo with
    | none => .ub
    | some e => xt.setSub0 sR 0 e 0 col exoCount 1
  else .ok xt

/-- `xtprime`, varma_forecast.cpp:41-70: the regressors of column `fRow` of the forecast. -/
def xtprime [Zero K] (z : Sizes) (xt forecast resid : Mat K) (exo : Option (Mat K)) (fRow xInd residInd : Int) :
    Outcome (Mat K) := do
  let cells ← fill xt.mem (xt.rows * xt.cols) 0
  let xt ← xtAr forecast z.eqsCount fRow z.arLags 0 { xt with data := some cells }
  let xt ← xtExo exo z.exoCount (z.arLength * z.eqsCount) (xInd + fRow) xt
  xtMa resid z.eqsCount residInd fRow z.maLags (z.arLength * z.eqsCount + z.exoCount) xt

/-- What the estimation leaves for the forecast: `Sizes`, `SampleEnd`, `Result.y`, `Result.resid`, `Result.coef`. -/
structure Estimate (K : Type) where
  z : Sizes
  sampleEnd : Int
  y : Mat K
  resid : Mat K
  coef : Mat K

/-- The start of the forecast, varma_forecast.cpp:151-161: column `i` of the pre-sample. -/
def headColumn (e : Estimate K) (undiff : Mat K) (f : Mat K) (i : Int) : Outcome (Mat K) :=
  if i < e.z.diffDegree then
    f.setSub0 0 i undiff 0 (undiff.cols - e.sampleEnd - e.z.arMaxD + i) e.z.eqsCount 1
  else f.setSub0 0 i e.y 0 (e.z.T - e.sampleEnd - e.z.arMaxD + i) e.z.eqsCount 1

/-- One forecast column, varma_forecast.cpp:164-169: state `(xt, Forecast)`. -/
def forecastColumn [Ring K] (e : Estimate K) (exo : Option (Mat K)) (xInd residInd : Int)
    (st : Mat K × Mat K) (i : Int) : Outcome (Mat K × Mat K) := do
  let xt ← xtprime e.z st.1 st.2 e.resid exo i xInd residInd
  let f ← (upTo 0 e.z.eqsCount).foldlM (fun f r => do
    let v ← dotVec e.coef (fun c => xt.get0 c 0) e.z.numParamsEq r
    f.set0 r i v) st.2
  pure (xt, f)

/-- The checks of `VarmaForecast::Calculate`, varma_forecast.cpp:80-107. -/
def forecastChecks (e : Estimate K) (exo : Option (Mat K)) (maxHorizon horizon : Int) (exoIsNew : Bool) : Bool :=
  horizon ≤ maxHorizon &&
  (exoIsNew || (0 ≤ e.z.T - e.sampleEnd - e.z.arMaxD &&
    (e.z.exoCount = 0 ||
      match exo with
      | none => true
      | some x => e.z.T - e.sampleEnd + (horizon + e.z.arMaxD) ≤ x.cols)))

/-- The mean of `VarmaForecast::Calculate`, varma_forecast.cpp:73-177.  `storage` is the memory given for
`Forecast`, `work` the cells of `xt`.  `horizon = -1` (the default) stands for the horizon of the constructor. -/
def forecastMean [Ring K] (e : Estimate K) (exo : Option (Mat K)) (undiff : Mat K) (storage work : List K)
    (maxHorizon horizon : Int) (exoIsNew : Bool) : Outcome (Mat K) :=
  let horizon := if horizon = -1 then maxHorizon else horizon
  if forecastChecks e exo maxHorizon horizon exoIsNew = false then .throws
  else do
    let residInd := e.z.T - e.sampleEnd - e.z.arMaxD
    let xInd := if exoIsNew then -e.z.arMaxD else e.z.T - e.sampleEnd
    let cols := horizon + e.z.arMaxD
    let f0 : Mat K := { rows := e.z.eqsCount, cols := cols, data := some storage }
    let f ← (upTo 0 e.z.arMaxD).foldlM (headColumn e undiff) f0
    let st ← (upTo e.z.arMaxD cols).foldlM (forecastColumn e exo xInd residInd)
      ({ rows := e.z.numParamsEq, cols := 1, data := some work }, f)
    if e.z.hasDiff then undifference e.z.diffPoly st.2 else pure st.2

/-- `Matrix::SetColumnFromDiag0`, matrix.cpp:1531-1538: column `j` receives the diagonal. -/
def setColumnFromDiag0 {g : Nat} (m : Mat K) (j : Int) (v : Matrix (Fin g) (Fin g) K) : Outcome (Mat K) :=
  (List.finRange g).foldlM (fun m (r : Fin g) => m.set0 (r : Nat) j (v r r)) m

/-- One turn of the variance loop of `VarmaForecast::Calculate`, varma_forecast.cpp:191-198: state `(varp, Variance)`.
`psi` is the list of coefficients of the MA(∞) polynomial (`at(i)` throws outside of it). -/
def varianceStep [CommRing K] {g : Nat} (z : Sizes) (psi : List (Matrix (Fin g) (Fin g) K))
    (sigma : Matrix (Fin g) (Fin g) K) (st : Matrix (Fin g) (Fin g) K × Mat K) (i : Int) :
    Outcome (Matrix (Fin g) (Fin g) K × Mat K) :=
  match psi[i.toNat]? with
  | none => .throws
  | some p => do
    let varp := st.1 + p * sigma * p.transpose
    let v ← setColumnFromDiag0 st.2 (i + z.arMaxD) varp
    pure (varp, v)

/-- The variance of `VarmaForecast::Calculate`, varma_forecast.cpp:183-199 (without coefficient uncertainty, which is
not implemented in the code): zero columns for the pre-sample, then the diagonals of the running sum. -/
def forecastVariance [CommRing K] {g : Nat} (z : Sizes) (psi : List (Matrix (Fin g) (Fin g) K))
    (sigma : Matrix (Fin g) (Fin g) K) (storage : List K) (horizon : Int) : Outcome (Mat K) := do
  let v0 : Mat K := { rows := z.eqsCount, cols := horizon + z.arMaxD, data := some storage }
  let v ← (upTo 0 z.arMaxD).foldlM (fun v i => setColumn0 v i 0) v0
  let st ← (upTo 0 horizon).foldlM (varianceStep z psi sigma) (0, v)
  pure st.2

end Varma
end LDT
