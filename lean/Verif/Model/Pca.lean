import Verif.Model.Standardize
import Verif.Model.Ols
import Verif.Props.MatrixCov
/-!
# Principal components: `src/ldt_statistics/pca.cpp`, `MatrixSvd` of `src/matrix/decompositions.cpp`

Real numbers. The two arrays handed over as pointers are lists of numbers with arbitrary contents; a matrix laid over a part of one of
them has that part as its memory. The LAPACK routine `dgesvd` is a parameter. The user's data are cells that may be NaN; what `dgesvd`
does with a NaN is not specified, so that is `ub` here.
-/
namespace LDT
namespace Pc
open Mx Sd
open Arr (Val)
open Co (part)
open Ls (dotTr0)

/-- `dgesvd` with `jobu = 'N'`, `jobvt = 'S'`: `info`, the singular values and the rows of `VT`. -/
structure Lapack where
  gesvd : (r c : ℕ) → (Fin r → Fin c → ℝ) → Int × (ℕ → ℝ) × (ℕ → ℕ → ℝ)

/-- The sizes of a `MatrixSvd`. -/
structure Svd where
  storageSize : Int
  workSize : Int
  wSvd : Int

/-- `MatrixSvd::MatrixSvd(rows, cols, 'N', 'S')`, decompositions.cpp:11-35. -/
def Svd.make (rows cols : Int) : Outcome Svd :=
  if cols ≤ 0 ∨ rows ≤ 0 then .throws
  else
    let w := 2 * max (3 * min rows cols + max rows cols) (5 * min rows cols)
    .ok ⟨min rows cols + cols * cols, rows * cols + w, w⟩

/-- The numbers of a matrix without NaN. -/
noncomputable def numbersOf (m : Mat (Val ℝ)) : Outcome (Mat ℝ) :=
  match (m.mem.take (m.rows * m.cols).toNat).mapM id with
  | some l => .ok ⟨m.rows, m.cols, some l⟩
  | none => .ub

/-- The cells of `VT` after `dgesvd`, column by column: the leading dimension is `cols`, the first `mn` rows are written, the others keep
what the array contained, matrix_la.cpp:760-787. -/
noncomputable def vtCells (cols mn : ℕ) (vt : ℕ → ℕ → ℝ) (old : List ℝ) : List ℝ :=
  List.ofFn fun t : Fin (cols * cols) =>
    if (t : ℕ) % cols < mn then vt ((t : ℕ) % cols) ((t : ℕ) / cols) else old.getD t 0

/-- `MatrixSvd::Calculate` and `Calculate0` with the sizes it was made for, decompositions.cpp:37-74, matrix_la.cpp:760-787: the singular
values and `VT` laid over the array from its beginning. The data are copied to the work array first. -/
noncomputable def svdRun (L : Lapack) (x : Mat ℝ) (storage work : List ℝ) : Outcome (List ℝ × Mat ℝ) := do
  let svd ← Svd.make x.rows x.cols
  let mn := min x.rows x.cols
  if (storage.length : Int) < svd.storageSize ∨ (work.length : Int) < svd.workSize ∨ (x.mem.length : Int) < x.rows * x.cols then .ub
  else
    let res := L.gesvd x.rows.toNat x.cols.toNat (fun i j => x.val (i : ℕ) (j : ℕ))
    if res.1 ≠ 0 then .throws
    else .ok (List.ofFn (fun a : Fin mn.toNat => res.2.1 a),
      ⟨x.cols, x.cols, some (vtCells x.cols.toNat mn.toNat res.2.2 (part storage mn (x.cols * x.cols)))⟩)

/-- `PcaAnalysis`: `mDoPcs`, `StorageSize`, `WorkSize` and `DataS` (`none`: its `StorageSize` is 0), pca.h:17-74. -/
structure Pca where
  doPcs : Bool
  storageSize : Int
  workSize : Int
  dataS : Option Std

/-- The work size with forecasts, pca.cpp:33-43. -/
def forecastWork (numForecast cols : Int) (checkZeroVar center scale : Bool) (w : Int) : Outcome Int :=
  if numForecast > 0 ∧ (center || scale) = true then do
    let f ← Std.make numForecast cols checkZeroVar center scale
    pure (max w f.storageSize)
  else pure w

/-- `PcaAnalysis::PcaAnalysis`, pca.cpp:19-48. -/
def Pca.make (rows cols numForecast : Int) (doPCs checkZeroVar center scale : Bool) : Outcome Pca := do
  let checkZeroVar := if scale then checkZeroVar else false
  let svd ← Svd.make rows cols
  let base := cols * cols + min rows cols * 2
  let ds ← (if center || scale then do
      let d ← Std.make rows cols checkZeroVar center scale
      pure (some d)
    else pure none : Outcome (Option Std))
  let s1 := base + (match ds with | some d => d.storageSize | none => 0)
  let w1 := svd.workSize + (match ds with | some _ => 0 | none => rows * cols)
  let w2 ← forecastWork numForecast cols checkZeroVar center scale w1
  let s2 := s1 + (if numForecast > 0 then numForecast * cols else 0)
  pure ⟨doPCs, s2 + (if doPCs then rows * cols else 0), w2, ds⟩

/-- The results of `Calculate`. -/
structure PcaRes where
  dataS : Option (StdRes ℝ)
  directions : Mat ℝ
  stds : List (Val ℝ)
  ratios : List (Val ℝ)
  pcs : Option (Mat ℝ)
  forecasts : Option (Mat ℝ)

/-- The matrix that is analysed, the result of the standardization, and how many cells of the storage and of the work array it uses,
pca.cpp:81-90. -/
structure Used where
  mat : Mat ℝ
  dataS : Option (StdRes ℝ)
  q : Int
  p : Int

open Classical in
/-- Standardizing or copying the data, pca.cpp:77-90. -/
noncomputable def Pca.use (o : Pca) (mat : Mat (Val ℝ)) (work storage : List ℝ) : Outcome Used :=
  match o.dataS with
  | some d => do
    let r ← d.calculate rsqrt mat ((part storage 0 d.storageSize).map some) none none
    let x ← numbersOf r.result
    pure ⟨x, some r, d.storageSize, 0⟩
  | none => do
    let c ← mat.copyTo00 ⟨mat.rows, mat.cols, some ((part work 0 (mat.rows * mat.cols)).map some)⟩
    let x ← numbersOf c
    pure ⟨x, none, 0, mat.rows * mat.cols⟩

/-- `1.0 / sqrt(rows - 1)`, pca.cpp:106. -/
noncomputable def stdFactor (rows : Int) : Val ℝ :=
  open Classical in vdiv (some 1) (rsqrt (some ((rows : ℝ) - 1)))

/-- The squares divided by their sum, pca.cpp:110-115. -/
noncomputable def ratiosOf (stds : List (Val ℝ)) : List (Val ℝ) :=
  let sq := stds.map (fun x => vmul x x)
  open Classical in sq.map (fun x => vdiv x (sq.foldl vadd (some 0)))

open Classical in
/-- The forecasts, pca.cpp:123-139: standardized with the means and the variances of the data, then `… * Directions'`. -/
noncomputable def forecastRun (o : Pca) (u : Used) (directions : Mat ℝ) (cols0 : Int) (f : Mat (Val ℝ)) (work storage : List ℝ) (q : Int) :
    Outcome (Mat ℝ) := do
  let slot : Mat ℝ := ⟨f.rows, directions.cols, some (part storage q (f.rows * directions.cols))⟩
  match o.dataS, u.dataS with
  | some d, some r => do
    let fd ← Std.make f.rows cols0 d.removeZeroVar d.center d.scale
    let g ← fd.calculate rsqrt f ((part work 0 fd.storageSize).map some) r.means r.vars
    let x ← numbersOf g.result
    dotTr0 x directions slot
  | _, _ => do
    let x ← numbersOf f
    dotTr0 x directions slot

/-- `q` after the principal components, pca.cpp:117-122. -/
def afterPcs (doPcs : Bool) (q rows cols : Int) : Int := if doPcs then q + rows * cols else q

/-- `X * Directions'`, pca.cpp:117-122. -/
noncomputable def pcsRun (doPcs : Bool) (x directions : Mat ℝ) (storage : List ℝ) (q : Int) : Outcome (Option (Mat ℝ)) :=
  if doPcs then do
    let r ← dotTr0 x directions ⟨x.rows, x.cols, some (part storage q (x.rows * x.cols))⟩
    pure (some r)
  else pure none

/-- The number of rows of the forecast data, pca.cpp:55-61. -/
def forecastRows (xf : Option (Mat (Val ℝ))) : Int := match xf with | some f => f.rows | none => 0

/-- The forecasts if there are any, pca.cpp:123-139. -/
noncomputable def forecastsRun (o : Pca) (u : Used) (directions : Mat ℝ) (cols0 : Int) (xf : Option (Mat (Val ℝ))) (work storage : List ℝ)
    (q : Int) : Outcome (Option (Mat ℝ)) :=
  match xf with
  | some f => if f.rows > 0 then do
      let r ← forecastRun o u directions cols0 f work storage q
      pure (some r)
    else pure none
  | none => pure none

/-- `DataS.mRemoveZeroVar`, `DataS.mCenter`, `DataS.mScale`, pca.cpp:63-71. -/
def Pca.flags (o : Pca) : Bool × Bool × Bool :=
  match o.dataS with | some d => (d.removeZeroVar, d.center, d.scale) | none => (false, false, false)

/-- `PcaAnalysis::Calculate(mat, work, storage, Xforecast)`, pca.cpp:50-140. -/
noncomputable def Pca.calculate (L : Lapack) (o : Pca) (mat : Mat (Val ℝ)) (work storage : List ℝ) (xf : Option (Mat (Val ℝ))) :
    Outcome PcaRes := do
  if xf.any (fun f => f.cols != mat.cols) then .throws
  else do
    let temp ← Pca.make mat.rows mat.cols (forecastRows xf) o.doPcs o.flags.1 o.flags.2.1 o.flags.2.2
    if temp.workSize > o.workSize ∨ temp.storageSize > o.storageSize then .throws
    else do
      let u ← o.use mat work storage
      let cols := u.mat.cols
      let mn := min mat.rows cols
      let (s, vt) ← svdRun L u.mat (storage.drop u.q.toNat) (work.drop u.p.toNat)
      let q := u.q + mn + cols * cols + mn
      if (storage.length : Int) < q then .ub
      else do
        let stds := s.map (fun x => vmul (some x) (stdFactor mat.rows))
        let pcs ← pcsRun o.doPcs u.mat vt storage q
        let fs ← forecastsRun o u vt mat.cols xf work storage (afterPcs o.doPcs q mat.rows cols)
        pure ⟨u.dataS, vt, stds, ratiosOf stds, pcs, fs⟩

/-! ## Choosing the number of components -/

open Classical in
/-- `cumsum > CutoffRate`. -/
noncomputable def above (x : Val ℝ) (rate : ℝ) : Bool := match x with | some x => decide (rate < x) | none => false

/-- The loop of `GetCutoffColumn`, pca.cpp:147-151. -/
noncomputable def cutoffLoop (rate : ℝ) : List (Val ℝ) → Int → Val ℝ → Int
  | [], k, _ => k
  | x :: l, k, cum => if above (vadd cum x) rate then k else cutoffLoop rate l (k + 1) (vadd cum x)

open Classical in
/-- `PcaAnalysis::GetCutoffColumn(CutoffRate)`, pca.cpp:142-153. -/
noncomputable def cutoffColumn (ratios : List (Val ℝ)) (rate : ℝ) : Outcome Int :=
  if rate ≤ 0 ∨ 1 ≤ rate then .throws else .ok (cutoffLoop rate ratios 1 (some 0))

/-- `PcaAnalysisOptions`, pca.h:77-121. -/
structure Options where
  ignoreFirst : Int := 1
  exact : Int := 0
  rate : ℝ := 0
  countMax : Int := 100000

open Classical in
/-- `PcaAnalysisOptions::IsEnabled`, pca.h:98. -/
noncomputable def Options.enabled (o : Options) : Bool := decide (o.exact ≠ 0 ∨ o.rate ≠ 0)

open Classical in
/-- `PcaAnalysisOptions::CheckValidity`, pca.cpp:207-229. -/
noncomputable def Options.check (o : Options) : Outcome Unit :=
  if o.enabled = false then .ok ()
  else if o.ignoreFirst < 0 then .throws
  else if o.exact > 0 then .ok ()
  else if o.rate ≠ 0 then
    if o.rate ≤ 0 ∨ 1 ≤ o.rate then .throws
    else if o.countMax = 0 then .throws
    else .ok ()
  else .ok ()

/-- `PcaAnalysisOptions::GetFinalCount`, pca.cpp:231-238. -/
noncomputable def Options.finalCount (o : Options) (ratios : List (Val ℝ)) : Outcome Int :=
  if o.exact ≠ 0 then .ok o.exact
  else do
    let c ← cutoffColumn ratios o.rate
    pure (min c o.countMax)

/-- `Matrix(&data.Data[start * rows], rows, cols - start)`, pca.cpp:174-181. -/
def tailView (m : Mat (Val ℝ)) (start : Int) : Mat (Val ℝ) :=
  ⟨m.rows, m.cols - start, some (m.mem.drop (start * m.rows).toNat)⟩

/-- `PCs.Restructure0(rows, count); view.CopyFrom00(PCs); data.Restructure0(…)`, pca.cpp:188-196: the cells of the components go to the
memory of the data behind the first `start` columns. -/
noncomputable def replaceTail (m : Mat (Val ℝ)) (start count : Int) (pcs : Option (Mat ℝ)) : Outcome (Mat (Val ℝ)) :=
  match pcs with
  | some p => do
    let v ← (⟨p.rows, count, p.data.map (fun l => l.map some)⟩ : Mat (Val ℝ)).copyTo00 (tailView m start)
    pure ⟨m.rows, count + start, some (m.mem.take (start * m.rows).toNat ++ v.mem)⟩
  | none => pure ⟨m.rows, count + start, m.data⟩

/-- The same for the forecast data, pca.cpp:198-204. -/
noncomputable def replaceForecast (xf : Option (Mat (Val ℝ))) (start count : Int) (f : Option (Mat ℝ)) :
    Outcome (Option (Mat (Val ℝ))) :=
  match xf with
  | some x => do
    let r ← replaceTail x start count f
    pure (some r)
  | none => pure none

/-- The columns that were removed because they have no variance. -/
def PcaRes.removed (r : PcaRes) : List Int := match r.dataS with | some d => d.removed | none => []

/-- `PcaAnalysisOptions::CalculateForModel(model, data, work, storage, xForecast)`, pca.cpp:155-205 (`throwIfConstant` is set to true). -/
noncomputable def Options.calculateForModel (L : Lapack) (o : Options) (model : Pca) (data : Mat (Val ℝ)) (work storage : List ℝ)
    (xf : Option (Mat (Val ℝ))) : Outcome (PcaRes × Mat (Val ℝ) × Option (Mat (Val ℝ))) :=
  if xf.any (fun f => f.cols != data.cols) then .throws
  else if o.ignoreFirst ≥ data.cols then .throws
  else if o.ignoreFirst < 0 then .ub
  else do
    let r ← model.calculate L (tailView data o.ignoreFirst) work storage (xf.map (fun f => tailView f o.ignoreFirst))
    if r.removed ≠ [] then .throws
    else do
      let count ← o.finalCount r.ratios
      let d ← replaceTail data o.ignoreFirst count r.pcs
      let f ← replaceForecast xf o.ignoreFirst count r.forecasts
      pure (r, d, f)

end Pc
end LDT
