import Verif.Model.Pca
import Verif.Model.DatasetTs
import Verif.Model.NelderMead
/-!
# A VARMA model from a table: `src/ldt_statistics/modeling/time_series/varma/varma_extended.cpp`

The table has a row for each period and a column for each variable, the endogenous variables first. Numbers are exact; a cell may be NaN (`none`). The estimation
and the forecasts (C55-C57, C136, C137) are parameters. Not represented: the check that the sizes of the work array and the storage suffice (varma_extended.cpp:101-106),
and the transposition of `Y`, `X` and the future rows before they are passed on (varma_extended.cpp:170-174): the parameters get them with variables in the columns.
-/
namespace LDT
namespace Vx
open Mx Op
open Arr (Val)
open Pc (Options Pca Lapack)

/-- The arguments of the constructor, varma_extended.cpp:11-18: `sizes.ObsCount`, `sizes.EqsCount`, `sizes.ExoCount`, `checkNan`, `fHorizon`, the options of the
principal components (which may be null) and whether the restriction is `kGeneral`. -/
structure Setup where
  obs : Int
  eqs : Int
  exo : Int
  checkNan : Bool
  horizon : Int
  pcaY : Option Options
  pcaX : Option Options
  general : Bool

/-- The object: the setup with the reduced counts, `Data`, and the principal components if they are used (`mHasPcaY`, `mHasPcaX`). -/
structure Ext where
  setup : Setup
  data : DsTs ℝ
  pcaY : Option (Options × Pca)
  pcaX : Option (Options × Pca)

/-- `std::min(count, CutoffCountMax + IgnoreFirstCount)`, varma_extended.cpp:47-50 and 64-67. -/
def reduced (n : Int) (o : Options) : Int := min n (o.countMax + o.ignoreFirst)

/-- varma_extended.cpp:40-51: the components of the endogenous variables and the reduced number of equations. -/
noncomputable def makeY (u : Setup) : Outcome (Option (Options × Pca) × Int) :=
  match u.pcaY.filter (fun o => o.enabled) with
  | none => .ok (none, u.eqs)
  | some o => do
    o.check
    let p ← Pca.make u.obs u.eqs 0 true true true true
    pure (some (o, p), reduced u.eqs o)

/-- varma_extended.cpp:53-68: the same for the exogenous variables, with `fHorizon` rows to be transformed. -/
noncomputable def makeX (u : Setup) : Outcome (Option (Options × Pca) × Int) :=
  match u.pcaX.filter (fun o => o.enabled) with
  | none => .ok (none, u.exo)
  | some o =>
    if u.exo = 0 then .throws
    else do
      o.check
      let p ← Pca.make u.obs u.exo u.horizon true true true true
      pure (some (o, p), reduced u.exo o)

/-- The constructor, varma_extended.cpp:11-93; `other` are the constructors of the restriction, the model and the forecasts for the reduced numbers of variables. -/
noncomputable def make (other : Int → Int → Outcome Unit) (u : Setup) : Outcome Ext := do
  let d ← DsTs.make (K := ℝ) u.obs (u.eqs + u.exo) u.checkNan false
  let y ← makeY u
  let x ← makeX u
  if u.general then .throws
  else do
    other y.2 x.2
    pure ⟨{ u with eqs := y.2, exo := x.2 }, d, y.1, x.1⟩

/-- What the parts of the work array and the storage contain before. -/
structure Buffers where
  data : List (Val ℝ)
  future : List (Val ℝ)
  workY : List ℝ
  storageY : List ℝ
  workX : List ℝ
  storageX : List ℝ

/-- What is passed on: `Y`, `X`, the future rows of `X` (`useExoForecast`) and the numbers of variables for which the restriction is made. -/
structure Prepared where
  y : Mat (Val ℝ)
  x : Option (Mat (Val ℝ))
  future : Option (Mat (Val ℝ))
  sizes : Int × Int

/-- The data for `Y`: its first columns, or their components, varma_extended.cpp:131-142. -/
noncomputable def stepY (L : Lapack) (e : Ext) (r : Mat (Val ℝ)) (b : Buffers) : Outcome (Mat (Val ℝ)) :=
  let y : Mat (Val ℝ) := ⟨r.rows, e.setup.eqs, some r.mem⟩
  match e.pcaY with
  | none => .ok y
  | some (o, p) => do
    let t ← o.calculateForModel L p y b.workY b.storageY none
    pure t.2.1

/-- `useExoForecast`, varma_extended.cpp:144-155. -/
noncomputable def stepFuture (e : Ext) (data : Mat (Val ℝ)) (stop horizon sampleEnd : Int) (b : Buffers) : Outcome (Option (Mat (Val ℝ))) :=
  if horizon > 0 then
    if data.rows ≤ stop + horizon - sampleEnd then .throws
    else do
      let f ← (⟨horizon, e.setup.exo, some b.future⟩ : Mat (Val ℝ)).setSub 0 0 data (stop + 1 - sampleEnd) e.setup.eqs horizon e.setup.exo
      pure (some f)
  else .ok none

/-- `X`: `&d[Sizes.EqsCount * count]`, varma_extended.cpp:134-135 and 143-161. -/
noncomputable def stepX (L : Lapack) (e : Ext) (r data : Mat (Val ℝ)) (stop horizon sampleEnd : Int) (b : Buffers) :
    Outcome (Option (Mat (Val ℝ)) × Option (Mat (Val ℝ))) :=
  if e.setup.exo > 0 then do
    let x : Mat (Val ℝ) := ⟨r.rows, e.setup.exo, some (r.mem.drop (e.setup.eqs * r.rows).toNat)⟩
    let f ← stepFuture e data stop horizon sampleEnd b
    match e.pcaX with
    | none => pure (some x, f)
    | some (o, p) => do
      let t ← o.calculateForModel L p x b.workX b.storageX f
      pure (some t.2.1, t.2.2)
  else .ok (none, none)

/-- `Calculate` before the estimation, varma_extended.cpp:94-174. -/
noncomputable def prepare (L : Lapack) (other : Int → Int → Outcome Unit) (e : Ext) (data : Mat (Val ℝ)) (horizon sampleEnd : Int) (b : Buffers) :
    Outcome Prepared :=
  if horizon > e.setup.horizon then .throws
  else do
    let _ ← make other { e.setup with horizon := horizon }
    let d ← e.data.setData false data
    let r ← d.update false none b.data
    if d.hasMissing then .throws
    else if r.1 > r.2.1 then .throws
    else do
      let y ← stepY L e r.2.2 b
      let x ← stepX L e r.2.2 data r.2.1 horizon sampleEnd b
      pure ⟨y, x.1, x.2, (e.setup.eqs, e.setup.exo)⟩

/-- The object after `Calculate` has loaded the data: `HasMissingData` is not reset, dataset.cpp:84-117. -/
noncomputable def Ext.after (e : Ext) (data : Mat (Val ℝ)) : Ext :=
  match e.data.setData false data with
  | .ok d => { e with data := d }
  | _ => e

/-- `Calculate`, varma_extended.cpp:94-199. `est` returns the model with its condition number. -/
noncomputable def calculate {M F : Type} (L : Lapack) (other : Int → Int → Outcome Unit) (est : Prepared → Outcome (M × Dbl ℝ)) (fc : M → Prepared → Outcome F)
    (e : Ext) (data : Mat (Val ℝ)) (horizon sampleEnd : Int) (maxCn : ℝ) (b : Buffers) : Outcome (M × Option F) := do
  let p ← prepare L other e data horizon sampleEnd b
  let m ← est p
  if 0 < maxCn ∧ (Dbl.num maxCn).lt m.2 = true then .throws
  else if horizon > 0 then do
    let f ← fc m.1 p
    pure (m.1, some f)
  else pure (m.1, none)

end Vx
end LDT
