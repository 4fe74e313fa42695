import Verif.Model.SurProj
import Verif.Model.SearchOptions
import Verif.Model.ChoiceSim
/-!
# From a table to a system of regressions: `src/ldt_statistics/modeling/linear/sur_extended.cpp`

Real numbers; without principal components (`pcaOptionsY` and `pcaOptionsX` are null). Here are also the numbers of `sur.cpp` that are made of
logarithms and norms, which `Model/Sur.lean` leaves out. A table that still has a missing cell (because `checkNan` is false) is handed to `other`,
which stands for what the code then does. The new regressors have no missing cells.
-/
namespace LDT
namespace Su
open Mx Op
open Co (part)
open Arr (Val)

/-! ## Condition numbers and information criteria of `Sur` -/

/-- `Matrix::Norm('1')`, matrix_la.cpp:541-561, by the contract of `?lange`: the greatest sum of the absolute values of a column. -/
noncomputable def norm1 (a : Mat ℝ) : ℝ :=
  ((upTo 0 a.cols).map fun j => ((upTo 0 a.rows).map fun i => |a.val i j|).sum).foldl max 0

/-- `condition_number` after `estim_un`, sur.cpp:169-176. -/
noncomputable def condUn (lu : List ℝ → List ℝ) (x : Mat ℝ) (work : List ℝ) : Outcome ℝ := do
  let xtx ← x.dotAtA ⟨x.cols, x.cols, some (part work 0 (x.cols * x.cols))⟩ true 1 0
  let c := norm1 xtx
  let (info, inv) ← inv0 lu xtx
  if info ≠ 0 then .throws else pure (c * norm1 inv)

/-- `condition_number` after `estim_r`, sur.cpp:246-258: the norm of `R'[S^-1 o X'X]` (not of `R'[S^-1 o X'X]R`) times that of the inverse. -/
noncomputable def condR (lu : List ℝ → List ℝ) (y x R : Mat ℝ) (work : List ℝ) (e : Est ℝ) : Outcome ℝ :=
  let m := y.cols
  let k := x.cols
  let km := k * m
  let q := R.cols
  let p1 := k * k
  let p2 := p1 + km * km
  do
    let (_, v) ← inv0 lu e.residVar
    let xtx ← x.dotAtA ⟨k, k, some (part work 0 (k * k))⟩ true 1 0
    let vxx ← v.kron xtx ⟨km, km, some (part work p1 (km * km))⟩
    let rvx ← R.trDot vxx ⟨q, km, some (part work p2 (q * km))⟩ 1 0
    let gv ← rvx.dot R { e.gammaVar with rows := q, cols := q } 1 0
    let c := norm1 rvx
    let (info, gv) ← inv0 lu gv
    if info ≠ 0 then .throws else pure (c * norm1 gv)

/-- The condition number in the loop of `estim_search`, sur.cpp:316-348, beside `searchLoop`. -/
noncomputable def searchCond (lu : List ℝ → List ℝ) (f : Fns ℝ) (y x : Mat ℝ) (maxProb : ℝ) (work : List ℝ) (std : Mat ℝ) :
    Nat → Int → Mat ℝ → Est ℝ → Det ℝ → ℝ → Outcome ℝ
  | 0, _, _, _, _, c => .ok c
  | n + 1, cs, R, e, d, c => do
    let sig ← significant d.prob (x.cols * y.cols) maxProb
    if (sig.length : Int) = cs then pure c
    else if sig.length = 0 then .throws
    else do
      let R ← selection R (x.cols * y.cols) sig
      let c ← condR lu y x R work e
      let e ← estimR lu y x R work e
      let d ← probs f y x (some R) work e std d
      searchCond lu f y x maxProb work std n sig.length R e d c

/-- `condition_number` after `Sur::Calculate`, sur.cpp:414-426. -/
noncomputable def condition (lu : List ℝ → List ℝ) (f : Fns ℝ) (o : Opts) (y x : Mat ℝ) (R : Option (Mat ℝ)) (maxProb : ℝ)
    (storage work : List ℝ) : Outcome ℝ :=
  let e := layout y.rows y.cols x.cols storage
  if o.restricted then
    match R with
    | none => .ub
    | some R =>
      if o.maxIter = 0 then do
        let e ← estimUn lu false y x work e
        condR lu y x R work e
      else do
        let c ← condUn lu x work
        let e ← estimUn lu true y x work e
        let std := stdPlace y.rows y.cols x.cols storage
        let d ← probs f y x none work e std (detPlaces y.rows y.cols x.cols storage)
        let R ← R.setValue 0
        searchCond lu f y x maxProb work std o.maxIter.toNat (x.cols * y.cols) R e d c
  else condUn lu x work

/-- `logL`, sur.cpp:70-82, for the determinant `d`; `c_ln_2Pi` is taken to be the logarithm of 2π. -/
noncomputable def logL (N m : ℤ) (d : ℝ) : Dbl ℝ :=
  if d < 0 then .nan
  else if d = 0 then .pinf
  else .num (-(1 / 2) * N * (m * Real.log (2 * Real.pi) + Real.log d) - 1 / 2 * m * N)

/-- `aic`, sur.cpp:91. -/
noncomputable def aic (l : Dbl ℝ) (k : ℤ) : Dbl ℝ := (exact : Ops ℝ).sub (.num (2 * (k : ℝ))) ((exact : Ops ℝ).mul (.num 2) l)

/-- `sic`, sur.cpp:93. -/
noncomputable def sic (l : Dbl ℝ) (N k : ℤ) : Dbl ℝ :=
  (exact : Ops ℝ).sub (.num (Real.log (N : ℝ) * k)) ((exact : Ops ℝ).mul (.num 2) l)

/-- The two types of the model for a `double`. -/
def Ext.dbl : Ext ℝ → Dbl ℝ
  | .nan => .nan
  | .pinf => .pinf
  | .ninf => .ninf
  | .num x => .num x

/-! ## `SurExtended` -/

/-- The arguments of the constructor that are not sizes, sur_extended.cpp:11-15. -/
structure ExtSetup where
  restricted : Bool
  checkNan : Bool
  details : Bool
  maxIter : ℤ
  doVar : Bool

/-- The options of its `Sur`. -/
def ExtSetup.opts (u : ExtSetup) : Opts := Opts.make u.restricted u.details u.maxIter

/-- `SurExtended::StorageSize`, sur_extended.cpp:20-63 (without principal components). -/
def extStorage (u : ExtSetup) (N m k n : ℤ) : ℤ :=
  (if u.checkNan then N * (m + k) else 0) + storageSize u.opts N m k + (if n > 0 then projStorage u.doVar n m else 0)

/-- `SurExtended::WorkSize`, sur_extended.cpp:20-63 (without principal components). -/
def extWork (u : ExtSetup) (N m k n : ℤ) : ℤ :=
  let w := max 0 (workSize u.opts N m k)
  if n > 0 then max w (projWork u.restricted u.doVar m k) else w

/-- The constructor throws if `Dataset` does, sur_extended.cpp:23-26. -/
def extMake (u : ExtSetup) (N m k : ℤ) : Outcome Unit :=
  if u.checkNan then do
    let _ ← Dataset.make N (m + k) true false
    pure ()
  else .ok ()

/-- What `SurExtended::Calculate` leaves. -/
structure ExtRes where
  y : Mat ℝ
  x : Mat ℝ
  res : Res ℝ
  condition : ℝ
  logL : Dbl ℝ
  aic : Dbl ℝ
  sic : Dbl ℝ
  r2 : Dbl ℝ
  proj : Option (Proj ℝ)

/-- sur_extended.cpp:107-114; no checks: null pointer. -/
def fewObs (checks : Option (SOpt.Checks ℝ)) (count k : ℤ) : Prop :=
  match checks with
  | none => False
  | some c => (c.minObs > 0 ∧ c.minObs > count) ∨ (c.minDof > 0 ∧ c.minDof > count - k)

/-- sur_extended.cpp:154-169. -/
def badFit (checks : Option (SOpt.Checks ℝ)) (cn aic sic r2 : Dbl ℝ) : Prop :=
  match checks with
  | none => False
  | some c => (c.checkCNAll = true ∧ c.maxCondition.lt cn = true) ∨ c.maxAic.lt aic = true ∨ c.maxSic.lt sic = true ∨ r2.lt c.minR2 = true

/-- `Projections` of an object that was made for `n0` projections: `mIsRestricted`, `mDoVariance` and the sizes; it stays empty if there are none,
sur_extended.cpp:57-62. -/
def projSetup (u : ExtSetup) (m0 k0 n0 : ℤ) : Bool × Bool × ℤ × ℤ × ℤ :=
  if n0 > 0 then (u.restricted, u.doVar, n0, m0, k0) else (false, false, 0, 0, 0)

/-- The number of rows of the new regressors, sur_extended.cpp:76. -/
def newRows (newX : Option (Mat ℝ)) : ℤ :=
  match newX with
  | some z => z.rows
  | none => 0

/-- The projections, sur_extended.cpp:172-173. -/
noncomputable def extProject (u : ExtSetup) (m0 k0 n0 m : ℤ) (res : Res ℝ) (newX : Option (Mat ℝ)) (storage work : List ℝ) :
    Outcome (Option (Proj ℝ)) :=
  match newX with
  | none => .ok none
  | some z =>
    if z.rows > 0 then do
      let (r, v, a, b, c) := projSetup u m0 k0 n0
      let p ← project r v a b c m res.est res.R z storage work
      pure (some p)
    else .ok none

/-- `R->Restructure0(km0, km0)`, sur_extended.cpp:137-145. -/
def extR (u : ExtSetup) (km : ℤ) (R : Option (Mat ℝ)) : Outcome (Option (Mat ℝ)) :=
  if u.opts.maxIter > 0 then
    match R with
    | none => .throws
    | some R => .ok (some { R with rows := km, cols := km })
  else .ok R

/-- `r2` after `Sur::Calculate`: it is NaN unless the details were asked for, sur.h:76 and sur.cpp:140. -/
def fitR2 (g : Option (Fit ℝ)) : Dbl ℝ :=
  match g with
  | some g => g.r2.dbl
  | none => .nan

/-- Some new regressors have another number of columns than the model, sur_extended.cpp:131-134. -/
def badNew (newX : Option (Mat ℝ)) (k : ℤ) : Prop :=
  match newX with
  | some z => z.rows > 0 ∧ z.cols ≠ k
  | none => False

open Classical in
/-- `SurExtended::Calculate` after the estimation, sur_extended.cpp:154-174, with the results `res` and the condition number `cn`. -/
noncomputable def extAfter (u : ExtSetup) (m0 k0 n0 : ℤ) (y x : Mat ℝ) (newX : Option (Mat ℝ)) (checks : Option (SOpt.Checks ℝ))
    (storage work : List ℝ) (res : Res ℝ) (cn : ℝ) : Outcome ExtRes :=
  let l := logL y.rows y.cols res.detS
  let a := if u.opts.details then aic l (x.cols * y.cols) else .nan
  let b := if u.opts.details then sic l y.rows (x.cols * y.cols) else .nan
  let r2 := fitR2 res.fit
  if badFit checks (.num cn) a b r2 then .throws
  else do
    let pr ← extProject u m0 k0 n0 y.cols res newX storage work
    pure ⟨y, x, res, cn, l, a, b, r2, pr⟩

open Classical in
/-- `SurExtended::Calculate` from the sample on, sur_extended.cpp:104-174. `t` is the table without missing cells, `p` the offset in the storage. -/
noncomputable def extTail (lu : List ℝ → List ℝ) (f : Fns ℝ) (u : ExtSetup) (N0 m0 k0 n0 : ℤ) (t : Mat ℝ) (m k : ℤ) (R : Option (Mat ℝ))
    (maxProb : ℝ) (newX : Option (Mat ℝ)) (checks : Option (SOpt.Checks ℝ)) (p : ℤ) (storage work : List ℝ) : Outcome ExtRes :=
  let N := t.rows
  if fewObs checks N k then .throws
  else
    let y : Mat ℝ := ⟨N, m, some (part t.mem 0 (N * m))⟩
    let x : Mat ℝ := ⟨N, k, some (part t.mem (m * N) (N * k))⟩
    if badNew newX k then .throws
    else do
      let R ← extR u (m * k) R
      let s := storage.drop p.toNat
      let res ← sur lu f u.opts N0 m0 k0 y x R maxProb s work
      let cn ← condition lu f u.opts y x R maxProb s work
      extAfter u m0 k0 n0 y x newX checks (s.drop (storageSize u.opts N0 m0 k0).toNat) work res cn

/-- The rows that are used, sur_extended.cpp:88-105. -/
def extTable (checkNan : Bool) (data : Mat (Val ℝ)) (storage : List ℝ) : Outcome (Mat (Val ℝ)) :=
  if checkNan then do
    let ds ← Dataset.make data.rows data.cols true false
    ds.calculate Option.isNone data none ((part storage 0 (data.rows * data.cols)).map some)
  else .ok data

/-- `SurExtended(N0, m0, k0, ..., n0, ...).Calculate(data, m, storage, work, R, maxProb, newX, checks)`, sur_extended.cpp:66-174. A table larger than
the block that the object was made for would be overwritten by the model: `ub`. -/
noncomputable def extended (lu : List ℝ → List ℝ) (f : Fns ℝ) (u : ExtSetup) (N0 m0 k0 n0 : ℤ) (other : Outcome ExtRes) (data : Mat (Val ℝ))
    (m : ℤ) (R : Option (Mat ℝ)) (maxProb : ℝ) (newX : Option (Mat ℝ)) (checks : Option (SOpt.Checks ℝ)) (storage work : List ℝ) :
    Outcome ExtRes :=
  let N := data.rows
  let k := data.cols - m
  if k < 0 then .throws
  else do
    let n := newRows newX
    let t : ExtSetup := ⟨u.opts.restricted, u.checkNan, u.opts.details, u.opts.maxIter, (projSetup u m0 k0 n0).2.1⟩
    extMake t N m k
    if extWork t N m k n > extWork u N0 m0 k0 n0 ∨ extStorage t N m k n > extStorage u N0 m0 k0 n0 then .throws
    else if u.checkNan = true ∧ N * data.cols > N0 * (m0 + k0) then .ub
    else do
      let tab ← extTable u.checkNan data storage
      match Dc.numbers tab with
      | none => other
      | some t => extTail lu f u N0 m0 k0 n0 t m k R maxProb newX checks (if u.checkNan then N0 * (m0 + k0) else 0) storage work

end Su
end LDT
