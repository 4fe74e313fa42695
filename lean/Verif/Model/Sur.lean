import Verif.Model.Ols
import Verif.Model.SurFit
import Verif.Spec.Ols
import Verif.Model.Array
import Mathlib.Algebra.Order.Field.Basic
/-!
# Systems of regressions: `src/ldt_statistics/modeling/linear/sur.cpp`

Exact numbers of an ordered field. Arrays and their parts are as in `Model/Ols.lean`; the work array is only written before it
is read, so its old contents are passed on unchanged. The condition numbers (`Norm`) are not modelled. `pr` is a null pointer
in every call (it is never set).
-/
namespace LDT
namespace Su
open Mx
open Co (part)
open Ls (dot0 square squareCells)
open Arr (Val)

section
variable {K : Type} [Field K] [DecidableEq K]

/-- `Matrix::Inv0`, matrix.cpp:2347-2356 (with `Inv00`, matrix_la.cpp:563-604): as `Ls.inv00` with its own work array. If there
is no inverse, the memory holds what `?getrf` leaves: `lu` of the old memory. -/
noncomputable def inv0 (lu : List K → List K) (a : Mat K) : Outcome (Int × Mat K) :=
  if a.rows < 1 ∨ (a.mem.length : Int) < a.rows * a.rows then .ub
  else if (square a).det ≠ 0 then
    .ok (0, { a with data := some (squareCells (square a)⁻¹ ++ a.mem.drop (a.rows.toNat * a.rows.toNat)) })
  else .ok (1, { a with data := some (lu a.mem) })

/-- `gamma`, `beta`, `gamma_var`, `yhat`, `resid`, `resid_var`, sur.h:48-71. -/
structure Est (K : Type) where
  gamma : Mat K
  beta : Mat K
  gammaVar : Mat K
  yhat : Mat K
  resid : Mat K
  residVar : Mat K

/-- `x.Dot(beta, yhat); y.Subtract(yhat, resid); resid.Dot_AtA(resid_var); resid_var.Divide_in(N)`, sur.cpp:182-186, 293-297
(twice the same code). -/
def fitted (y x beta : Mat K) (e : Est K) : Outcome (Mat K × Mat K × Mat K) := do
  let yhat ← x.dot beta e.yhat 1 0
  let resid ← y.subM yhat e.resid
  let s ← resid.dotAtA e.residVar true 1 0
  let s ← s.divSIn (y.rows : K)
  pure (yhat, resid, s)

/-- `Sur::estim_un`, sur.cpp:148-204. -/
noncomputable def estimUn (lu : List K → List K) (doVar : Bool) (y x : Mat K) (work : List K) (e : Est K) :
    Outcome (Est K) :=
  let m := y.cols
  let k := x.cols
  do
    let xtx ← x.dotAtA ⟨k, k, some (part work 0 (k * k))⟩ true 1 0
    let (info, xtx) ← inv0 lu xtx
    if info ≠ 0 then .throws
    else do
      let xty ← x.trDot y ⟨k, m, some (part work (k * k) (k * m))⟩ 1 0
      let beta ← xtx.dot xty e.beta 1 0
      let gamma ← beta.copyTo00 e.gamma
      let (yhat, resid, s) ← fitted y x beta e
      if doVar then do
        let gv ← s.kron xtx e.gammaVar
        pure ⟨gamma, beta, gv, yhat, resid, s⟩
      else pure ⟨gamma, beta, e.gammaVar, yhat, resid, s⟩

/-- `Sur::estim_r`, sur.cpp:206-300. The result of `resid_var.Inv0()` is not looked at (:246). -/
noncomputable def estimR (lu : List K → List K) (y x R : Mat K) (work : List K) (e : Est K) : Outcome (Est K) :=
  let N := y.rows
  let m := y.cols
  let k := x.cols
  let km := k * m
  let Nm := N * m
  let q := R.cols
  let p1 := k * k
  let p2 := p1 + km * km
  let p3 := p2 + q * km
  let p4 := p3 + Nm * km
  let p5 := p4 + Nm * q
  do
    let (_, v) ← inv0 lu e.residVar
    let xtx ← x.dotAtA ⟨k, k, some (part work 0 (k * k))⟩ true 1 0
    let vxx ← v.kron xtx ⟨km, km, some (part work p1 (km * km))⟩
    let rvx ← R.trDot vxx ⟨q, km, some (part work p2 (q * km))⟩ 1 0
    let gv ← rvx.dot R { e.gammaVar with rows := q, cols := q } 1 0
    let (info, gv) ← inv0 lu gv
    if info ≠ 0 then .throws
    else do
      let vx ← v.kron x ⟨Nm, km, some (part work p3 (Nm * km))⟩
      let vxR ← vx.dot R ⟨Nm, q, some (part work p4 (Nm * q))⟩ 1 0
      let z ← vxR.trDot { y with rows := Nm, cols := 1 } ⟨q, 1, some (part work p5 (q * 1))⟩ 1 0
      let gamma ← gv.dot z { e.gamma with rows := q, cols := 1 } 1 0
      let beta ← dot0 R gamma e.beta
      let (yhat, resid, s) ← fitted y x beta { e with residVar := v }
      pure ⟨gamma, beta, gv, yhat, resid, s⟩

end

/-- A `t` statistic: a number, `+-inf` or NaN. -/
inductive Tst (K : Type) where
  | nan
  | inf
  | num (t : K)
  deriving DecidableEq

/-- `e_beta_std`, `e_beta_t`, `e_beta_prob`, sur.h:100-110. -/
structure Det (K : Type) where
  std : Mat (Val K)
  t : Mat (Tst K)
  prob : Mat (Val K)

section
variable {K : Type} [Field K] [LinearOrder K]

/-- `x / y`, sur.cpp:127 (`±inf` are not distinguished: only the absolute value is used). -/
def quotient (b : K) : Val K → Tst K
  | none => .nan
  | some s => if s = 0 then (if b = 0 then .nan else .inf) else .num (b / s)

/-- The functions of the library: the square root (NaN for negative numbers), and the `p`-value
`2 * (1 - cdf(|t|))` of Student's distribution with `N` degrees of freedom, also at infinity, sur.cpp:131-134; the distribution
function of the `F` distribution, sur.cpp:65. -/
structure Fns (K : Type) where
  sqrt : K → Val K
  pnum : Int → K → K
  pinf : Int → K
  fcdf : Int → Int → Ext K → K

/-- The `p`-value, sur.cpp:132-134. -/
def pvalue (f : Fns K) (N : Int) : Tst K → Val K
  | .nan => none
  | .inf => some (f.pinf N)
  | .num t => some (f.pnum N t)

/-- The variances of the coefficients, sur.cpp:109-123: the diagonal of `R gamma_var R'`, or of `gamma_var`. -/
def variances (y x : Mat K) (R : Option (Mat K)) (work : List K) (e : Est K) (std : Mat K) : Outcome (Mat K) :=
  let km := x.cols * y.cols
  match R with
  | some R => do
    let q := e.gamma.length
    let rg ← R.dot e.gammaVar ⟨km, q, some (part work 0 (km * q))⟩ 1 0
    let rgr ← rg.dotTr R ⟨km, km, some (part work (km * q) (km * km))⟩ 1 0
    rgr.getDiag std
  | none => e.gammaVar.getDiag std

/-- `Sur::calculate_details`, sur.cpp:104-138 (`just_probs`: the goodness of fit, :140-142, is in `Model/SurFit.lean`). `R` is `none` if the
model is unrestricted or `force_unrestricted`. `d` are the three places in the storage. -/
def probs (f : Fns K) (y x : Mat K) (R : Option (Mat K)) (work : List K) (e : Est K) (std : Mat K) (d : Det K) :
    Outcome (Det K) := do
  let v ← variances y x R work e std
  let s ← cellLoop v.length (fun i => do
    let a ← read v.mem i
    pure (f.sqrt a)) d.std
  let t ← cellLoop e.beta.length (fun i => do
    let b ← read e.beta.mem i
    let s ← read s.mem i
    pure (quotient b s)) d.t
  let p ← cellLoop t.length (fun i => do
    let a ← read t.mem i
    pure (pvalue f y.rows a)) d.prob
  pure ⟨s, t, p⟩

/-- `get significant indexes`, sur.cpp:320-328. -/
def significant (prob : Mat (Val K)) (km : Int) (maxProb : K) : Outcome (List Int) :=
  (upTo 0 km).foldlM (fun l j => do
    let p ← read prob.mem j
    match p with
    | none => pure l
    | some p => if p ≤ maxProb then pure (l ++ [j]) else pure l) []

/-- Row `sig[j]` gets a one in column `j`, sur.cpp:337-343. -/
def selection (R : Mat K) (km : Int) (sig : List Int) : Outcome (Mat K) := do
  let r ← ({ R with rows := km, cols := (sig.length : Int) } : Mat K).setValue 0
  (countFrom 0 sig).foldlM (fun (r : Mat K) ji => r.set0 ji.2 ji.1 1) r

/-- The loop of `Sur::estim_search`, sur.cpp:316-348; `n` rounds are left. The numbers of the last round (`mSigSearchIter`) are
returned, too. -/
noncomputable def searchLoop (lu : List K → List K) (f : Fns K) (y x : Mat K) (maxProb : K) (work : List K) (std : Mat K) :
    Nat → Int → Int → Mat K → Est K → Det K → Outcome (Int × Mat K × Est K × Det K)
  | 0, iter, _, R, e, d => .ok (iter, R, e, d)
  | n + 1, iter, cs, R, e, d => do
    let sig ← significant d.prob (x.cols * y.cols) maxProb
    if (sig.length : Int) = cs then pure (iter, R, e, d)
    else if sig.length = 0 then .throws
    else do
      let R ← selection R (x.cols * y.cols) sig
      let e ← estimR lu y x R work e
      let d ← probs f y x (some R) work e std d
      searchLoop lu f y x maxProb work std n (iter + 1) sig.length R e d

/-- `Sur::estim_search`, sur.cpp:302-349. -/
noncomputable def estimSearch (lu : List K → List K) (f : Fns K) (y x : Mat K) (maxIter : Int) (maxProb : K) (R : Mat K)
    (work : List K) (e : Est K) (std : Mat K) (d : Det K) : Outcome (Int × Mat K × Est K × Det K) := do
  let e ← estimUn lu true y x work e
  let d ← probs f y x none work e std d
  let R ← R.setValue 0
  searchLoop lu f y x maxProb work std maxIter.toNat 0 (x.cols * y.cols) R e d

/-- The options after the constructor, sur.cpp:20-22. -/
structure Opts where
  restricted : Bool
  details : Bool
  maxIter : Int

/-- sur.cpp:14-22: a search switches restrictions and details on. -/
def Opts.make (restricted details : Bool) (maxIter : Int) : Opts :=
  if maxIter ≠ 0 then ⟨true, true, maxIter⟩ else ⟨restricted, details, maxIter⟩

/-- `Sur::StorageSize`, sur.cpp:25-36. -/
def storageSize (o : Opts) (N m k : Int) : Int :=
  2 * (k * m) + (k * m) * (k * m) + 2 * N * m + m * m + (if o.details then 3 * (k * m) else 0)

/-- `Sur::WorkSize`, sur.cpp:25-37. -/
def workSize (o : Opts) (N m k : Int) : Int :=
  let w := if o.restricted then k * k + 2 * (k * m) * (k * m) + 3 * N * m * (k * m) + N * m + k * m
    else max (k * k + k * m) (m * m)
  if o.details then max w (2 * (k * m) * (k * m)) else w

/-- The first matrices in the storage, sur.cpp:392-404. -/
def layout (N m k : Int) (storage : List K) : Est K :=
  let km := k * m
  ⟨⟨km, 1, some (part storage 0 (km * 1))⟩, ⟨k, m, some (part storage km (k * m))⟩,
    ⟨km, km, some (part storage (km + km) (km * km))⟩, ⟨N, m, some (part storage (km + km + km * km) (N * m))⟩,
    ⟨N, m, some (part storage (km + km + km * km + N * m) (N * m))⟩,
    ⟨m, m, some (part storage (km + km + km * km + N * m + N * m) (m * m))⟩⟩

/-- Where the details begin. -/
def detStart (N m k : Int) : Int := k * m + k * m + (k * m) * (k * m) + N * m + N * m + m * m

/-- `e_beta_std` as the place for the variances, sur.cpp:406. -/
def stdPlace (N m k : Int) (storage : List K) : Mat K := ⟨k, m, some (part storage (detStart N m k) (k * m))⟩

/-- The places for the details, sur.cpp:405-412. -/
def detPlaces (N m k : Int) (storage : List K) : Det K :=
  ⟨⟨k, m, some ((part storage (detStart N m k) (k * m)).map some)⟩,
    ⟨k, m, some ((part storage (detStart N m k + k * m) (k * m)).map fun _ => .nan)⟩,
    ⟨k, m, some ((part storage (detStart N m k + k * m + k * m) (k * m)).map some)⟩⟩

/-- What `Calculate` leaves in the object. -/
structure Res (K : Type) where
  est : Est K
  R : Option (Mat K)
  iter : Int
  detS : K
  details : Option (Det K)
  fit : Option (Fit K)

end

section
variable {K : Type} [Field K] [LinearOrder K]

open Classical in
/-- `Matrix::Det_pd0`, matrix.cpp:2314-2334, by the contract of `?potrf2` in exact arithmetic for a symmetric matrix: the
Cholesky factors exist if the matrix is positive definite, and the squared product of their diagonal is the determinant; `none`
is NaN. -/
noncomputable def detPd0 (a : Mat K) : Outcome (Val K) :=
  if a.cols = 1 then do
    let v ← a.get0 0 0
    pure (some v)
  else if a.rows < 1 ∨ (a.mem.length : Int) < a.rows * a.rows then .ub
  else .ok (if Ls.PosDef (square a) then some (square a).det else none)

/-- NaN is refused, sur.cpp:77-79. -/
def checked : Val K → Outcome K
  | none => .throws
  | some d => .ok d

/-- `logL` up to the logarithm, sur.cpp:70-82, 428-431: the determinant of the residual variance, twice copied. -/
noncomputable def logLDet (s : Mat K) (m : Int) (work : List K) : Outcome K := do
  let c ← s.copyTo00 ⟨m, m, some (part work 0 (m * m))⟩
  let w ← c.copyTo00 ⟨m, m, some (List.replicate (m * m).toNat 0)⟩
  let d ← detPd0 w
  checked d

/-- The estimation according to the options, sur.cpp:414-426. A missing `R` is a null pointer. -/
noncomputable def estimate (lu : List K → List K) (f : Fns K) (o : Opts) (y x : Mat K) (R : Option (Mat K)) (maxProb : K)
    (storage work : List K) : Outcome (Int × Option (Mat K) × Est K) :=
  let e := layout y.rows y.cols x.cols storage
  if o.restricted then
    match R with
    | none => if o.maxIter = 0 then do
        let _ ← estimUn lu false y x work e
        .ub
      else .ub
    | some R =>
      if o.maxIter = 0 then do
        let e ← estimUn lu false y x work e
        let e ← estimR lu y x R work e
        pure (0, some R, e)
      else do
        let r ← estimSearch lu f y x o.maxIter maxProb R work e (stdPlace y.rows y.cols x.cols storage)
          (detPlaces y.rows y.cols x.cols storage)
        pure (r.1, some r.2.1, r.2.2.1)
  else do
    let e ← estimUn lu true y x work e
    pure (0, R, e)

/-- The checks on `R`, sur.cpp:371-377. -/
def badR (o : Opts) (km : Int) (R : Option (Mat K)) : Bool :=
  match R with
  | none => o.maxIter ≠ 0
  | some R => (o.maxIter ≠ 0 && (R.rows ≠ km || R.cols ≠ km)) || (R.rows ≠ km || R.cols > km)

/-- `Sur(N0, m0, k0, ...).Calculate(y, x, storage, work, R, maxProb)`, sur.cpp:351-437. -/
noncomputable def sur (lu : List K → List K) (f : Fns K) (o : Opts) (N0 m0 k0 : Int) (y x : Mat K) (R : Option (Mat K))
    (maxProb : K) (storage work : List K) : Outcome (Res K) :=
  let N := y.rows
  let m := y.cols
  let k := x.cols
  if N < 1 ∨ m < 1 ∨ k < 1 then .throws
  else if workSize o N m k > workSize o N0 m0 k0 ∨ storageSize o N m k > storageSize o N0 m0 k0 then .throws
  else if badR o (k * m) R then .throws
  else if o.maxIter ≠ 0 ∧ maxProb = 0 then .throws
  else do
    let (iter, R, e) ← estimate lu f o y x R maxProb storage work
    let d ← logLDet e.residVar m work
    if o.details then do
      let det ← probs f y x (if o.restricted then R else none) work e (stdPlace N m k storage) (detPlaces N m k storage)
      let g ← goodness f.fcdf y e.resid (k * m)
      pure ⟨e, R, iter, d, some det, some g⟩
    else pure ⟨e, R, iter, d, none, none⟩

end
end Su
end LDT
