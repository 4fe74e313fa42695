import Verif.Model.Sur
import Verif.Model.MatrixVec
/-!
# Projections of a system of regressions: `src/ldt_statistics/modeling/linear/sur_projection.cpp`

Arrays and their parts are as in `Model/Ols.lean`.
-/
namespace LDT
namespace Su
open Mx
open Co (part)

/-- `SurProjection::StorageSize`, sur_projection.cpp:16. -/
def projStorage (doVar : Bool) (n m : Int) : Int := m * n + (if doVar then m * m + m * n else 0)

/-- `SurProjection::WorkSize`, sur_projection.cpp:15, 17. -/
def projWork (restricted doVar : Bool) (m k : Int) : Int :=
  m + k + (if doVar then (if restricted then 3 else 2) * m * (k * m) else 0)

section
variable {K : Type} [Field K] [DecidableEq K]

/-- The matrices used in the loop, sur_projection.cpp:34-62: the results and the places in the work array. -/
structure Proj (K : Type) where
  means : Mat K
  variances : Mat K
  covariance : Mat K
  t : Mat K
  row : Mat K
  iox : Mat K
  rg : Mat K
  ri : Mat K

/-- A matrix that was never given data. -/
def noMat : Mat K := ⟨0, 0, none⟩

/-- sur_projection.cpp:34-62; `q` is `qStar`. -/
def projLayout (restricted doVar : Bool) (n m k q : Int) (storage work : List K) : Proj K :=
  let km := k * m
  let nm := n * m
  let p := m + k
  { means := ⟨n, m, some (part storage 0 (n * m))⟩
    variances := if doVar then ⟨n, m, some (part storage nm (n * m))⟩ else noMat
    covariance := if doVar then ⟨m, m, some (part storage (2 * nm) (m * m))⟩ else noMat
    t := ⟨m, 1, some (part work 0 (m * 1))⟩
    row := ⟨k, 1, some (part work m (k * 1))⟩
    iox := if doVar then ⟨km, m, some (part work p (km * m))⟩ else noMat
    rg := if doVar then ⟨m, q, some (part work (p + m * km) (m * q))⟩ else noMat
    ri := if doVar && restricted then ⟨q, m, some (part work (p + m * km + m * q) (q * m))⟩ else noMat }

/-- `Covariance` for the current row, sur_projection.cpp:69-87. -/
def projCov (m : Int) (e : Est K) (R : Option (Mat K)) (s : Proj K) : Outcome (Proj K) := do
  let iox ← s.row.idenKron m s.iox
  match R with
  | some R => do
    let ri ← R.trDot iox s.ri 1 0
    let rg ← ri.trDot e.gammaVar s.rg 1 0
    let c ← rg.dot ri s.covariance 1 0
    let c ← c.addMIn e.residVar
    pure { s with iox := iox, ri := ri, rg := rg, covariance := c }
  | none => do
    let rg ← iox.trDot e.gammaVar s.rg 1 0
    let c ← rg.dot iox s.covariance 1 0
    let c ← c.addMIn e.residVar
    pure { s with iox := iox, rg := rg, covariance := c }

/-- One row, sur_projection.cpp:63-90. -/
def projRow (doVar : Bool) (m : Int) (e : Est K) (R : Option (Mat K)) (x : Mat K) (s : Proj K) (i : Int) : Outcome (Proj K) := do
  let row ← x.getRow0 i s.row
  let t ← e.beta.tDotVector row s.t 1 0
  let means ← s.means.setRow0 i t
  let s := { s with row := row, t := t, means := means }
  if doVar then do
    let s ← projCov m e R s
    let v ← s.variances.setRowFromDiag0 i s.covariance
    pure { s with variances := v }
  else pure s

/-- `SurProjection(n0, m0, k0, restricted, doVar).Calculate(model, x, storage, work)`, sur_projection.cpp:11-91, for a model with `m`
dependent variables, the estimates `e` and the matrix `R` (`none`: null pointer). -/
def project (restricted doVar : Bool) (n0 m0 k0 m : Int) (e : Est K) (R : Option (Mat K)) (x : Mat K) (storage work : List K) :
    Outcome (Proj K) :=
  let n := x.rows
  let k := x.cols
  if projWork restricted doVar m k > projWork restricted doVar m0 k0 ∨ projStorage doVar n m > projStorage doVar n0 m0 then .throws
  else if restricted then
    match R with
    | none => .ub
    | some R => (upTo 0 n).foldlM (projRow doVar m e (some R) x) (projLayout restricted doVar n m k R.cols storage work)
  else (upTo 0 n).foldlM (projRow doVar m e none x) (projLayout restricted doVar n m k (k * m) storage work)

end
end Su
end LDT
