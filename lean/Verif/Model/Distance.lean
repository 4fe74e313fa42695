import Verif.Model.Cluster
/-!
# Distances between columns: `src/ldt_statistics/clustering/distance.cpp`, without the methods based on correlations
-/
namespace LDT
namespace Ds
open Mx
open Arr (Val)

/-- A double that may be NaN or minus infinity. -/
inductive Fl (K : Type) where
  | num (x : K)
  | nan
  | ninf
  deriving DecidableEq, Repr

/-- A cell without the value minus infinity. -/
def Fl.ofVal {K : Type} : Val K → Fl K
  | some x => .num x
  | none => .nan

/-- The first three values of `DistanceMethod`, clustering.h:14-23. -/
inductive Metric where
  | euclidean | manhattan | maximum
  deriving DecidableEq, Repr

section
variable {K : Type} [Field K] [LinearOrder K]

/-- The loop body of the Euclidean (`f` the square) and the Manhattan distance (`f` the absolute value),
distance.cpp:184-189 and 195-200. -/
def sumStep (f : K → K) (checkNan : Bool) (s : Val K) (_ : Int) (a b : Val K) : Val K :=
  if checkNan && (vsub a b).isNone then s else vadd s ((vsub a b).map f)

/-- `if (max < d) max = d`, distance.cpp:211-212: false for NaN. -/
def maxWith (s : Fl K) (d : Val K) : Fl K :=
  match d, s with
  | none, s => s
  | some d, .num b => if b < d then .num d else .num b
  | some d, .ninf => .num d
  | some _, .nan => .nan

/-- The loop body of the maximum distance, distance.cpp:206-212. -/
def maxStep (checkNan : Bool) (s : Fl K) (_ : Int) (a b : Val K) : Fl K :=
  if checkNan && (vsub a b).isNone then s else maxWith s ((vsub a b).map (fun x => |x|))

/-- The distance of the columns `i` and `j`, distance.cpp:178-214. `vsqrt` is `std::sqrt`. -/
def pairDist (vsqrt : Val K → Val K) (checkNan : Bool) (metric : Metric) (m : Mat (Val K)) (i j : Int) : Outcome (Fl K) :=
  match metric with
  | .euclidean => do
    let s ← scanPairs m.mem (m.rows * i) (m.rows * j) m.rows (sumStep (fun x => x ^ 2) checkNan) (some 0)
    pure (Fl.ofVal (vsqrt s))
  | .manhattan => do
    let s ← scanPairs m.mem (m.rows * i) (m.rows * j) m.rows (sumStep (fun x => |x|) checkNan) (some 0)
    pure (Fl.ofVal s)
  | .maximum => scanPairs m.mem (m.rows * i) (m.rows * j) m.rows (maxStep checkNan) .ninf

/-- The body of the double loop over the columns, distance.cpp:177-216 (and 162-170). -/
def setPair {α : Type} (pd : Nat → Nat → Outcome α) (i : Nat) (d : SymMat α) (j : Nat) : Outcome (SymMat α) :=
  if i < j then do
    let v ← pd i j
    Cl.symSet0 d i j v
  else .ok d

/-- `for (i…) for (j…) if (i < j) Result.Set0(i, j, …)`, distance.cpp:175-218 (and 160-172). -/
def setPairs {α : Type} (pd : Nat → Nat → Outcome α) (n : Nat) (d : SymMat α) : Outcome (SymMat α) :=
  (List.range n).foldlM (fun d i => (List.range n).foldlM (setPair pd i) d) d

/-- `Distance::StorageSize`, distance.cpp:133. -/
def storageSize (cols : Int) : Int := (cols * (cols - 1)).tdiv 2

/-- `Distance::Calculate(data, storage, work)`, distance.cpp:143-220, of an object made for `maxCols` columns (distance.cpp:
129-141). `Result` keeps `maxCols` rows: `SetData(storage)` does not change them. -/
def distances (vsqrt : Val K → Val K) (checkNan : Bool) (metric : Metric) (maxCols : Nat) (m : Mat (Val K))
    (storage : List (Fl K)) : Outcome (SymMat (Fl K)) :=
  if storageSize m.cols > storageSize maxCols then .throws
  else setPairs (fun i j => pairDist vsqrt checkNan metric m i j) m.cols.toNat { rows := maxCols, data := storage }

end
end Ds
end LDT
