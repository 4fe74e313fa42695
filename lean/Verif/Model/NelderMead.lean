import Verif.Model.Matrix
import Mathlib.Order.Lattice
/-!
# The Nelder-Mead search: `src/ldt_math/optimization/nelder_mead.cpp`

Numbers are `double`s: `NaN`, the infinities and the finite values, which are the elements of a linear order `K` (`-0` and `0` are the
same element). They are compared the way IEEE does. Arithmetic is a parameter (`Ops`): nothing is assumed about it, so what is
proved for every `Ops` holds for rounded arithmetic. The objective is a function of the point (it keeps no state) that may throw.
-/
namespace LDT
namespace Op
open Mx

/-- A `double`. -/
inductive Dbl (K : Type) where
  | nan
  | pinf
  | ninf
  | num (x : K)
  deriving DecidableEq, Repr

/-- `a < b`: false if one of them is `NaN`. -/
def Dbl.lt {K : Type} [LinearOrder K] : Dbl K → Dbl K → Bool
  | .num a, .num b => decide (a < b)
  | .num _, .pinf => true
  | .ninf, .num _ => true
  | .ninf, .pinf => true
  | _, _ => false

/-- `a <= b`: false if one of them is `NaN`. -/
def Dbl.le {K : Type} [LinearOrder K] : Dbl K → Dbl K → Bool
  | .num a, .num b => decide (a ≤ b)
  | .num _, .pinf => true
  | .ninf, .num _ => true
  | .ninf, .pinf => true
  | .ninf, .ninf => true
  | .pinf, .pinf => true
  | _, _ => false

/-- The arithmetic of the machine. `sq` is `std::pow(x, 2)`. -/
structure Ops (K : Type) where
  add : Dbl K → Dbl K → Dbl K
  sub : Dbl K → Dbl K → Dbl K
  mul : Dbl K → Dbl K → Dbl K
  div : Dbl K → Dbl K → Dbl K
  abs : Dbl K → Dbl K
  sq : Dbl K → Dbl K
  ofInt : Int → Dbl K

section
variable {K : Type} [LinearOrder K]

/-- Loop of `MinIndex<false>`/`MaxIndex<false>`, include/array.h:458-470,506-518, from index `i`; the state is (extreme, index). -/
def extremeLoop (better : Dbl K → Dbl K → Bool) : Nat → List (Dbl K) → Dbl K × Int → Dbl K × Int
  | _, [], s => s
  | i, x :: r, s => if better x s.1 then extremeLoop better (i + 1) r (x, i) else extremeLoop better (i + 1) r s

/-- The index found by `MinIndex<false>`, include/array.h:449-472. -/
def minIndex (d : List (Dbl K)) : Int :=
  if d.length = 0 then -1 else (extremeLoop (fun x m => x.lt m) 0 d (.pinf, -1)).2

/-- The index found by `MaxIndex<false>`, include/array.h:496-520. -/
def maxIndex (d : List (Dbl K)) : Int :=
  if d.length = 0 then -1 else (extremeLoop (fun x m => m.lt x) 0 d (.ninf, -1)).2

/-- Body of the loops of `PenaltyFunction` at coordinate `i`, nelder_mead.cpp:15-18,22-23,27-28. -/
def penaltyAt (o : Ops K) (x : List (Dbl K)) (lower upper : Option (List (Dbl K))) (penalty : Dbl K) (i : Int) :
    Outcome (Dbl K) :=
  match lower, upper with
  | some lo, some up => do
    let v ← read x i
    let l ← read lo i
    if v.lt l then pure (o.add penalty (o.sq (o.sub l v)))
    else do
      let u ← read up i
      if u.lt v then pure (o.add penalty (o.sq (o.sub v u))) else pure penalty
  | some lo, none => do
    let v ← read x i
    let l ← read lo i
    if v.lt l then pure (o.add penalty (o.sq (o.sub l v))) else pure penalty
  | none, some up => do
    let v ← read x i
    let u ← read up i
    if u.lt v then pure (o.add penalty (o.sq (o.sub v u))) else pure penalty
  | none, none => pure penalty

/-- `PenaltyFunction`, nelder_mead.cpp:10-33 (without bounds the C++ skips the loop; here it runs and does nothing). -/
def penalty (o : Ops K) (x : List (Dbl K)) (lower upper : Option (List (Dbl K))) : Outcome (Dbl K) :=
  (upTo 0 x.length).foldlM (penaltyAt o x lower upper) (o.ofInt 0)

/-- The lambda `f`, nelder_mead.cpp:58-65: `none` is an objective that throws. -/
def goal (o : Ops K) (objective : List (Dbl K) → Option (Dbl K)) (mult : Dbl K) (lower upper : Option (List (Dbl K)))
    (x : List (Dbl K)) : Outcome (Dbl K) :=
  match objective x with
  | none => .ok .pinf
  | some v => do
    let p ← penalty o x lower upper
    pure (o.add v (o.mul mult p))

/-- Body of the loop over the starting values, nelder_mead.cpp:42-55; the starting point is overwritten in place. -/
def clampAt (lower upper : Option (List (Dbl K))) (start : List (Dbl K)) (i : Int) : Outcome (List (Dbl K)) := do
  let s ← read start i
  if s = .nan then .throws
  else do
    let l ← match lower with | some lo => (read lo i).bind fun v => .ok (some v) | none => .ok none
    let u ← match upper with | some up => (read up i).bind fun v => .ok (some v) | none => .ok none
    if (match l, u with | some l, some u => u.lt l | _, _ => false) then .throws
    else do
      let s1 := match l with | some l => if s.lt l then l else s | none => s
      let s2 := match u with | some u => if u.lt s1 then u else s1 | none => s1
      write start i s2

/-- The parameters of the class, optimization.h:247-272. -/
structure Params (K : Type) where
  reflection : Dbl K
  expansion : Dbl K
  contraction : Dbl K
  shrink : Dbl K
  tolerance : Dbl K
  maxIteration : Int

/-- The simplex with the values of its vertices, and the public members `Iter` and `Diff`. The C++ keeps the points and the values in
two arrays of the same length. -/
structure State (K : Type) where
  verts : List (List (Dbl K) × Dbl K)
  iter : Int
  diff : Dbl K

/-- `p.Data[i] = a.Data[i] + c * (b.Data[i] - a.Data[i])`-like loops over the coordinates, nelder_mead.cpp:111-114,124-127,165-169,
183-186: the point `a + c (b - d)`. -/
def along (o : Ops K) (a : List (Dbl K)) (c : Dbl K) (b d : List (Dbl K)) : List (Dbl K) :=
  List.zipWith (fun a e => o.add a (o.mul c e)) a (List.zipWith o.sub b d)

/-- The average of the vertices other than the worst, nelder_mead.cpp:99-108. -/
def centroid (o : Ops K) (n : Nat) (verts : List (List (Dbl K) × Dbl K)) (worst : Int) : List (Dbl K) :=
  (verts.zipIdx.foldl (fun (c : List (Dbl K)) p => if (p.2 : Int) = worst then c else List.zipWith o.add c p.1.1)
    (List.replicate n (o.ofInt 0))).map fun c => o.div c (o.ofInt n)

/-- Body of the shrink loop for one vertex, nelder_mead.cpp:181-187. -/
def shrinkAt (o : Ops K) (P : Params K) (f : List (Dbl K) → Outcome (Dbl K)) (best : Int) (xb : List (Dbl K))
    (p : (List (Dbl K) × Dbl K) × Nat) : Outcome (List (Dbl K) × Dbl K) :=
  if (p.2 : Int) = best then pure p.1
  else do
    let x := along o xb P.shrink p.1.1 xb
    let v ← f x
    pure (x, v)

/-- The moves of one iteration once the worst (`w`) and the best (`b`) vertices are known, nelder_mead.cpp:98-190. -/
def moves (o : Ops K) (P : Params K) (f : List (Dbl K) → Outcome (Dbl K)) (n : Nat) (verts : List (List (Dbl K) × Dbl K))
    (w b : Int) (pw pb : List (Dbl K) × Dbl K) : Outcome (List (List (Dbl K) × Dbl K)) := do
  let c := centroid o n verts w
  let r := along o c P.reflection c pw.1
  let vr ← f r
  if vr.lt pb.2 then do
    let e := along o c P.expansion r c
    let ve ← f e
    if ve.lt vr then write verts w (e, ve) else write verts w (r, vr)
  else if verts.zipIdx.any (fun p => decide ((p.2 : Int) ≠ w) && vr.lt p.1.2) then write verts w (r, vr)
  else do
    let k := along o c P.contraction pw.1 c
    let vk ← f k
    if vk.lt pw.2 then write verts w (k, vk)
    else verts.zipIdx.mapM (shrinkAt o P f b pb.1)

/-- The loop `while (Iter < MaxIteration)`, nelder_mead.cpp:90-192, with `fuel` iterations left. -/
def loop (o : Ops K) (P : Params K) (f : List (Dbl K) → Outcome (Dbl K)) (n : Nat) : Nat → State K → Outcome (State K)
  | 0, s => pure s
  | fuel + 1, s => do
    let w := maxIndex (s.verts.map Prod.snd)
    let b := minIndex (s.verts.map Prod.snd)
    let pw ← read s.verts w
    let pb ← read s.verts b
    let diff := o.abs (o.sub pw.2 pb.2)
    if diff.lt P.tolerance then pure ⟨s.verts, s.iter, diff⟩
    else do
      let verts ← moves o P f n s.verts w b pw pb
      loop o P f n fuel ⟨verts, s.iter + 1, diff⟩

/-- `NelderMead::NelderMead`, nelder_mead.cpp:5-8: (`WorkSize`, `StorageSize`). -/
def sizes (n : Int) : Int × Int := ((n + 1) * (n + 1) * 4 * n, n)

/-- What `Minimize` leaves behind: the starting point (overwritten), `Result`, `Min`, `Iter`, `Diff`. -/
structure Found (K : Type) where
  start : List (Dbl K)
  result : List (Dbl K)
  min : Dbl K
  iter : Int
  diff : Dbl K

/-- `simplex[i]` and its value, nelder_mead.cpp:76-81. -/
def vertexAt (o : Ops K) (f : List (Dbl K) → Outcome (Dbl K)) (start : List (Dbl K)) (i : Nat) :
    Outcome (List (Dbl K) × Dbl K) := do
  let x := if i = 0 then start else start.modify (i - 1) fun v => o.add v (o.ofInt 1)
  let v ← f x
  pure (x, v)

/-- `NelderMead::Minimize`, nelder_mead.cpp:35-213, with `work` and `storage` arrays of the given sizes; `diff0` is the value of `Diff`
before the call. -/
def minimize (o : Ops K) (P : Params K) (objective : List (Dbl K) → Option (Dbl K)) (start : List (Dbl K))
    (work storage : Int) (lower upper : Option (List (Dbl K))) (mult diff0 : Dbl K) : Outcome (Found K) := do
  let n := start.length
  let start ← (upTo 0 n).foldlM (clampAt lower upper) start
  if work < n * (n + 1) + (n + 1) + 4 * n ∨ storage < n then .ub
  else do
    let f := goal o objective mult lower upper
    let verts ← (List.range (n + 1)).mapM (vertexAt o f start)
    let s ← loop o P f n P.maxIteration.toNat ⟨verts, 0, diff0⟩
    let p ← read s.verts (minIndex (s.verts.map Prod.snd))
    let v ← f p.1
    pure ⟨start, p.1, v, s.iter, s.diff⟩

/-! ## One variable -/

/-- The lambda `f`, nelder_mead.cpp:222-253; `1e5` is `big`. -/
def goal1 (o : Ops K) (big : Dbl K) (objective : Dbl K → Dbl K) (xmin xmax x : Dbl K) : Dbl K :=
  if xmin = .nan ∧ xmax = .nan then objective x
  else if xmin = .nan then o.add (objective x) (if xmax.lt x then o.mul big (o.sq x) else o.ofInt 0)
  else if xmax = .nan then o.add (objective x) (if x.lt xmin then o.mul big (o.sq x) else o.ofInt 0)
  else o.add (objective x) (if xmax.lt x || x.lt xmin then o.mul big (o.sq x) else o.ofInt 0)

/-- The changes of `x0` before the search, nelder_mead.cpp:224-246 (a comparison with `NaN` is false). -/
def start1 (xmin xmax x0 : Dbl K) : Dbl K :=
  let x0 := if x0.lt xmin then xmin else x0
  if xmax.lt x0 then xmax else x0

/-- The loop, nelder_mead.cpp:262-282, with `fuel` iterations left; returns (`x0`, `iter`). -/
def loop1 (o : Ops K) (f : Dbl K → Dbl K) (tol : Dbl K) :
    Nat → Dbl K → Dbl K → Dbl K → Dbl K → Int → Dbl K × Int
  | 0, x0, _, _, _, iter => (x0, iter)
  | fuel + 1, x0, x1, x2, step, iter =>
    let f1 := f x1
    let f2 := f x2
    let f0 := f x0
    if f1.le f2 && f1.le f0 then loop1 o f tol fuel x1 (o.add x1 step) (o.sub x1 step) step (iter + 1)
    else if f2.le f1 && f2.le f0 then loop1 o f tol fuel x2 (o.add x2 step) (o.sub x2 step) step (iter + 1)
    else if (o.abs (o.sub x0 x1)).lt tol && (o.abs (o.sub x0 x2)).lt tol then (x0, iter + 1)
    else
      let step := o.div step (o.ofInt 2)
      loop1 o f tol fuel x0 (o.add x0 step) (o.sub x0 step) step (iter + 1)

/-- `NelderMead::Minimize1`, nelder_mead.cpp:215-284. -/
def minimize1 (o : Ops K) (big : Dbl K) (objective : Dbl K → Dbl K) (x0 step : Dbl K) (maxIter : Int) (tol xmin xmax : Dbl K) :
    Dbl K × Int :=
  let f := goal1 o big objective xmin xmax
  let x0 := start1 xmin xmax x0
  loop1 o f tol maxIter.toNat x0 (o.add x0 step) (o.sub x0 step) step 0

end
end Op
end LDT
