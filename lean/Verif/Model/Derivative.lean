import Verif.Model.MatrixElem
import Mathlib.Algebra.Order.Field.Basic
import Mathlib.Data.List.FinRange
/-!
# Numerical derivatives: `src/ldt_math/derivative.cpp`

Arithmetic is exact, over an ordered field. Values of the function are finite numbers and the function keeps no state. A division by zero
(`T = 1`, a step of size zero) gives zero here and NaN or infinity in the program; the theorems exclude it.
-/
namespace LDT
namespace Dv
open Mx

section
variable {K : Type} [Field K] [LinearOrder K] {n : Nat}

/-- The settings of the class, functionx.h:47-57. -/
structure Opts (K : Type) where
  step0 : K
  step1 : K
  epsilon : K
  T : K

/-- The private members and the sizes, functionx.h:16-29. -/
structure Obj where
  mN : Int
  count : Int
  first : Bool
  second : Bool
  storage1 : Int
  storage2 : Int
  work : Int

/-- `for (c = 1; c < mCount; c++) s += (mCount - c) * m`, derivative.cpp:29-30, 39-40. -/
def levelsSize (count m s : Int) : Int := (upTo 1 count).foldl (fun s c => s + (count - c) * m) s

/-- The constructor, derivative.cpp:17-47. -/
def Obj.make (n : Int) (first second : Bool) (count : Int) : Obj :=
  let s1 := if first then levelsSize count n (3 * n + count * n) else 0
  let nn := (n * (n + 1)).tdiv 2
  let s2 := if second then levelsSize count nn (3 * n + count * nn) else 0
  ⟨n, count, first, second, if first then n else 0, if second then n * n else 0, max s1 s2⟩

/-- The blocks of the work array, (position, length): `x0`, `h_l`, `h_r`, `A0` and `As[1]`, `As[2]`, ..., derivative.cpp:67-81 with `m = n`
columns and 170-191 with `m = nn` columns. -/
def layout (count n m : Int) : List (Int × Int) :=
  [(0, n), (n, n), (n + n, n), (n + n + n, count * m)] ++
  ((upTo 1 count).foldl (fun (s : List (Int × Int) × Int) c => (s.1 ++ [(s.2, (count - c) * m)], s.2 + (count - c) * m))
    ([], n + n + n + count * m)).1

/-- `std::abs(dif) <= 1e-16 ? 0.0 : dif`, derivative.cpp:129, 259. -/
def chop (d : K) : K := if |d| ≤ 1 / 10 ^ 16 then 0 else d

/-- The step of a coordinate for the first derivative, derivative.cpp:83-93. -/
def step1st (o : Opts K) (x : K) : K := if |x| < o.epsilon then o.step0 / 2 else o.step1 / 2 * |x|

/-- The step of a coordinate for the second derivatives, derivative.cpp:193-203. -/
def step2nd (o : Opts K) (x : K) : K := if |x| < 1 then 2 * o.step0 else 2 * o.step1 * |x|

/-- One difference quotient of `CalculateFirst` with the point it leaves in `x0`, derivative.cpp:124-128, 130. -/
def diff1 (f : (Fin n → K) → K) (x hl hr x0 : Fin n → K) (i : Fin n) : K × (Fin n → K) :=
  let xl := Function.update x0 i (x i + hl i)
  let xr := Function.update xl i (x i + hr i)
  ((f xl - f xr) / (hl i - hr i), Function.update xr i (x i))

/-- `f_ll`, `f_lr`, `f_rl`, `f_rr` and `x0` for `i == j`, derivative.cpp:225-233. -/
def values2same (f : (Fin n → K) → K) (x hl hr x0 : Fin n → K) (i : Fin n) : (K × K × K × K) × (Fin n → K) :=
  let x1 := Function.update x0 i (x i + 2 * hl i)
  let x2 := Function.update x1 i (x i + hl i + hr i)
  let x3 := Function.update x2 i (x i + 2 * hr i)
  ((f x1, f x2, f x2, f x3), x3)

/-- `f_ll`, `f_lr`, `f_rl`, `f_rr` and `x0` for `i != j`, derivative.cpp:235-249. -/
def values2diff (f : (Fin n → K) → K) (x hl hr x0 : Fin n → K) (i j : Fin n) : (K × K × K × K) × (Fin n → K) :=
  let x1 := Function.update (Function.update x0 i (x i + hl i)) j (x j + hl j)
  let x2 := Function.update (Function.update x1 i (x i + hl i)) j (x j + hr j)
  let x3 := Function.update (Function.update x2 i (x i + hr i)) j (x j + hl j)
  let x4 := Function.update (Function.update x3 i (x i + hr i)) j (x j + hr j)
  ((f x1, f x2, f x3, f x4), x4)

/-- One difference quotient of `CalculateSecond` with the point it leaves in `x0`, derivative.cpp:224-258. -/
def diff2 (f : (Fin n → K) → K) (x hl hr x0 : Fin n → K) (ij : Fin n × Fin n) : K × (Fin n → K) :=
  let v := if ij.1 = ij.2 then values2same f x hl hr x0 ij.1 else values2diff f x hl hr x0 ij.1 ij.2
  let df := v.1.1 - v.1.2.1 - v.1.2.2.1 + v.1.2.2.2
  (df / ((hr ij.1 - hl ij.1) * (hr ij.2 - hl ij.2)), Function.update (Function.update v.2 ij.1 (x ij.1)) ij.2 (x ij.2))

/-- One row of `A0`: the cells `ts` from left to right, `prev` is the row above (empty for the first row), derivative.cpp:120-132 and
218-264. -/
def sweep {τ : Type} (eval : (Fin n → K) → τ → K × (Fin n → K)) : List τ → List K → (Fin n → K) → List K × (Fin n → K)
  | [], _, x0 => ([], x0)
  | t :: ts, prev, x0 =>
    if prev.head? = some 0 then
      let r := sweep eval ts prev.tail x0
      (0 :: r.1, r.2)
    else
      let e := eval x0 t
      let r := sweep eval ts prev.tail e.2
      (chop e.1 :: r.1, r.2)

/-- The rows of `A0`, the steps are divided by `T` after each row, derivative.cpp:117-135 and 215-267. -/
def diffRows {τ : Type} (eval : (Fin n → K) → (Fin n → K) → (Fin n → K) → τ → K × (Fin n → K)) (T : K) (ts : List τ) :
    Nat → List K → (Fin n → K) → (Fin n → K) → (Fin n → K) → List (List K)
  | 0, _, _, _, _ => []
  | c + 1, prev, x0, hl, hr =>
    let s := sweep (eval hl hr) ts prev x0
    s.1 :: diffRows eval T ts c s.1 s.2 (fun i => hl i / T) (fun i => hr i / T)

/-- `As[c]` from `As[c - 1]` with `tki = T^c`, derivative.cpp:142-150 and 270-278. -/
def extrapolate (tki : K) (A : List (List K)) : List (List K) :=
  List.zipWith (List.zipWith (fun next cur => (next * tki - cur) / (tki - 1))) A.tail A

/-- `k` levels starting with level `c`, derivative.cpp:141-151 and 269-279. -/
def levels (T : K) : Nat → Nat → List (List K) → List (List K)
  | 0, _, A => A
  | k + 1, c, A => levels T k (c + 1) (extrapolate (T ^ c) A)

/-- The single row of `As[mCount - 1]`. -/
def lastRow {τ : Type} (eval : (Fin n → K) → (Fin n → K) → (Fin n → K) → τ → K × (Fin n → K)) (T : K) (ts : List τ) (count : Nat)
    (x h : Fin n → K) : List K :=
  ((levels T (count - 1) 1 (diffRows eval T ts count [] x h (fun i => -h i))).head?).getD []

/-- The checks at the start: `n > mN`, the request, and `Restructure` of the result to `r × c` (`Result.SetData` is given the storage),
derivative.cpp:52-60 and 160-167; then `As[0]` of a vector with `mCount` elements, derivative.cpp:76-77 and 186-187. -/
def checks (D : Obj) (wanted : Bool) (n : Int) (result : Mat K) (r c : Int) : Outcome (Mat K) :=
  if n > D.mN then .throws
  else if wanted = false then .throws
  else do
    let res ← result.restructure r c
    if D.count < 0 then .throws
    else if D.count = 0 then .ub
    else pure res

/-- `CalculateFirst(f, x, storage, work)`, derivative.cpp:49-153: `Result1`. -/
def calculateFirst (o : Opts K) (D : Obj) (f : (Fin n → K) → K) (x : Fin n → K) (storage : List K) : Outcome (Mat K) := do
  let res ← checks D D.first n ⟨D.mN, 1, some storage⟩ n 1
  let row := lastRow (fun hl hr x0 i => diff1 f x hl hr x0 i) o.T (List.finRange n) D.count.toNat x (fun i => step1st o (x i))
  pure { res with data := some row }

/-- The cells `(i, j)` with `i ≤ j`, row by row, derivative.cpp:219-220. -/
def upperPairs (n : Nat) : List (Fin n × Fin n) :=
  (List.finRange n).flatMap (fun i => ((List.finRange n).filter (fun j => i ≤ j)).map (fun j => (i, j)))

/-- `CalculateSecond(f, x, storage, work)`, derivative.cpp:155-282: `Result2`. -/
def calculateSecond (o : Opts K) (D : Obj) (f : (Fin n → K) → K) (x : Fin n → K) (storage : List K) : Outcome (Mat K) := do
  let res ← checks D D.second n ⟨D.mN, D.mN, some storage⟩ n n
  let row := lastRow (fun hl hr x0 ij => diff2 f x hl hr x0 ij) o.T (upperPairs n) D.count.toNat x (fun i => step2nd o (x i))
  res.makeTriangular0 ⟨1, row.length, some row⟩ 0 true true

end
end Dv
end LDT
