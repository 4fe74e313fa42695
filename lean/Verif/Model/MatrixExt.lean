import Verif.Model.MatrixStat
import Mathlib.Order.Defs.LinearOrder
/-!
# Extreme cells: `src/matrix/matrix.cpp:2421-2576`

Cells are `Val K` (`none` = NaN, infinities as data are not modelled).  The running extreme starts at an infinity,
written `none`; it is kept together with the position at which it was found.
-/
namespace LDT
namespace Mx
open Arr

section
variable {K : Type} [LinearOrder K]

/-- `if (t > m) { m = t; index = i; }` (or `<`), matrix.cpp:2433-2435, 2465-2468: comparisons with NaN are false, every
number beats the infinity. -/
def extStep (better : K → K → Bool) (s : Option (K × Int)) (i : Int) (d : Val K) : Option (K × Int) :=
  match d with
  | none => s
  | some x =>
    match s with
    | none => some (x, i)
    | some b => if better x b.1 then some (x, i) else some b

/-- `t > m` of matrix.cpp:2433. -/
def gtB (x m : K) : Bool := decide (x > m)
/-- `t < m` of matrix.cpp:2447. -/
def ltB (x m : K) : Bool := decide (x < m)

/-- The loops over `n` cells `Data[start + stride * i]`: all cells (matrix.cpp:2432-2436), a row (2504-2510) or a column
(2547-2553). -/
def extLoop (better : K → K → Bool) (l : List (Val K)) (start stride n : Int) : Outcome (Option (K × Int)) :=
  (upTo 0 n).foldlM (fun s i => do
    let d ← read l (start + stride * i)
    pure (extStep better s i d)) none

/-- `Matrix::Maximum`, matrix.cpp:2421-2437 (`none`: minus infinity). -/
def Mat.maximum (m : Mat (Val K)) : Outcome (Option K) := do
  let r ← extLoop gtB m.mem 0 1 m.length
  pure (r.map Prod.fst)

/-- `Matrix::Minimum`, matrix.cpp:2439-2451 (`none`: infinity). -/
def Mat.minimum (m : Mat (Val K)) : Outcome (Option K) := do
  let r ← extLoop ltB m.mem 0 1 m.length
  pure (r.map Prod.fst)

/-- `Matrix::max(rowIndex, colIndex)`, matrix.cpp:2453-2472: the position is that of cell 0 when nothing was found. -/
def Mat.maxAt (m : Mat (Val K)) : Outcome (Option K × Int × Int) := do
  let r ← extLoop gtB m.mem 0 1 m.length
  let p ← m.translateIndex ((r.map Prod.snd).getD 0)
  pure (r.map Prod.fst, p.1, p.2)

/-- `Matrix::min(rowIndex, colIndex)`, matrix.cpp:2474-2490. -/
def Mat.minAt (m : Mat (Val K)) : Outcome (Option K × Int × Int) := do
  let r ← extLoop ltB m.mem 0 1 m.length
  let p ← m.translateIndex ((r.map Prod.snd).getD 0)
  pure (r.map Prod.fst, p.1, p.2)

/-- `Matrix::MaximumInRow(i, colIndex)`, matrix.cpp:2492-2513: value and position; `none`: the position is left as it was. -/
def Mat.maximumInRow (m : Mat (Val K)) (i : Int) : Outcome (Option (K × Int)) := extLoop gtB m.mem i m.rows m.cols
/-- `Matrix::MinimumInRow(i, colIndex)`, matrix.cpp:2515-2532. -/
def Mat.minimumInRow (m : Mat (Val K)) (i : Int) : Outcome (Option (K × Int)) := extLoop ltB m.mem i m.rows m.cols
/-- `Matrix::MaximumInColumn(j, rowIndex)`, matrix.cpp:2534-2556. -/
def Mat.maximumInColumn (m : Mat (Val K)) (j : Int) : Outcome (Option (K × Int)) :=
  extLoop gtB m.mem (m.rows * j) 1 m.rows
/-- `Matrix::MinimumInColumn(j, rowIndex)`, matrix.cpp:2558-2576. -/
def Mat.minimumInColumn (m : Mat (Val K)) (j : Int) : Outcome (Option (K × Int)) :=
  extLoop ltB m.mem (m.rows * j) 1 m.rows

end
end Mx
end LDT
