import Verif.Model.MatrixStat
import Verif.Model.Sort
import Mathlib.Algebra.Order.Field.Basic
/-!
# Hierarchical clustering: `src/ldt_statistics/clustering/hcluster.cpp`, `include/math/statistics/clustering.h`

Distances are finite numbers of an ordered field `K` once the check for NaN has passed (infinite distances and rounding
are not modelled).  Ids, counts and distance indexes are `Nat`: the code never makes them negative.  A pointer to a
node is its position in `Nodes`.
-/
namespace LDT
namespace Cl
open Mx
open Arr (Val stableSort)

/-- `std::vector::at`. -/
def atV {α : Type} (l : List α) (k : Nat) : Outcome α :=
  match l[k]? with
  | some a => .ok a
  | none => .throws

/-- `MatrixSym<false>::Get0`, matrix_sym.cpp:59-79: only the diagonal is checked. -/
def symGet0 {α : Type} (m : SymMat α) (i j : Nat) : Outcome α :=
  match symIndex false m.rows i j with
  | none => .throws
  | some k => read m.data k

/-- `MatrixSym<false>::Set0`, matrix_sym.cpp:88-104. -/
def symSet0 {α : Type} (m : SymMat α) (i j : Nat) (v : α) : Outcome (SymMat α) :=
  match symIndex false m.rows i j with
  | none => .throws
  | some k => do
    let l ← write m.data k v
    pure { m with data := l }

/-- `HClusterLinkage`, clustering.h:134-152. -/
inductive Linkage where
  | single | complete | averageU | averageW | ward
  deriving DecidableEq, Repr

/-- `HClusterNode`, clustering.h:195-219 (`height` is `leftDistanceRight`). -/
structure Node (K : Type) where
  id : Nat
  idLeft : Nat
  idRight : Nat
  nodesWithin : Nat
  distanceIndex : Nat
  isMerged : Bool
  height : K
  deriving DecidableEq

section
variable {K : Type} [Field K] [LinearOrder K]

/-- `HCluster::CalculateDistance`, hcluster.cpp:263-286. -/
def calcDist (link : Linkage) (nLeft nRight nNode : Nat) (disLeft disRight leftDisRight : K) : K :=
  match link with
  | .single => if disLeft > disRight then disRight else disLeft
  | .complete => if disLeft > disRight then disLeft else disRight
  | .averageU =>
    let weight : K := (nLeft : K) / ((nLeft : K) + (nRight : K))
    weight * disLeft + (1 - weight) * disRight
  | .averageW => (disLeft + disRight) / 2
  | .ward =>
    let n : K := ((nLeft + nRight + nNode : Nat) : K)
    let wl : K := ((nLeft + nNode : Nat) : K) / n
    let wr : K := ((nRight + nNode : Nat) : K) / n
    let wn : K := (nNode : K) / n
    wl * disLeft + wr * disRight - wn * leftDisRight

/-- The constructor, hcluster.cpp:12-24: one node per point. -/
def initNodes (n : Nat) : List (Node K) :=
  (List.range n).map (fun i => ⟨i, 0, 0, 1, i, false, 0⟩)

/-- `if (d < distance) { distance = d; neighbor = a; }`, hcluster.cpp:81-84 (`none`: infinity and the null pointer). -/
def nearer (s : Option (Nat × K)) (i : Nat) (d : K) : Option (Nat × K) :=
  match s with
  | none => some (i, d)
  | some b => if d < b.2 then some (i, d) else some b

/-- The loop body of `GetNearestNeighbor`, hcluster.cpp:75-85. -/
def nearStep (dist : SymMat K) (k idx : Nat) (s : Option (Nat × K)) (ai : Node K × Nat) : Outcome (Option (Nat × K)) :=
  if ai.2 = k ∨ ai.1.isMerged = true then .ok s
  else do
    let d ← symGet0 dist idx ai.1.distanceIndex
    pure (nearer s ai.2 d)

/-- `HCluster::GetNearestNeighbor`, hcluster.cpp:69-87, for the node at position `k`: the neighbour and its distance. -/
def nearest (nodes : List (Node K)) (dist : SymMat K) (k : Nat) : Outcome (Option (Nat × K)) := do
  let node ← atV nodes k
  nodes.zipIdx.foldlM (nearStep dist k node.distanceIndex) none

/-- `node.isMerged = true`, hcluster.cpp:40-41. -/
def setMerged (nodes : List (Node K)) (k : Nat) : List (Node K) := nodes.modify k (fun a => { a with isMerged := true })

/-- The loop body of `Merge2`, hcluster.cpp:47-58. -/
def mergeStep (link : Linkage) (ln rn : Node K) (idx : Nat) (height : K) (dist : SymMat K) (a : Node K) :
    Outcome (SymMat K) :=
  if a.isMerged = true then .ok dist
  else do
    let dl ← symGet0 dist ln.distanceIndex a.distanceIndex
    let dr ← symGet0 dist rn.distanceIndex a.distanceIndex
    symSet0 dist a.distanceIndex idx (calcDist link ln.nodesWithin rn.nodesWithin a.nodesWithin dl dr height)

/-- The merged node, hcluster.cpp:31-38. -/
def mergedNode (ni : Nat) (ln rn : Node K) (height : K) : Node K :=
  { id := ni, idLeft := ln.id, idRight := rn.id, nodesWithin := ln.nodesWithin + rn.nodesWithin,
    distanceIndex := min ln.distanceIndex rn.distanceIndex, isMerged := false, height := height }

/-- `HCluster::Merge2`, hcluster.cpp:26-67: the merged node is the last of the new list. -/
def merge2 (link : Linkage) (nodes : List (Node K)) (dist : SymMat K) (ni l r : Nat) (height : K) :
    Outcome (List (Node K) × SymMat K) := do
  let ln ← atV nodes l
  let rn ← atV nodes r
  let nodes1 := setMerged (setMerged nodes l) r
  let dist ← nodes1.foldlM (mergeStep link ln rn (mergedNode ni ln rn height).distanceIndex height) dist
  pure (nodes1 ++ [mergedNode ni ln rn height], dist)

/-- The variables of the loop of `Calculate`, hcluster.cpp:101-110. The stack's top is the head. -/
structure St (K : Type) where
  nodes : List (Node K)
  dist : SymMat K
  ni : Nat
  top : Nat
  near : Option (Nat × K)
  stack : List Nat
  deriving DecidableEq

/-- After a merge, hcluster.cpp:125-140; `stack` is what is left after the pop of line 121. -/
def afterMerge (nodes : List (Node K)) (dist : SymMat K) (ni : Nat) (stack : List Nat) : Outcome (St K) :=
  match stack with
  | [] => do
    let agg := nodes.length - 1
    let an ← atV nodes agg
    let near ← nearest nodes dist agg
    pure { nodes := nodes, dist := dist, ni := ni, top := agg, near := near, stack := [an.id] }
  | [x] => do
    let near ← nearest nodes dist x
    pure { nodes := nodes, dist := dist, ni := ni, top := x, near := near, stack := [x] }
  | x :: w :: rest => do
    let xn ← atV nodes x
    let wn ← atV nodes w
    let d ← symGet0 dist wn.distanceIndex xn.distanceIndex
    pure { nodes := nodes, dist := dist, ni := ni, top := w, near := some (x, d), stack := w :: rest }

/-- One round of the loop of `Calculate`, hcluster.cpp:117-146: dereferencing the null pointer or popping an empty stack is
undefined. -/
def step (link : Linkage) (s : St K) : Outcome (St K) :=
  match s.near with
  | none => .ub
  | some (p, d) => do
    let nn ← nearest s.nodes s.dist p
    match nn with
    | none => .ub
    | some (q, dq) => do
      let qn ← atV s.nodes q
      let tn ← atV s.nodes s.top
      if qn.id = tn.id then
        match s.stack with
        | [] => .ub
        | _ :: st => do
          let r ← merge2 link s.nodes s.dist s.ni s.top p d
          afterMerge r.1 r.2 (s.ni + 1) st
      else do
        let pn ← atV s.nodes p
        pure { s with stack := pn.id :: s.stack, top := p, near := some (q, dq) }

/-- `while (true) { if (n_i == 2 * n - 1) break; … }`, hcluster.cpp:112-147, for at most `fuel` rounds (`diverges`: not
finished by then). -/
def run (link : Linkage) (n : Nat) : Nat → St K → Outcome (St K)
  | 0, s => if s.ni = 2 * n - 1 then .ok s else .diverges
  | fuel + 1, s =>
    if s.ni = 2 * n - 1 then .ok s
    else do
      let s ← step link s
      run link n fuel s

/-- The initialization, hcluster.cpp:107-110. -/
def start (n : Nat) (dist : SymMat K) : Outcome (St K) := do
  let _ ← atV (initNodes n : List (Node K)) 0
  let near ← nearest (initNodes n) dist 0
  pure { nodes := initNodes n, dist := dist, ni := n, top := 0, near := near, stack := [0] }

/-- `HCluster::Calculate`, hcluster.cpp:89-147, on a fresh object for `n` points: the nodes and the overwritten distances.
The loop is cut after `fuel` rounds. -/
def calculate (link : Linkage) (n fuel : Nat) (d : SymMat (Val K)) : Outcome (List (Node K) × SymMat K) :=
  if d.data.any (fun x => x.isNone) then .throws
  else if symLength false d.rows ≠ ((n : Int) * (n - 1)).tdiv 2 then .throws
  else do
    let s ← start n { rows := d.rows, data := d.data.map (fun x => x.getD 0) }
    let s ← run link n fuel s
    pure (s.nodes, s.dist)

/-- `set_group_var`, hcluster.cpp:149-159, with the depth of the recursion bounded by `fuel`. -/
def setGroup (nodes : List (Node K)) (last : Nat) : Nat → Node K → List Nat → Outcome (List Nat)
  | 0, _, _ => .diverges
  | fuel + 1, node, g =>
    if node.nodesWithin = 1 then write g node.id last
    else do
      let l ← atV nodes node.idLeft
      let r ← atV nodes node.idRight
      let g ← setGroup nodes last fuel l g
      setGroup nodes last fuel r g

/-- `std::set::insert`, the set being its elements in increasing order. -/
def setInsert (a : Nat) : List Nat → List Nat
  | [] => [a]
  | b :: l => if a < b then a :: b :: l else if a = b then b :: l else b :: setInsert a l

/-- `gr.clear(); for (j…) gr.insert(group_i.Data[j]);`, hcluster.cpp:196-200. -/
def sortedSet (l : List Nat) : List Nat := l.foldl (fun s a => setInsert a s) []

/-- The loop of `Group` from node `i` down to node `n`, hcluster.cpp:180-203; `todo` counts the nodes left. -/
def splitLoop (nodes : List (Node K)) (n k : Nat) : Nat → Nat → List Nat → List Nat → Outcome (List Nat × List Nat)
  | 0, _, g, gr => .ok (g, gr)
  | todo + 1, last, g, _ => do
    let node ← atV nodes (n + todo)
    let l ← atV nodes node.idLeft
    let r ← atV nodes node.idRight
    let g ← setGroup nodes (last + 1) nodes.length (if l.nodesWithin < r.nodesWithin then l else r) g
    if (sortedSet g).length = k then .ok (g, sortedSet g)
    else splitLoop nodes n k todo (last + 1) g (sortedSet g)

/-- `map.at(m1)->push_back(i)` for all `i` of a group, hcluster.cpp:206-212. -/
def fillMap (n : Nat) (g : List Nat) (gr : List Nat) (map : List (List Nat)) : Outcome (List (List Nat)) :=
  gr.zipIdx.foldlM (fun map gm => do
    let members := (List.range n).filter (fun i => g[i]? == some gm.1)
    if members = [] then pure map
    else do
      let old ← atV map gm.2
      pure (map.set gm.2 (old ++ members))) map

/-- `HCluster::Group(map)`, hcluster.cpp:161-214, for `k` empty groups. -/
def group (nodes : List (Node K)) (n k : Nat) : Outcome (List (List Nat)) :=
  let map := List.replicate k []
  if k = n then .ok ((List.range n).map (fun i => [i]))
  else if k = 1 then .ok [List.range n]
  else do
    let r ← splitLoop nodes n k (n - 1) 0 (List.replicate n 0) []
    fillMap n r.1 r.2 map

/-- `nodesWithin > 1 ? id - n + 1 : -(id + 1)`, hcluster.cpp:237-243. -/
def mergeRef (n : Nat) (a : Node K) : Int :=
  if a.nodesWithin > 1 then (a.id : Int) - n + 1 else -((a.id : Int) + 1)

/-- One round of the first loop of `MergeR`, hcluster.cpp:230-244: the height and the row of the merge at `n + s`. -/
def mergeRow (nodes : List (Node K)) (n s : Nat) : Outcome (K × Int × Int) := do
  let node ← atV nodes (n + s)
  let l ← atV nodes node.idLeft
  let r ← atV nodes node.idRight
  pure (node.height, mergeRef n l, mergeRef n r)

/-- The adjustment of a positive reference, hcluster.cpp:253-257 (`find` gives the length if there is nothing to find). -/
def adjust (order : List Nat) (v : Int) : Int :=
  if v - 1 ≥ 0 then (order.idxOf (v - 1).toNat : Int) + 1 else v

/-- `HCluster::MergeR(merge, heights, order)`, hcluster.cpp:216-261. The `(n-1) x 2` matrix `merge` is the list of its rows and
`heights` the list of its cells, both of the right size; the heights are finite, so that the sort is defined.
`SortByVector` dereferences the maximum of its indexes: undefined without merges. -/
def mergeR (nodes : List (Node K)) (n : Nat) : Outcome (List (Int × Int) × List K × List Nat) := do
  let rows ← (List.range (n - 1)).mapM (mergeRow nodes n)
  let order ← Arr.sortIndexes (rows.map (fun r => some r.1)) true
  if order = [] then .ub
  else do
    let out ← order.mapM (fun i => atV rows i)
    pure (out.map (fun r => (adjust order r.2.1, adjust order r.2.2)), out.map (fun r => r.1), order)

/-- One pair of positions in the filter of `GroupData::Calculate`, group_data.cpp:64-68. -/
def pairStep (dist : SymMat K) (thr : K) (g : List Nat) (i : Nat) (rem : List Nat) (j : Nat) : Outcome (List Nat) := do
  let a ← atV g i
  let b ← atV g j
  let dis ← symGet0 dist a b
  pure (if dis < thr then setInsert j rem else rem)

/-- The positions to remove from one group, group_data.cpp:62-70. -/
def toRemove (dist : SymMat K) (thr : K) (g : List Nat) : Outcome (List Nat) :=
  (List.range g.length).foldlM (fun rem i =>
    (List.range' (i + 1) (g.length - (i + 1))).foldlM (pairStep dist thr g i) rem) []

/-- `for (itr = remove.rbegin(); …) g->erase(g->begin() + *itr)`, group_data.cpp:71-72. -/
def eraseAll (g rem : List Nat) : List Nat := rem.reverse.foldl (fun g j => g.eraseIdx j) g

/-- The loop over the groups, group_data.cpp:61-75: the filtered groups and `Removed`. -/
def filterGroups (dist : SymMat K) (thr : K) (groups : List (List Nat)) : Outcome (List (List Nat) × List Nat) :=
  groups.foldlM (fun s g => do
    let rem ← toRemove dist thr g
    pure (s.1 ++ [eraseAll g rem], rem.foldl (fun r j => setInsert j r) s.2)) ([], [])

/-- What `GroupData` holds after `Calculate`. -/
structure Groups where
  groups : List (List Nat)
  removed : List Nat
  nanFound : Bool
  deriving DecidableEq, Repr

/-- `GroupData::Calculate`, group_data.cpp:22-77, from the calculated distances of the `n` columns on (line 44), on a fresh
object: the check of the work size and the calculation of the distances are left out (C73). -/
def groupData (link : Linkage) (n fuel : Nat) (d : SymMat (Val K)) (k : Nat) (thr : K) : Outcome Groups := do
  let r ← calculate link n fuel { d with data := d.data.map (fun x => some (x.getD 0)) }
  let gs ← group r.1 n k
  if thr > 0 then do
    let f ← filterGroups r.2 thr gs
    pure ⟨f.1, f.2, d.data.any (fun x => x.isNone)⟩
  else pure ⟨gs, [], d.data.any (fun x => x.isNone)⟩

end
end Cl
end LDT
