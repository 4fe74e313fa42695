import Verif.Model.Cluster
import Mathlib.Algebra.Order.Field.Basic
import Mathlib.Algebra.BigOperators.Group.List.Basic
/-!
# What a dendrogram is (specification for C68-C71)
-/
namespace LDT
namespace Cl

/-- A binary tree over points. -/
inductive Tree where
  | leaf (i : Nat)
  | node (l r : Tree)
  deriving DecidableEq, Repr

/-- The points of a tree. -/
def Tree.leaves : Tree → List Nat
  | .leaf i => [i]
  | .node l r => l.leaves ++ r.leaves

/-- The number of points. -/
def Tree.size (t : Tree) : Nat := t.leaves.length

/-- The tree that the node list describes at position `x`: the first `n` nodes are points, the others have two children. -/
inductive TreeOf {K : Type} (n : Nat) (nodes : List (Node K)) : Nat → Tree → Prop where
  | point (x : Nat) : x < n → TreeOf n nodes x (.leaf x)
  | merge (x : Nat) (a : Node K) (l r : Tree) : n ≤ x → nodes[x]? = some a → TreeOf n nodes a.idLeft l →
      TreeOf n nodes a.idRight r → TreeOf n nodes x (.node l r)

/-- The node list is a complete hierarchical clustering of `n` points. -/
structure IsDendrogram {K : Type} (n : Nat) (nodes : List (Node K)) : Prop where
  /-- `n` points and `n - 1` merges -/
  len : nodes.length = 2 * n - 1
  /-- children come before their parent and differ -/
  children : ∀ (x : Nat) a, n ≤ x → nodes[x]? = some a → a.idLeft < x ∧ a.idRight < x ∧ a.idLeft ≠ a.idRight
  /-- every node but the last has exactly one parent -/
  parent : ∀ x, x < 2 * n - 2 → ∃! k, n ≤ k ∧ ∃ a, nodes[k]? = some a ∧ (a.idLeft = x ∨ a.idRight = x)
  /-- ids are positions; every node has a tree whose points are different, and it knows their number -/
  node : ∀ (x : Nat) a, nodes[x]? = some a → a.id = x ∧ ∃ t, TreeOf n nodes x t ∧ t.leaves.Nodup ∧ a.nodesWithin = t.size
  /-- the last node contains every point exactly once -/
  root : ∃ t, TreeOf n nodes (2 * n - 2) t ∧ t.leaves.Perm (List.range n)

/-! ## Distances between clusters -/
section
variable {K : Type} [Field K] [LinearOrder K]

/-- The smallest distance between a point of one and a point of the other. -/
def IsSingle (d : Nat → Nat → K) (s t : Tree) (v : K) : Prop :=
  (∃ i ∈ s.leaves, ∃ j ∈ t.leaves, d i j = v) ∧ ∀ i ∈ s.leaves, ∀ j ∈ t.leaves, v ≤ d i j

/-- The largest distance. -/
def IsComplete (d : Nat → Nat → K) (s t : Tree) (v : K) : Prop :=
  (∃ i ∈ s.leaves, ∃ j ∈ t.leaves, d i j = v) ∧ ∀ i ∈ s.leaves, ∀ j ∈ t.leaves, d i j ≤ v

/-- Sum of all distances. -/
def pairSum (d : Nat → Nat → K) (s t : Tree) : K := (s.leaves.map (fun i => (t.leaves.map (fun j => d i j)).sum)).sum

/-- The mean of all distances (UPGMA). -/
def IsAverage (d : Nat → Nat → K) (s t : Tree) (v : K) : Prop := v = pairSum d s t / ((s.size : K) * (t.size : K))

/-- The mean over the points of a tree in which both branches of every merge count equally. -/
def wmean (f : Nat → K) : Tree → K
  | .leaf i => f i
  | .node l r => (wmean f l + wmean f r) / 2

/-- The weighted mean of all distances (WPGMA). -/
def IsWeighted (d : Nat → Nat → K) (s t : Tree) (v : K) : Prop := v = wmean (fun i => wmean (fun j => d i j) t) s

/-- The dispersion within a cluster: half the sum of all distances between its points, divided by their number. For squared
Euclidean distances it is the sum of squares about the centre (`C69_inertia`). -/
def inertia (d : Nat → Nat → K) (t : Tree) : K := pairSum d t t / (2 * (t.size : K))

/-- Twice the growth of the dispersion when both are merged (Ward). -/
def IsWard (d : Nat → Nat → K) (s t : Tree) (v : K) : Prop :=
  v = 2 * (inertia d (.node s t) - inertia d s - inertia d t)

/-- The mean of one coordinate over the points of a tree. -/
def centre (p : Nat → K) (t : Tree) : K := (t.leaves.map p).sum / (t.size : K)

/-- The squared distance of two points with coordinates `dims`. -/
def sqDist (dims : List (Nat → K)) (i j : Nat) : K := (dims.map (fun p => (p i - p j) * (p i - p j))).sum

/-- The cluster distance a linkage stands for. -/
def LinkValue (link : Linkage) (d : Nat → Nat → K) (s t : Tree) (v : K) : Prop :=
  match link with
  | .single => IsSingle d s t v
  | .complete => IsComplete d s t v
  | .averageU => IsAverage d s t v
  | .averageW => IsWeighted d s t v
  | .ward => IsWard d s t v

/-- `x` is one of the clusters when the dendrogram is cut at level `h`: it exists by then and its parent does not. -/
def AliveAt (n : Nat) (nodes : List (Node K)) (h : K) (x : Nat) : Prop :=
  (∃ a, nodes[x]? = some a ∧ (n ≤ x → a.height ≤ h)) ∧
  ∀ (k : Nat) b, n ≤ k → nodes[k]? = some b → (b.idLeft = x ∨ b.idRight = x) → h < b.height

/-- The distance given for two points. -/
def pointDist (d : Mx.SymMat (Arr.Val K)) (i j : Nat) : K :=
  match d.get false i j with
  | .ok (some v) => v
  | _ => 0

/-- A distance matrix of `n` points without missing values. -/
structure IsDist (n : Nat) (d : Mx.SymMat (Arr.Val K)) : Prop where
  rows : d.rows = n
  size : (d.data.length : Int) = Mx.symLength false n
  num : ∀ x ∈ d.data, x ≠ none

/-- `x` remains when the merges at positions `b, b + 1, …` are undone. -/
def TopBelow (n : Nat) (nodes : List (Node K)) (b x : Nat) : Prop :=
  x < b ∧ ∀ (k : Nat) a, n ≤ k → nodes[k]? = some a → (a.idLeft = x ∨ a.idRight = x) → b ≤ k

/-- The groups are the clusters that remain when the merges at positions `b, b + 1, …` are undone. -/
structure IsGrouping (n : Nat) (nodes : List (Node K)) (b : Nat) (map : List (List Nat)) : Prop where
  /-- every point is in exactly one group -/
  part : map.flatten.Perm (List.range n)
  nonempty : ∀ g ∈ map, g ≠ []
  sorted : ∀ g ∈ map, g.Pairwise (· < ·)
  /-- every group is a cluster of the dendrogram -/
  cluster : ∀ g ∈ map, ∃ x t, TopBelow n nodes b x ∧ TreeOf n nodes x t ∧ g.Perm t.leaves

/-- The tree that a merge matrix in the convention of R's `hclust` describes: `-i` is the `i`-th point, `j` the cluster formed
in the `j`-th row, both counted from one; a row may only use clusters formed before it. -/
inductive RowTree (rows : List (Int × Int)) : Int → Tree → Prop where
  | point (i : Nat) : RowTree rows (-((i : Int) + 1)) (.leaf i)
  | row (j : Nat) (x y : Int) (l r : Tree) : rows[j]? = some (x, y) → x < (j : Int) + 1 → y < (j : Int) + 1 → RowTree rows x l →
      RowTree rows y r → RowTree rows ((j : Int) + 1) (.node l r)

/-- What the merge matrix, the heights and the order must be. -/
structure IsMergeR (n : Nat) (nodes : List (Node K)) (rows : List (Int × Int)) (heights : List K) (order : List Nat) : Prop where
  /-- one row and one height per merge -/
  rlen : rows.length = n - 1
  hlen : heights.length = n - 1
  perm : order.Perm (List.range (n - 1))
  /-- heights ascend -/
  sorted : heights.Pairwise (· ≤ ·)
  /-- row `j` and height `j` are those of the merge `order[j]` -/
  row : ∀ j s : Nat, order[j]? = some s → ∃ a t, nodes[n + s]? = some a ∧ heights[j]? = some a.height ∧
    TreeOf n nodes (n + s) t ∧ RowTree rows ((j : Int) + 1) t
  /-- the last row joins all points, each once -/
  last : ∃ t, RowTree rows ((n : Int) - 1) t ∧ t.leaves.Perm (List.range n)

/-- The distance stored for a pair. -/
def sval {K : Type} [Zero K] (m : Mx.SymMat K) (i j : Nat) : K :=
  match symGet0 m i j with
  | .ok v => v
  | _ => 0

/-- The columns at two positions of a group are nearer than the threshold. -/
def Near (dist : Mx.SymMat K) (thr : K) (g : List Nat) (i j : Nat) : Prop :=
  ∃ a b, g[i]? = some a ∧ g[j]? = some b ∧ sval dist a b < thr

open Classical in
/-- The columns of a group that are not nearer than the threshold to one before them. -/
noncomputable def kept (dist : Mx.SymMat K) (thr : K) (g : List Nat) : List Nat :=
  (g.zipIdx.filter (fun p => decide (¬ ∃ i, i < p.2 ∧ Near dist thr g i p.2))).map (fun p => p.1)

end
end Cl
end LDT
