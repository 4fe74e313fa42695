import Mathlib.Data.List.Basic
/-! # Specification of the model search (no reference to the model of the code) -/
namespace LDT
namespace Srch

/-- A model of size `n`: `n` different partitions (named by their indices, listed in increasing order) and
one item, named by its position, from each of them. -/
structure IsModel (partitions : List (List Int)) (n : Nat) (p i : List Nat) : Prop where
  /-- `n` partitions -/
  lenP : p.length = n
  /-- one item per partition -/
  lenI : i.length = n
  /-- all different, in increasing order -/
  incr : p.Pairwise (· < ·)
  /-- the item exists -/
  item : ∀ j, j < n → ∃ g, partitions[p.getD j 0]? = some g ∧ i.getD j 0 < g.length

/-- The column indices of a model: for every `j` the chosen item of the `j`-th chosen partition. -/
def Columns (partitions : List (List Int)) (p i : List Nat) (cur : List Int) : Prop :=
  cur.length = p.length ∧
    ∀ j : Nat, j < p.length → ∃ g, partitions[p.getD j 0]? = some g ∧ i.getD j 0 < g.length ∧
      cur[j]? = g[i.getD j 0]?

/-- Number of models of size `n` from the partitions in the list: choose or skip the first partition. -/
def modelCount : List (List Int) → Nat → Nat
  | _, 0 => 1
  | [], _ + 1 => 0
  | g :: gs, n + 1 => g.length * modelCount gs n + modelCount gs (n + 1)

end Srch
end LDT
