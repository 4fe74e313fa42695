import Verif.Model.Matrix
/-!
# What a matrix is to its user

A matrix with `rows × cols` cells laid over a block of memory that is large enough.
-/
namespace LDT
namespace Mx

variable {α : Type}

/-- A matrix whose memory holds at least `rows * cols` cells. -/
structure Mat.Wf (m : Mat α) : Prop where
  rows_nonneg : 0 ≤ m.rows
  cols_nonneg : 0 ≤ m.cols
  alloc : m.data.isSome
  size : m.rows * m.cols ≤ m.mem.length

/-- `(i, j)` is a position of the matrix. -/
def Mat.InR (m : Mat α) (i j : Int) : Prop := 0 ≤ i ∧ i < m.rows ∧ 0 ≤ j ∧ j < m.cols

/-- `m'` is laid over the same memory with the same shape, and memory behind its cells is untouched. -/
structure SameShape (m m' : Mat α) : Prop where
  rows : m'.rows = m.rows
  cols : m'.cols = m.cols
  alloc : m'.data.isSome = m.data.isSome
  len : m'.mem.length = m.mem.length
  rest : ∀ k : Nat, m.rows * m.cols ≤ k → m'.mem[k]? = m.mem[k]?

end Mx
end LDT
