import Verif.Model.Basic
/-! `Outcome` is a lawful monad; the loops of the models are `foldlM` in it. -/
namespace LDT

instance : LawfulMonad Outcome := LawfulMonad.mk'
  (id_map := fun x => by cases x <;> rfl)
  (pure_bind := fun _ _ => rfl)
  (bind_assoc := fun x _ _ => by cases x <;> rfl)

/-- Two nested loops are one loop over the pairs. -/
theorem foldlM_nested {σ ι κ : Type} (f : σ → ι → κ → Outcome σ) (outer : List ι) (inner : List κ) (s : σ) :
    outer.foldlM (fun d a => inner.foldlM (fun d b => f d a b) d) s
      = (outer.flatMap (fun a => inner.map (fun b => (a, b)))).foldlM (fun d ab => f d ab.1 ab.2) s := by
  induction outer generalizing s with
  | nil => rfl
  | cons a l ih =>
    rw [List.foldlM_cons, List.flatMap_cons, List.foldlM_append, List.foldlM_map]
    congr 1; funext s'; exact ih s'

end LDT
