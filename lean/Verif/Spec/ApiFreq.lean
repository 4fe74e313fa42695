import Verif.Model.ApiFreq
import Verif.Spec.Freq
/-!
# Specification: handles are values

A handle denotes a frequency; a call changes nothing but the frequency of its own handle. `origin` is the handle that was created and of which this one is a (repeated) copy.
-/
namespace LDT
namespace Fh
open Fq Text

/-- What a live handle denotes. -/
structure Entry where
  val : Freq
  origin : ℕ
  deriving DecidableEq, Repr

/-- The live handles. -/
structure Table where
  at_ : ℕ → Option Entry
  fresh : ℕ

def Table.empty : Table := ⟨fun _ => none, 0⟩

def Table.get (t : Table) (p : Option ℕ) : Outcome (ℕ × Entry) :=
  match p with
  | none => .ub
  | some p => match t.at_ p with
    | none => .ub
    | some e => .ok (p, e)

/-- The meaning of a call: the value of its handle is used or replaced; exceptions are reported and leave everything as it is. -/
def Table.step (t : Table) : Call → Outcome (Table × Answer × Bool)
  | .create s c => do
    match ← createBody s c with
    | (k, none) => pure (t, .handle none k, true)
    | (k, some f) => pure (⟨Function.update t.at_ t.fresh (some ⟨f, t.fresh⟩), t.fresh + 1⟩, .handle (some t.fresh) k, false)
  | .copy p => do
    let e ← t.get p
    pure (⟨Function.update t.at_ t.fresh (some e.2), t.fresh + 1⟩, .handle (some t.fresh) none, false)
  | .next p n => do
    let e ← t.get p
    match ← attempt (e.2.val.next n) with
    | none => pure (t, .done, true)
    | some g => pure ({ t with at_ := Function.update t.at_ e.1 (some ⟨g, e.2.origin⟩) }, .done, false)
  | .toString p b1 b2 len => do
    let e ← t.get p
    match ← attempt e.2.val.toStr, ← attempt (classStrD e.2.val) with
    | some s, some k => do
      let a ← putTexts e.2.val.cls s k b1 b2 len
      pure (t, a, false)
    | _, _ => pure (t, .text len none [b1, b2], true)
  | .toString0 p b len => do
    let e ← t.get p
    match ← attempt e.2.val.toStr with
    | none => pure (t, .text len none [b], true)
    | some s => do
      let a ← putText s b len
      pure (t, a, false)
  | .minus p q => do
    let e ← t.get p
    let d ← t.get q
    match ← attempt (e.2.val.minus d.2.val) with
    | none => pure (t, .num (-1), true)
    | some n => pure (t, .num n, false)
  | .dispose none => pure (t, .done, false)
  | .dispose (some p) => do
    let _ ← t.get (some p)
    pure ({ t with at_ := Function.update t.at_ p none }, .done, false)

def Table.run (t : Table) : List Call → Outcome (Table × List (Answer × Bool))
  | [] => .ok (t, [])
  | c :: cs => do
    let r ← t.step c
    let q ← r.1.run cs
    pure (q.1, r.2 :: q.2)

/-- The handle is live. -/
def Table.Live (t : Table) : Option ℕ → Prop
  | none => False
  | some p => t.at_ p ≠ none

/-- A list may be disposed of only when no other live handle is a copy of the same list. -/
def Table.Careful (t : Table) : Call → Prop
  | .dispose (some p) => ∀ e, t.at_ p = some e → isList e.val = true → ∀ q d, q ≠ p → t.at_ q = some d → d.origin ≠ e.origin
  | _ => True

/-- Every call of the history is careful when it is made. -/
def Table.CarefulRun (t : Table) : List Call → Prop
  | [] => True
  | c :: cs => t.Careful c ∧ ∀ r, t.step c = .ok r → r.1.CarefulRun cs

/-- A call of a careful caller: live handles, and buffers as long as it says; texts to create from either are refused or give a well-formed frequency. -/
def Table.Proper (t : Table) : Call → Prop
  | .create s c => ∃ k f, createBody s c = .ok (k, f) ∧ ∀ g, f = some g → g.WF
  | .copy p => t.Live p
  | .next p _ => t.Live p
  | .toString p b1 b2 len => t.Live p ∧ len ≤ b1.length ∧ len ≤ b2.length
  | .toString0 p b len => t.Live p ∧ len ≤ b.length
  | .minus p q => t.Live p ∧ t.Live q
  | .dispose none => True
  | .dispose (some p) => t.Live (some p)

/-- Every call of the history is careful and proper when it is made. -/
def Table.ProperRun (t : Table) : List Call → Prop
  | [] => True
  | c :: cs => t.Careful c ∧ t.Proper c ∧ ∀ r, t.step c = .ok r → r.1.ProperRun cs

end Fh
end LDT
