import Verif.Model.Freq
import Mathlib.Data.Nat.Notation
import Mathlib.Logic.Function.Basic
/-!
# The C interface of the frequencies: `src/api.cpp`

`API_BEGIN` and `API_END`, include/api.h:18-38: the message of the last error is emptied at the beginning; an exception sets it and the function returns the value after
`API_END`. Of the message it is represented whether it is empty. Texts are `const char*` and have no null characters. Memory is two maps, for the objects and for the
vectors of items; addresses are not given twice, so that an access to freed memory is visible as undefined behaviour. `int` does not overflow.
-/
namespace LDT
namespace Fh
open Fq Text Cal

/-- What `pItems` points to, `std::vector<std::string>` or `std::vector<date>`, include/frequency.h:441. -/
abbrev Items := List Str ⊕ List Int

/-- The items of a list. -/
def itemsOf : Freq → Option Items
  | .listS f => f.items.map .inl
  | .listD f => f.items.map .inr
  | _ => none

/-- The object without what its pointer points to. -/
def bare : Freq → Freq
  | .listS f => .listS { f with items := none }
  | .listD f => .listD { f with items := none }
  | f => f

/-- `mClass` is `kListString` or `kListDate`. -/
def isList : Freq → Bool
  | .listS _ | .listD _ => true
  | _ => false

/-- A `Frequency` object in memory: its members and, for lists, `pItems` (`none` is null), include/frequency.h:432-446. -/
structure Cell where
  obj : Freq
  ptr : Option ℕ
  deriving DecidableEq, Repr

/-- The memory. -/
structure Heap where
  cells : ℕ → Option Cell
  lists : ℕ → Option Items
  fresh : ℕ

/-- Nothing is allocated. -/
def Heap.empty : Heap := ⟨fun _ => none, fun _ => none, 0⟩

/-- Accesses an object through its pointer; undefined behaviour for null and for freed objects. -/
def Heap.fetch (h : Heap) : Option ℕ → Outcome (ℕ × Cell)
  | none => .ub
  | some p => match h.cells p with
    | none => .ub
    | some c => .ok (p, c)

/-- Accesses the items too; a null `pItems` stays null, freed items are undefined behaviour. -/
def Heap.load (h : Heap) (c : Cell) : Outcome Freq :=
  match c.obj, c.ptr with
  | .listS f, some a => match h.lists a with
    | some (.inl l) => .ok (.listS { f with items := some l })
    | _ => .ub
  | .listD f, some a => match h.lists a with
    | some (.inr l) => .ok (.listD { f with items := some l })
    | _ => .ub
  | f, _ => .ok f

/-- The calls, include/api.h:58-88; a handle is a pointer or null. -/
inductive Call where
  | create (str classStr : Str)
  | copy (f : Option ℕ)
  | next (f : Option ℕ) (steps : Int)
  | toString (f : Option ℕ) (asString asClassString : Str) (length : Int)
  | toString0 (f : Option ℕ) (asString : Str) (length : Int)
  | minus (f g : Option ℕ)
  | dispose (f : Option ℕ)
  deriving DecidableEq, Repr

/-- What the caller sees: the returned handle with `freqClass` (`none` when it is not written), nothing, `length` with the class and the buffers, or a number. -/
inductive Answer where
  | handle (f : Option ℕ) (cls : Option FClass)
  | done
  | text (length : Int) (cls : Option FClass) (bufs : List Str)
  | num (n : Int)
  deriving DecidableEq, Repr

/-- `try`. -/
def attempt {α : Type} : Outcome α → Outcome (Option α)
  | .ok a => .ok (some a)
  | .throws => .ok none
  | .ub => .ub
  | .diverges => .diverges

/-- The second parse, with items, api.cpp:89-120. -/
def fill (f : Freq) (str classStr : Str) : Outcome Freq :=
  match f with
  | .listS _ => do pure (.listS (← FL.parseListS str classStr))
  | .listD _ => do pure (.listD (← FL.parseListD str classStr))
  | f => .ok f

/-- `LDT_FrequencyCreate` up to the allocation, api.cpp:80-124: what is written to `freqClass` and the frequency. -/
def createBody (str classStr : Str) : Outcome (Option FClass × Option Freq) := do
  match ← attempt (parse str classStr) with
  | none => pure (none, none)
  | some f =>
    let k ← getClass classStr
    let g ← attempt (fill f str classStr)
    pure (some k, g)

/-- `ToClassString(true)` of every subclass: only lists print more, src/frequency/f_list.cpp:134-157. -/
def classStrD : Freq → Outcome Str
  | .listS f => FL.classStrDetails "Ls".toList id f
  | .listD f => FL.classStrDetails "Ld".toList toIso f
  | f => f.classStr

/-- `std::strcpy` to a buffer; undefined behaviour if it is too small. -/
def strcpy (buf s : Str) : Outcome Str :=
  if s.length + 1 ≤ buf.length then .ok (s ++ Char.ofNat 0 :: buf.drop (s.length + 1)) else .ub

/-- `reqLength`, api.cpp:149. -/
def required (s c : Str) : Int := max s.length c.length + 1

/-- The part of `LDT_FrequencyToString` after the texts are made, api.cpp:149-158. -/
def putTexts (k : FClass) (s c b1 b2 : Str) (len : Int) : Outcome Answer :=
  if len < required s c then .ok (.text (required s c) none [b1, b2])
  else do
    let x ← strcpy b1 s
    let y ← strcpy b2 c
    pure (.text len (some k) [x, y])

/-- The part of `LDT_FrequencyToString0` after the text is made, api.cpp:167-173. -/
def putText (s b : Str) (len : Int) : Outcome Answer :=
  if len < (s.length : Int) + 1 then .ok (.text ((s.length : Int) + 1) none [b])
  else do pure (.text len none [← strcpy b s])

/-- A new object, and a new vector for its items. -/
def Heap.alloc (h : Heap) (f : Freq) : Heap × ℕ :=
  match itemsOf f with
  | none => (⟨Function.update h.cells h.fresh (some ⟨bare f, none⟩), h.lists, h.fresh + 1⟩, h.fresh)
  | some it => (⟨Function.update h.cells h.fresh (some ⟨bare f, some h.fresh⟩), Function.update h.lists h.fresh (some it), h.fresh + 1⟩, h.fresh)

/-- One call, api.cpp:80-205; the last component tells whether the message of the last error is set. `Clone`, src/frequency/f_list.cpp:32-34, copies the pointer to the items. -/
def Heap.step (h : Heap) : Call → Outcome (Heap × Answer × Bool)
  | .create s c => do
    match ← createBody s c with
    | (k, none) => pure (h, .handle none k, true)
    | (k, some f) => pure ((h.alloc f).1, .handle (some (h.alloc f).2) k, false)
  | .copy p => do
    let c ← h.fetch p
    pure (⟨Function.update h.cells h.fresh (some c.2), h.lists, h.fresh + 1⟩, .handle (some h.fresh) none, false)
  | .next p n => do
    let c ← h.fetch p
    let f ← h.load c.2
    match ← attempt (f.next n) with
    | none => pure (h, .done, true)
    | some g => pure ({ h with cells := Function.update h.cells c.1 (some ⟨bare g, c.2.ptr⟩) }, .done, false)
  | .toString p b1 b2 len => do
    let c ← h.fetch p
    match ← attempt c.2.obj.toStr with
    | none => pure (h, .text len none [b1, b2], true)
    | some s =>
      let f ← h.load c.2
      match ← attempt (classStrD f) with
      | none => pure (h, .text len none [b1, b2], true)
      | some k => do
        let a ← putTexts c.2.obj.cls s k b1 b2 len
        pure (h, a, false)
  | .toString0 p b len => do
    let c ← h.fetch p
    match ← attempt c.2.obj.toStr with
    | none => pure (h, .text len none [b], true)
    | some s => do
      let a ← putText s b len
      pure (h, a, false)
  | .minus p q => do
    let c ← h.fetch p
    let d ← h.fetch q
    match ← attempt (checkClassEquality c.2.obj d.2.obj) with
    | none => pure (h, .num (-1), true)
    | some _ =>
      let f ← h.load c.2
      let g ← h.load d.2
      match ← attempt (f.minus g) with
      | none => pure (h, .num (-1), true)
      | some n => pure (h, .num n, false)
  | .dispose none => pure (h, .done, false)
  | .dispose (some p) => do
    let c ← h.fetch (some p)
    match isList c.2.obj, c.2.ptr with
    | true, some a =>
      match h.lists a with
      | none => .ub
      | some _ => pure ({ h with cells := Function.update h.cells p none, lists := Function.update h.lists a none }, .done, false)
    | _, _ => pure ({ h with cells := Function.update h.cells p none }, .done, false)

/-- A history of calls: the memory at the end and what the caller sees. -/
def Heap.run (h : Heap) : List Call → Outcome (Heap × List (Answer × Bool))
  | [] => .ok (h, [])
  | c :: cs => do
    let r ← h.step c
    let q ← r.1.run cs
    pure (q.1, r.2 :: q.2)

end Fh
end LDT
