import Verif.Model.NelderMead
import Mathlib.Algebra.Order.Field.Basic
/-!
# What a Nelder-Mead search promises

`Bad` and `Inside` speak of a starting point and its bounds, `clamped` is the nearest point of the box, `score` is what is minimised: the
objective plus the squared distances to the box times the multiplier.
-/
namespace LDT
namespace Op

variable {K : Type} [LinearOrder K]

/-- The bound of coordinate `i`, if there is one. -/
def bound (b : Option (List (Dbl K))) (i : Nat) : Option (Dbl K) := b.bind fun l => l[i]?

/-- The starting point is refused. -/
def Bad (lower upper : Option (List (Dbl K))) (x : List (Dbl K)) : Prop :=
  ∃ i < x.length, x[i]? = some .nan ∨ ∃ l u, bound lower i = some l ∧ bound upper i = some u ∧ u.lt l = true

/-- Coordinate `v` moved to the nearest value between the bounds. -/
def nearest (l u : Option (Dbl K)) (v : Dbl K) : Dbl K :=
  let v := match l with | some l => if v.lt l then l else v | none => v
  match u with | some u => if u.lt v then u else v | none => v

/-- The nearest point of the box. -/
def clamped (lower upper : Option (List (Dbl K))) (x : List (Dbl K)) : List (Dbl K) :=
  x.mapIdx fun i v => nearest (bound lower i) (bound upper i) v

/-- No coordinate is below its lower or above its upper bound. -/
def Inside (lower upper : Option (List (Dbl K))) (x : List (Dbl K)) : Prop :=
  ∀ i v, x[i]? = some v → (∀ l, bound lower i = some l → v.lt l = false) ∧ ∀ u, bound upper i = some u → u.lt v = false

/-- How far `v` is outside the bounds (nothing if it is not outside). -/
def excess (o : Ops K) (l u : Option (Dbl K)) (v : Dbl K) : Option (Dbl K) :=
  match l with
  | some l' => if v.lt l' then some (o.sub l' v)
    else match u with | some u => if u.lt v then some (o.sub v u) else none | none => none
  | none => match u with | some u => if u.lt v then some (o.sub v u) else none | none => none

/-- What is minimised. -/
def score (o : Ops K) (objective : List (Dbl K) → Option (Dbl K)) (mult : Dbl K) (lower upper : Option (List (Dbl K)))
    (x : List (Dbl K)) : Dbl K :=
  match objective x with
  | none => .pinf
  | some v => o.add v (o.mul mult
    (((x.mapIdx fun i v => excess o (bound lower i) (bound upper i) v).reduceOption.map o.sq).foldl o.add (o.ofInt 0)))

/-- The bounds, where they are given, have a value for each coordinate. -/
def Long (b : Option (List (Dbl K))) (n : Nat) : Prop := ∀ l, b = some l → n ≤ l.length

/-- `x` with one added to coordinate `i`. -/
def bumped (o : Ops K) (x : List (Dbl K)) (i : Nat) : List (Dbl K) := x.modify i fun v => o.add v (o.ofInt 1)

/-- `b` is not worse than `a`: `a` is missing or `b ≤ a`. -/
def NotWorse (b a : Dbl K) : Prop := a = .nan ∨ b.le a = true

/-- Exact arithmetic (with the infinities treated as IEEE does). -/
def exact {K : Type} [Field K] [LinearOrder K] : Ops K where
  add
    | .num a, .num b => .num (a + b)
    | .num _, .pinf => .pinf
    | .pinf, .num _ => .pinf
    | .pinf, .pinf => .pinf
    | .num _, .ninf => .ninf
    | .ninf, .num _ => .ninf
    | .ninf, .ninf => .ninf
    | _, _ => .nan
  sub
    | .num a, .num b => .num (a - b)
    | .num _, .pinf => .ninf
    | .pinf, .num _ => .pinf
    | .pinf, .ninf => .pinf
    | .num _, .ninf => .pinf
    | .ninf, .num _ => .ninf
    | .ninf, .pinf => .ninf
    | _, _ => .nan
  mul
    | .num a, .num b => .num (a * b)
    | .num a, .pinf => if 0 < a then .pinf else if a < 0 then .ninf else .nan
    | .num a, .ninf => if 0 < a then .ninf else if a < 0 then .pinf else .nan
    | .pinf, .num a => if 0 < a then .pinf else if a < 0 then .ninf else .nan
    | .ninf, .num a => if 0 < a then .ninf else if a < 0 then .pinf else .nan
    | .pinf, .pinf => .pinf
    | .ninf, .ninf => .pinf
    | .pinf, .ninf => .ninf
    | .ninf, .pinf => .ninf
    | _, _ => .nan
  div
    | .num a, .num b => if b = 0 then (if 0 < a then .pinf else if a < 0 then .ninf else .nan) else .num (a / b)
    | .num _, .pinf => .num 0
    | .num _, .ninf => .num 0
    | .pinf, .num b => if b < 0 then .ninf else .pinf
    | .ninf, .num b => if b < 0 then .pinf else .ninf
    | _, _ => .nan
  abs
    | .num a => .num (if a < 0 then -a else a)
    | .pinf => .pinf
    | .ninf => .pinf
    | .nan => .nan
  sq
    | .num a => .num (a * a)
    | .pinf => .pinf
    | .ninf => .pinf
    | .nan => .nan
  ofInt n := .num (n : K)

end Op
end LDT
