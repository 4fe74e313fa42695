import Verif.Model.Basic
/-!
# Text helpers: `include/helpers.h`, `src/helpers.cpp` and the parts of the C++ standard library they use

`std::string` is modelled as `List Char`.
-/
namespace LDT
namespace Text

/-- A C++ string. -/
abbrev Str := List Char

/-- Decimal digit character of `d < 10` (part of `std::to_string`). -/
def digit (d : Nat) : Char := Char.ofNat (48 + d)

/-- Decimal digits of `n`, with recursion fuel (part of `std::to_string`). -/
def decAux : Nat → Nat → Str
  | 0, n => [digit (n % 10)]
  | fuel + 1, n => if n < 10 then [digit n] else decAux fuel (n / 10) ++ [digit (n % 10)]

/-- Decimal digits of a natural number, most significant first (`std::to_string`). -/
def dec (n : Nat) : Str := decAux n n

/-- `std::to_string(int)`; used at src/frequency/f_year_based.cpp:192-201, f_cross_section.cpp:54. -/
def toStr (i : Int) : Str := if i < 0 then '-' :: dec i.natAbs else dec i.toNat

/-- ASCII decimal digit test. -/
def isDig (c : Char) : Bool := 48 ≤ c.toNat && c.toNat ≤ 57

/-- `std::isspace` in the C locale (leading white space is skipped by `std::stoi`). -/
def isSpace (c : Char) : Bool := c.toNat == 32 || (9 ≤ c.toNat && c.toNat ≤ 13)

/-- Value of a digit list (part of `std::stoi`). -/
def digVal (s : Str) : Nat := s.foldl (fun a c => a * 10 + (c.toNat - 48)) 0

/-- Optional sign at the front of a number (part of `std::stoi`): is it negative, and the rest. -/
def signOf (s : Str) : Bool × Str :=
  if s.head? = some '-' then (true, s.tail)
  else if s.head? = some '+' then (false, s.tail)
  else (false, s)

/-- `std::stoi(str, nullptr, 10)`: skips white space, reads an optional sign and the longest run of
digits, ignores the rest; throws when there is no digit or the value does not fit a 32-bit `int`.
Used at src/frequency/f_year_based.cpp:147-170, f_cross_section.cpp:41, f_week_based.cpp:178. -/
def stoi (s : Str) : Outcome Int :=
  let s := s.dropWhile isSpace
  let p := signOf s
  let ds := p.2.takeWhile isDig
  if ds = [] then .throws
  else
    let v : Int := if p.1 then -(digVal ds : Int) else digVal ds
    if -2147483648 ≤ v ∧ v ≤ 2147483647 then .ok v else .throws

/-- `SplitMultiple(str, delims, result)`, include/helpers.h:176-187: cuts at every character that
occurs in `delims`; the parts are appended to `result` (here: returned). -/
def splitMultiple (delims : Str) : Str → List Str
  | [] => [[]]
  | c :: cs =>
    if c ∈ delims then [] :: splitMultiple delims cs
    else
      match splitMultiple delims cs with
      | [] => [[c]]
      | p :: ps => (c :: p) :: ps

/-- `Join(values, delimiter, fun)`, include/helpers.h:194-200 (`boost::algorithm::join`). -/
def join (delim : Str) : List Str → Str
  | [] => []
  | [x] => x
  | x :: y :: r => x ++ delim ++ join delim (y :: r)

/-- `StartsWith(code, str)`, src/helpers.cpp:11-13: `str` begins with `code`. -/
def startsWith (code str : Str) : Bool := code.isPrefixOf str

/-- `EndsWith(code, str)`, src/helpers.cpp:15-17: `str` ends with `code`. -/
def endsWith (code str : Str) : Bool := code.isSuffixOf str

/-- `AreEqual_i`, src/helpers.cpp:19-21 (`boost::iequals`, ASCII case folding). -/
def areEqualI (a b : Str) : Bool := a.map Char.toLower == b.map Char.toLower

/-- `IndexOf`, include/helpers.h:207-214: first index or -1. -/
def indexOf {α : Type} [DecidableEq α] (l : List α) (x : α) : Int :=
  match l with
  | [] => -1
  | y :: ys => if y = x then 0 else (let r := indexOf ys x; if r = -1 then -1 else r + 1)

/-- `std::vector::at(i)`: throws when out of range. -/
def at? {α : Type} (l : List α) (i : Nat) : Outcome α := Outcome.ofOption l[i]?

/-- `std::string::substr(pos)` / `substr(pos, npos)`: throws `out_of_range` when `pos > size()`. -/
def substr (s : Str) (pos : Nat) : Outcome Str :=
  if pos ≤ s.length then .ok (s.drop pos) else .throws

end Text
end LDT
