import Verif.Substr.View
import Verif.SpanAssert
/-
Model of the assertions of the functions of views in builds with assertions: what a call asserts of its arguments, and of the view that it
constructs (/repo/src/c4/substr.hpp:142, 212-219, 322-440, 2009-2090).  The same functions without assertions are in `Substr/View.lean` and
`Substr/Mutate.lean`.
-/
namespace C4

/-- A call of a function of a view that asserts its arguments. -/
inductive ViewCall where
  | item (i : Nat)
  | front
  | back
  | sub1 (first : Nat)
  | sub2 (first num : Nat)
  | range (first last : Nat)
  | first (num : Nat)
  | last (num : Nat)
  | offs (left right : Nat)
  | leftOf (pos : Nat)
  | leftOfInc (pos : Nat) (inc : Bool)
  | rightOf (pos : Nat)
  | rightOfInc (pos : Nat) (inc : Bool)
  | leftOfSub (subs : View)
  | rightOfSub (subs : View)
  | searchFrom (start : Nat)
  | countFrom (pos : Nat)
  | copyFrom (thatLen ifirst num : Nat)
  | reverseSub (ifirst num : Nat)
  | reverseRange (ifirst ilast : Nat)
  | erase (pos num : Nat)
  | eraseRange (first last : Nat)
  | eraseSub (subs : View)
  deriving DecidableEq, Repr

/-- `a + b` on `size_t`. -/
def szAdd (a b : Nat) : Nat := (a + b) % 2 ^ 64

/-- `empty()` (/repo/src/c4/substr.hpp:195). -/
def View.empty (v : View) : Bool := v.len == 0 || v.str == 0

/-- The constructor from a pointer and a length, with its assertion (/repo/src/c4/substr.hpp:142). -/
def View.make (str len : Nat) : Res View := do
  assertThat (str ≠ 0 ∨ len = 0)
  pure ⟨str, len⟩

namespace View

/-- `sub(first)` (/repo/src/c4/substr.hpp:322-326). -/
def sub1D (v : View) (first : Nat) : Res View := do
  assertThat (first ≤ v.len)
  make (v.str + first) (szSub v.len first)

/-- `sub(first, num)` (/repo/src/c4/substr.hpp:329-336). -/
def sub2D (v : View) (first num : Nat) : Res View := do
  assertThat (first ≤ v.len)
  assertThat (num ≤ v.len ∨ num = NPOS)
  let rnum := if num ≠ NPOS then num else szSub v.len first
  assertThat (szAdd first rnum ≤ v.len ∨ num = 0)
  make (v.str + first) rnum

/-- `range(first, last)` (/repo/src/c4/substr.hpp:339-346). -/
def rangeD (v : View) (first last : Nat) : Res View := do
  assertThat (first ≤ v.len)
  let last := if last ≠ NPOS then last else v.len
  assertThat (first ≤ last)
  assertThat (last ≤ v.len)
  make (v.str + first) (szSub last first)

/-- `first(num)` (/repo/src/c4/substr.hpp:349-353). -/
def firstD (v : View) (num : Nat) : Res View := do
  assertThat (num ≤ v.len ∨ num = NPOS)
  make v.str (if num ≠ NPOS then num else v.len)

/-- `last(num)` (/repo/src/c4/substr.hpp:356-362). -/
def lastD (v : View) (num : Nat) : Res View := do
  assertThat (num ≤ v.len ∨ num = NPOS)
  if num ≠ NPOS then make (v.str + v.len - num) num else pure v

/-- `offs(left, right)` (/repo/src/c4/substr.hpp:367-373). -/
def offsD (v : View) (left right : Nat) : Res View := do
  assertThat (left ≤ v.len)
  assertThat (right ≤ v.len)
  assertThat (left ≤ szAdd (szSub v.len right) 1)
  make (v.str + left) (szSub (szSub v.len right) left)

/-- `left_of(pos)` (/repo/src/c4/substr.hpp:376-382). -/
def leftOfD (v : View) (pos : Nat) : Res View := do
  assertThat (pos ≤ v.len ∨ pos = NPOS)
  if pos ≠ NPOS then make v.str pos else pure v

/-- `left_of(pos, include_pos)` (/repo/src/c4/substr.hpp:385-391). -/
def leftOfIncD (v : View) (pos : Nat) (inc : Bool) : Res View := do
  assertThat (pos ≤ v.len ∨ pos = NPOS)
  if pos ≠ NPOS then make v.str (szAdd pos inc.toNat) else pure v

/-- `right_of(pos)` (/repo/src/c4/substr.hpp:394-400). -/
def rightOfD (v : View) (pos : Nat) : Res View := do
  assertThat (pos ≤ v.len ∨ pos = NPOS)
  if pos ≠ NPOS then make (v.str + (pos + 1)) (szSub v.len (pos + 1)) else make (v.str + v.len) 0

/-- `right_of(pos, include_pos)` (/repo/src/c4/substr.hpp:403-409). -/
def rightOfIncD (v : View) (pos : Nat) (inc : Bool) : Res View := do
  assertThat (pos ≤ v.len ∨ pos = NPOS)
  if pos ≠ NPOS then make (v.str + (pos + (!inc).toNat)) (szSub v.len (pos + (!inc).toNat)) else make (v.str + v.len) 0

/-- `left_of(subs)` (/repo/src/c4/substr.hpp:415-425). -/
def leftOfSubD (v subs : View) : Res View := do
  assertThat (v.isSuper subs = true ∨ subs.empty = true)
  if subs.str ≥ v.str ∧ subs.str ≤ v.str + v.len then v.sub2D 0 (subs.str - v.str) else v.sub2D 0 0

/-- `right_of(subs)` (/repo/src/c4/substr.hpp:429-439). -/
def rightOfSubD (v subs : View) : Res View := do
  assertThat (v.isSuper subs = true ∨ subs.empty = true)
  let sse := subs.str + subs.len
  if sse ≥ v.str ∧ sse ≤ v.str + v.len then v.sub2D (sse - v.str) (v.str + v.len - sse) else v.sub2D 0 0

/-- `erase(pos, num)` (/repo/src/c4/substr.hpp:2060-2066): the assertion and the view returned. -/
def eraseD (v : View) (pos num : Nat) : Res View := do
  assertThat (szAdd pos num ≤ v.len)
  make v.str (szSub v.len num)

/-- The call in a build with assertions: the view it returns; `v` itself where the function returns a character, a position or nothing.
`operator[]`, `front`, `back` (/repo/src/c4/substr.hpp:212-219), `find`, `first_of`, `last_of`, `last_not_of` and `replace` from a position
(539, 788, 800, 814, 829, 878, 955, 2092, 2109), `count` and `first_not_of` from a position (566, 580, 857, 912), `copy_from` (2011-2023),
`reverse_sub` (2037-2043), `reverse_range` (2047-2053), `erase` (2060-2083). -/
def call (v : View) : ViewCall → Res View
  | .item i => do assertThat (i < v.len); pure v
  | .front => do assertThat (v.len > 0 ∧ v.str ≠ 0); pure v
  | .back => do assertThat (v.len > 0 ∧ v.str ≠ 0); pure v
  | .sub1 f => v.sub1D f
  | .sub2 f n => v.sub2D f n
  | .range f l => v.rangeD f l
  | .first n => v.firstD n
  | .last n => v.lastD n
  | .offs l r => v.offsD l r
  | .leftOf p => v.leftOfD p
  | .leftOfInc p i => v.leftOfIncD p i
  | .rightOf p => v.rightOfD p
  | .rightOfInc p i => v.rightOfIncD p i
  | .leftOfSub s => v.leftOfSubD s
  | .rightOfSub s => v.rightOfSubD s
  | .searchFrom start => do assertThat (start = NPOS ∨ start ≤ v.len); pure v
  | .countFrom pos => do assertThat (pos ≤ v.len); pure v
  | .copyFrom n ifirst num => do
    assertThat (ifirst ≤ v.len)
    let num := if num ≠ NPOS then num else szSub v.len ifirst
    let num := if num < n then num else n
    assertThat (szAdd ifirst num ≤ v.len)
    pure v
  | .reverseSub ifirst num => do
    assertThat (ifirst ≤ v.len)
    assertThat (szAdd ifirst num ≤ v.len)
    pure v
  | .reverseRange ifirst ilast => do
    assertThat (ifirst ≤ v.len)
    assertThat (ilast ≤ v.len)
    pure v
  | .erase pos num => v.eraseD pos num
  | .eraseRange f l => do
    assertThat (f ≤ l)
    v.eraseD f (szSub l f)
  | .eraseSub s => do
    assertThat (v.isSuper s = true)
    assertThat (s.str ≥ v.str)
    v.eraseD (s.str - v.str) s.len

end View
end C4
