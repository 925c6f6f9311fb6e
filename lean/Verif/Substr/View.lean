import Verif.Basic
/-
Model of the sub-view selectors of `basic_substring` (/repo/src/c4/substr.hpp:292-439).  Here the address
matters, so a view is a pair of an address and a length; address 0 is the null pointer.  Lengths are `size_t`
and are computed modulo 2^64; addresses are natural numbers (pointer arithmetic is not wrapped).
-/
namespace C4

/-- `basic_substring`: members `str` and `len` (/repo/src/c4/substr.hpp:78-82). -/
structure View where
  str : Nat
  len : Nat
  deriving DecidableEq, Repr

/-- `npos` as a number (/repo/src/c4/substr.hpp: `npos = size_t(-1)`). -/
def NPOS : Nat := 2 ^ 64 - 1

/-- `a - b` on `size_t`. -/
def szSub (a b : Nat) : Nat := (a + 2 ^ 64 - b) % 2 ^ 64

/-- The characters seen through a view, in a memory `m`. -/
def View.chars (m : Nat → Nat) (v : View) : List Nat := (List.range v.len).map fun i => m (v.str + i)

namespace View

/-- `sub(first)` (/repo/src/c4/substr.hpp:322-326). -/
def sub1 (v : View) (first : Nat) : View := ⟨v.str + first, szSub v.len first⟩

/-- `sub(first, num)` (/repo/src/c4/substr.hpp:329-336). -/
def sub2 (v : View) (first num : Nat) : View :=
  ⟨v.str + first, if num ≠ NPOS then num else szSub v.len first⟩

/-- `range(first, last)` (/repo/src/c4/substr.hpp:339-346). -/
def range (v : View) (first last : Nat) : View :=
  let last := if last ≠ NPOS then last else v.len
  ⟨v.str + first, szSub last first⟩

/-- `first(num)` (/repo/src/c4/substr.hpp:349-353). -/
def first (v : View) (num : Nat) : View := ⟨v.str, if num ≠ NPOS then num else v.len⟩

/-- `last(num)` (/repo/src/c4/substr.hpp:356-362). -/
def last (v : View) (num : Nat) : View :=
  if num ≠ NPOS then ⟨v.str + v.len - num, num⟩ else v

/-- `offs(left, right)` (/repo/src/c4/substr.hpp:367-373). -/
def offs (v : View) (left right : Nat) : View := ⟨v.str + left, szSub (szSub v.len right) left⟩

/-- `left_of(pos)` (/repo/src/c4/substr.hpp:376-382). -/
def leftOf (v : View) (pos : Nat) : View := if pos ≠ NPOS then ⟨v.str, pos⟩ else v

/-- `left_of(pos, include_pos)` (/repo/src/c4/substr.hpp:385-391). -/
def leftOfInc (v : View) (pos : Nat) (inc : Bool) : View :=
  if pos ≠ NPOS then ⟨v.str, (pos + inc.toNat) % 2 ^ 64⟩ else v

/-- `right_of(pos)` (/repo/src/c4/substr.hpp:394-400). -/
def rightOf (v : View) (pos : Nat) : View :=
  if pos ≠ NPOS then ⟨v.str + (pos + 1), szSub v.len (pos + 1)⟩ else ⟨v.str + v.len, 0⟩

/-- `right_of(pos, include_pos)` (/repo/src/c4/substr.hpp:403-409). -/
def rightOfInc (v : View) (pos : Nat) (inc : Bool) : View :=
  if pos ≠ NPOS then ⟨v.str + (pos + (!inc).toNat), szSub v.len (pos + (!inc).toNat)⟩
  else ⟨v.str + v.len, 0⟩

/-- `left_of(subs)` (/repo/src/c4/substr.hpp:415-425). -/
def leftOfSub (v subs : View) : View :=
  if subs.str ≥ v.str ∧ subs.str ≤ v.str + v.len then v.sub2 0 (subs.str - v.str) else v.sub2 0 0

/-- `right_of(subs)` (/repo/src/c4/substr.hpp:429-439). -/
def rightOfSub (v subs : View) : View :=
  let sse := subs.str + subs.len
  if sse ≥ v.str ∧ sse ≤ v.str + v.len then v.sub2 (sse - v.str) (v.str + v.len - sse) else v.sub2 0 0

/-- `is_super(that)` (/repo/src/c4/substr.hpp:304-310). -/
def isSuper (v that : View) : Bool :=
  if v.len > 0 then that.str ≥ v.str && that.str + that.len ≤ v.str + v.len
  else that.len == 0 && that.str == v.str && v.str != 0

/-- `is_sub(that)` (/repo/src/c4/substr.hpp:298-301). -/
def isSub (v that : View) : Bool := that.isSuper v

/-- `overlaps(that)` (/repo/src/c4/substr.hpp:313-317). -/
def overlaps (v that : View) : Bool := that.str + that.len > v.str && that.str < v.str + v.len

end View
end C4
