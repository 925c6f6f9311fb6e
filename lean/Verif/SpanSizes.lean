import Verif.Small
/-
Model of the sizes and element accesses of spans with any index type, signed ones included
(/repo/src/c4/span.hpp:60-97, 184-193, 312, 407, 487).

A span is an address, counted in elements of the memory `mem`, and a size.  `C4_XASSERT` aborts.
-/
namespace C4

/-- `byte_size()` of a span with index type `t` (/repo/src/c4/span.hpp:63): the product with `sizeof(T)` is computed as `size_t`, and converted to the index type. -/
def spanByteSize (t : ITy) (size : Int) (elem : Nat) : Int := t.wrap ((size * elem) % (2 ^ 64 : Nat))

/-- The size after `assign(arr)`, `arr` an array of `n` elements (/repo/src/c4/span.hpp:312, 407, 487). -/
def spanAssignSize (t : ITy) (n : Nat) : Int := t.wrap n

/-- `same_span(that)` for a span `that` of index type `u` (/repo/src/c4/span.hpp:188-193). -/
def sameSpanOther (t u : ITy) (ptr : Nat) (size : Int) (thatPtr : Nat) (thatSize : Int) : Res Bool :=
  (szconv t u thatSize).bind fun tsz => .ok (size == tsz && ptr == thatPtr)

/-- A read of the element at an address: undefined outside of the memory. -/
def readElem (mem : List Nat) (a : Int) : Res Nat :=
  if a < 0 then .ub else
  match mem[a.toNat]? with
  | some x => .ok x
  | none => .ub

/-- `front()` (/repo/src/c4/span.hpp:90-91). -/
def spanFront (mem : List Nat) (ptr : Nat) (size : Int) : Res Nat :=
  if size == 0 then .abort else readElem mem ptr

/-- `back()` (/repo/src/c4/span.hpp:93-94): the index is computed in the promoted type. -/
def spanBack (t : ITy) (mem : List Nat) (ptr : Nat) (size : Int) : Res Nat :=
  if size == 0 then .abort
  else if (t.arith (size - 1)).2 then .ub
  else readElem mem (ptr + (t.arith (size - 1)).1)

/-- `operator[](i)` (/repo/src/c4/span.hpp:96-97). -/
def spanAt (mem : List Nat) (ptr : Nat) (size i : Int) : Res Nat :=
  if i ≥ 0 ∧ i < size then readElem mem (ptr + i) else .abort

end C4
