import Verif.CtorDtor
import Verif.SpanAssert
/-
The functions of /repo/src/c4/ctor_dtor.hpp with their assertions, and with sizes of the integer type `t` (the template parameter `I`), which may be negative.  What is done
after the assertions is in `CtorDtor`.
-/
namespace C4

variable {α : Type}

/-- A sum or difference of two values of type `t` (it has the promoted type); undefined if that is signed and overflows. -/
def ITy.calc (t : ITy) (x : Int) : Res Int := if (t.arith x).2 then .ub else .ok (t.arith x).1

/-- `make_room(buf, bufsz, room)` (/repo/src/c4/ctor_dtor.hpp:303-336). -/
def makeRoomD (m : Slots α) (b : Nat) (bufsz room : Int) (triv : Bool) : Res (Slots α) := do
  assertThat (bufsz ≥ 0 ∧ room ≥ 0)
  makeRoom m b bufsz.toNat room.toNat triv

/-- `make_room(buf, bufsz, currsz, pos, room)` (/repo/src/c4/ctor_dtor.hpp:339-347).  Simplification: types narrower than `int` are modelled too, but with them the call of the
other function does not compile (its arguments have different types). -/
def makeRoomPosD (t : ITy) (m : Slots α) (b : Nat) (bufsz currsz pos room : Int) (triv : Bool) : Res (Slots α) := do
  assertThat (pos ≥ 0 ∧ pos ≤ currsz)
  assertThat (currsz ≤ bufsz)
  let sum ← t.calc (room + currsz)
  assertThat (sum ≤ bufsz)
  let left ← t.calc (currsz - pos)
  makeRoomD m (b + pos.toNat) left room triv

/-- `make_room(dst, src, srcsz, room, pos)` (/repo/src/c4/ctor_dtor.hpp:351-375). -/
def makeRoomToD (m : Slots α) (src : List (Cell α)) (srcsz room pos : Int) (triv : Bool) : Res (Slots α) := do
  assertThat (srcsz ≥ 0 ∧ room ≥ 0 ∧ pos ≥ 0)
  assertThat (pos < srcsz ∨ (pos = 0 ∧ srcsz = 0))
  makeRoomTo m src srcsz.toNat room.toNat pos.toNat triv

/-- `make_room(dst, dstsz, src, srcsz, room, pos)` (/repo/src/c4/ctor_dtor.hpp:377-390). -/
def makeRoomToSizedD (t : ITy) (m : Slots α) (dstsz : Int) (src : List (Cell α)) (srcsz room pos : Int) (triv : Bool) : Res (Slots α) := do
  assertThat ((pos ≥ 0 ∧ pos < srcsz) ∨ (srcsz = 0 ∧ pos = 0))
  assertThat ((pos ≥ 0 ∧ pos < dstsz) ∨ (dstsz = 0 ∧ pos = 0))
  let sum ← t.calc (srcsz + room)
  assertThat (sum ≤ dstsz)
  makeRoomToD m src srcsz room pos triv

/-- `destroy_room(buf, n, room)` (/repo/src/c4/ctor_dtor.hpp:395-429). -/
def destroyRoomD (m : Slots α) (b : Nat) (n room : Int) (triv : Bool) : Res (Slots α) := do
  assertThat (n ≥ 0 ∧ room ≥ 0)
  assertThat (room ≤ n)
  destroyRoom m b n.toNat room.toNat triv

/-- `destroy_room(dst, src, n, room, pos)` (/repo/src/c4/ctor_dtor.hpp:432-458). -/
def destroyRoomToD (t : ITy) (m : Slots α) (src : List (Cell α)) (n room pos : Int) (triv : Bool) : Res (Slots α) := do
  assertThat (n ≥ 0 ∧ room ≥ 0 ∧ pos ≥ 0)
  assertThat (pos < n)
  let sum ← t.calc (pos + room)
  assertThat (sum ≤ n)
  destroyRoomTo m src n.toNat room.toNat pos.toNat triv

/-- `copy_construct_n`, `copy_assign_n`, `move_construct_n` and `move_assign_n` with a source (/repo/src/c4/ctor_dtor.hpp:93-107, 159-173, 225-239, 256-270). -/
inductive NCall
  | copyConstruct | copyAssign | moveConstruct | moveAssign
deriving DecidableEq, Repr

/-- The function without its assertion. -/
def NCall.run (m : Slots α) (d s n : Nat) (triv : Bool) : NCall → Res (Slots α)
  | .copyConstruct => copyConstructN m d s n triv
  | .copyAssign => copyAssignN m d s n triv
  | .moveConstruct => moveConstructN m d s n triv
  | .moveAssign => moveAssignN m d s n triv

/-- The function with its assertion. -/
def NCall.runD (m : Slots α) (d s n : Nat) (triv : Bool) (c : NCall) : Res (Slots α) := do
  assertThat (d ≠ s)
  c.run m d s n triv

end C4
