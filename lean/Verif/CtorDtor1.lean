import Verif.CtorDtor
/-
The rest of /repo/src/c4/ctor_dtor.hpp: the functions for one object, for scalars passed by value and for arrays, and the functions for n
objects whose constructor or assignment throws.
-/
namespace C4

variable {α : Type}

/-! ### One object -/

/-- `construct(ptr)` (/repo/src/c4/ctor_dtor.hpp:20-30): `memset` for trivial types, `U()` for others.  `zero` is the value. -/
def construct1 (m : Slots α) (zero : α) (d : Nat) (triv : Bool) : Res (Slots α) :=
  if triv then
    if d < m.cells.length then .ok ⟨m.cells.take d ++ [.live zero] ++ m.cells.drop (d + 1), m.dropped⟩ else .ub
  else m.begin d (.live zero)

/-- `construct(ptr, args...)` (/repo/src/c4/ctor_dtor.hpp:57-61). -/
def construct1Args (m : Slots α) (v : α) (d : Nat) : Res (Slots α) := m.begin d (.live v)

/-- `copy_construct(dst, src)` (/repo/src/c4/ctor_dtor.hpp:81-92), and with a reference for types that are not scalar (lines 114-119). -/
def copyConstruct1 (m : Slots α) (d s : Nat) (triv : Bool) : Res (Slots α) := if triv then m.memcpy d s 1 else m.copyConstruct d s

/-- `copy_assign(dst, src)` (/repo/src/c4/ctor_dtor.hpp:147-158), and with a reference for types that are not scalar (lines 180-185). -/
def copyAssign1 (m : Slots α) (d s : Nat) (triv : Bool) : Res (Slots α) := if triv then m.memcpy d s 1 else m.copyAssign d s

/-- `move_construct(dst, src)` (/repo/src/c4/ctor_dtor.hpp:213-224). -/
def moveConstruct1 (m : Slots α) (d s : Nat) (triv : Bool) : Res (Slots α) := if triv then m.memcpy d s 1 else m.moveConstruct d s

/-- `move_assign(dst, src)` (/repo/src/c4/ctor_dtor.hpp:244-255). -/
def moveAssign1 (m : Slots α) (d s : Nat) (triv : Bool) : Res (Slots α) := if triv then m.memcpy d s 1 else m.moveAssign d s

/-- `destroy(ptr)` (/repo/src/c4/ctor_dtor.hpp:275-284). -/
def destroy1 (m : Slots α) (d : Nat) (triv : Bool) : Res (Slots α) := if triv then .ok m else m.destroy d

/-! ### Scalars by value -/

/-- `dst[i] = v` for a scalar: the value is stored whether or not there was an object. -/
def Slots.storeScalar (m : Slots α) (d : Nat) (v : α) : Res (Slots α) :=
  if d < m.cells.length then .ok ⟨m.cells.set d (.live v), m.dropped⟩ else .ub

/-- The argument `U src`, read from an element of the memory (passed by value). -/
def Slots.load (m : Slots α) (s : Nat) : Res α :=
  match m.cells[s]? with
  | some (.live v) => .ok v
  | _ => .ub

/-- `copy_construct(dst, value)` and `copy_assign(dst, value)` for scalars, with the value of the element at `s`
(/repo/src/c4/ctor_dtor.hpp:109-113, 175-179). -/
def scalarStore1 (m : Slots α) (d s : Nat) : Res (Slots α) := do
  let v ← m.load s
  m.storeScalar d v

/-- `copy_construct_n(dst, value, n)` and `copy_assign_n(dst, value, n)` for scalars, with the value of the element at `s`
(/repo/src/c4/ctor_dtor.hpp:120-127, 186-193). -/
def scalarFillN (m : Slots α) (d s n : Nat) : Res (Slots α) := do
  let v ← m.load s
  forN n (fun i m => m.storeScalar (d + i) v) m

/-! ### Sized buffers -/

/-- `make_room(dst, dstsz, src, srcsz, room, pos)` (/repo/src/c4/ctor_dtor.hpp:377-390), with assertions (`none`: one fails). -/
def makeRoomToSized (m : Slots α) (dstsz : Nat) (src : List (Cell α)) (srcsz room pos : Nat) (triv : Bool) : Option (Res (Slots α)) :=
  if (pos < srcsz ∨ (srcsz = 0 ∧ pos = 0)) ∧ (pos < dstsz ∨ (dstsz = 0 ∧ pos = 0)) ∧ srcsz + room ≤ dstsz
  then some (makeRoomTo m src srcsz room pos triv) else none

/-! ### Zeros and default values

The bytes of a trivial type, as a list of scalars with their sizes; a pointer to a data member is null if all its bits are set (the C++ ABI
used by gcc and clang), every other scalar is zero or null if all its bits are clear. -/

/-- A scalar part of a type. -/
structure ScalarPart where
  size : Nat
  memberPtr : Bool
deriving DecidableEq, Repr

/-- The bytes of `U()`, the value-initialized object, for a type without padding. -/
def valueInitBytes (ty : List ScalarPart) : List Nat := ty.flatMap fun p => List.replicate p.size (if p.memberPtr then 255 else 0)

/-- `memset(ptr, 0, n * sizeof(U))` (/repo/src/c4/ctor_dtor.hpp:23, 36). -/
def constructBytes (ty : List ScalarPart) (n : Nat) : List Nat := List.replicate (n * (ty.map (·.size)).sum) 0

/-! ### Exceptions -/

/-- The loop `for(I i = 0; i < n; ++i) f(i)`, from `i` on with `k` iterations left, if `f(i)` throws before it does anything for the `i`
with `throws i`.  Result: the state, and whether an exception left the loop. -/
def forThrow {σ : Type} (f : Nat → σ → Res σ) (throws : Nat → Bool) : Nat → Nat → σ → Res (σ × Bool)
  | 0, _, s => .ok (s, false)
  | k + 1, i, s => if throws i then .ok (s, true) else do
    let s ← f i s
    forThrow f throws k (i + 1) s

/-- A function declared `noexcept`: an exception that would leave it calls `std::terminate`. -/
def noexcept {σ : Type} (r : Res (σ × Bool)) : Res (σ × Bool) := do
  let (s, thrown) ← r
  if thrown then .abort else .ok (s, false)

/-- `construct_n(ptr, n)`, not trivial (/repo/src/c4/ctor_dtor.hpp:39-46): `noexcept`. -/
def constructNT (m : Slots α) (zero : α) (d n : Nat) (throws : Nat → Bool) : Res (Slots α × Bool) :=
  noexcept (forThrow (fun i m => m.begin (d + i) (.live zero)) throws n 0 m)

/-- `construct_n(ptr, n, args...)` (/repo/src/c4/ctor_dtor.hpp:62-69). -/
def constructNArgsT (m : Slots α) (v : α) (d n : Nat) (throws : Nat → Bool) : Res (Slots α × Bool) :=
  forThrow (fun i m => m.begin (d + i) (.live v)) throws n 0 m

/-- `copy_construct_n(dst, src, n)`, not trivial (/repo/src/c4/ctor_dtor.hpp:99-107). -/
def copyConstructNT (m : Slots α) (d s n : Nat) (throws : Nat → Bool) : Res (Slots α × Bool) :=
  forThrow (fun i m => m.copyConstruct (d + i) (s + i)) throws n 0 m

/-- `copy_construct_n(dst, value, n)`, not scalar (/repo/src/c4/ctor_dtor.hpp:128-136). -/
def fillConstructNT (m : Slots α) (d s n : Nat) (throws : Nat → Bool) : Res (Slots α × Bool) :=
  forThrow (fun i m => m.copyConstruct (d + i) s) throws n 0 m

/-- `copy_assign_n(dst, src, n)`, not trivial (/repo/src/c4/ctor_dtor.hpp:165-173): `noexcept`. -/
def copyAssignNT (m : Slots α) (d s n : Nat) (throws : Nat → Bool) : Res (Slots α × Bool) :=
  noexcept (forThrow (fun i m => m.copyAssign (d + i) (s + i)) throws n 0 m)

/-- `move_construct_n(dst, src, n)`, not trivial (/repo/src/c4/ctor_dtor.hpp:231-239): `noexcept`. -/
def moveConstructNT (m : Slots α) (d s n : Nat) (throws : Nat → Bool) : Res (Slots α × Bool) :=
  noexcept (forThrow (fun i m => m.moveConstruct (d + i) (s + i)) throws n 0 m)

/-- `make_room(dst, src, srcsz, room, pos)`, not trivial (/repo/src/c4/ctor_dtor.hpp:359-375); `throws i` is for the element `i` of
`src`. -/
def makeRoomToT (m : Slots α) (src : List (Cell α)) (srcsz room pos : Nat) (throws : Nat → Bool) : Res (Slots α × Bool) := do
  let (m, t) ← forThrow (fun i m => m.copyFrom src i i) throws pos 0 m
  if t then .ok (m, true) else
    forThrow (fun i m => m.copyFrom src (room + pos + i) (pos + i)) (fun i => throws (pos + i)) (srcsz - pos) 0 m

end C4
