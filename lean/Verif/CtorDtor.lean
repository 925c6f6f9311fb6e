import Verif.Basic
/-
Model of /repo/src/c4/ctor_dtor.hpp: construction, copy, move and destruction of ranges of objects.

Memory is a list of slots, each with the size of one object.  Every function exists in a version for trivial types, which moves bytes,
and in one for other types, which calls constructors, assignments and destructors; which one is chosen by `enable_if` is a flag here
(`triv`).  Simplified: index types are unbounded (the assertions demand non-negative sizes that fit the buffer), and constructors do
not throw.
-/
namespace C4

/-- A slot for an object: raw memory, an object with a value, or an object that was moved from (its value is not specified). -/
inductive Cell (α : Type) where
  | raw
  | live (v : α)
  | moved
deriving DecidableEq, Repr

/-- The slots, and the number of objects whose memory was reused without a call of their destructor. -/
structure Slots (α : Type) where
  cells : List (Cell α)
  dropped : Nat
deriving DecidableEq, Repr

variable {α : Type}

/-- The slot holds an object. -/
def Cell.isObj : Cell α → Bool
  | .raw => false
  | _ => true

/-- `for(I i = 0; i < n; ++i) f(i)`, from `i` on with `k` iterations left. -/
def forFrom {σ : Type} (f : Nat → σ → Res σ) : Nat → Nat → σ → Res σ
  | 0, _, s => .ok s
  | k + 1, i, s => do
    let s ← f i s
    forFrom f k (i + 1) s

/-- `for(I i = 0; i < n; ++i) f(i)`. -/
def forN {σ : Type} (n : Nat) (f : Nat → σ → Res σ) (s : σ) : Res σ := forFrom f n 0 s

/-- Begin an object at slot `d` with contents `c`: memory of an object that is there is reused. -/
def Slots.begin (m : Slots α) (d : Nat) (c : Cell α) : Res (Slots α) :=
  match m.cells[d]? with
  | none => .ub
  | some old => .ok ⟨m.cells.set d c, m.dropped + (if old.isObj then 1 else 0)⟩

/-- `new (dst) U(std::move(*src))` (e.g. /repo/src/c4/ctor_dtor.hpp:223, 325): reusing the memory of an object ends its lifetime, so
an object cannot be constructed from itself. -/
def Slots.moveConstruct (m : Slots α) (d s : Nat) : Res (Slots α) :=
  match m.cells[s]? with
  | none | some .raw => .ub
  | some c => if d = s then .ub else do
    let m ← m.begin d c
    .ok ⟨m.cells.set s .moved, m.dropped⟩

/-- `new (dst) U(*src)` (e.g. /repo/src/c4/ctor_dtor.hpp:91, 105). -/
def Slots.copyConstruct (m : Slots α) (d s : Nat) : Res (Slots α) :=
  match m.cells[s]? with
  | none | some .raw => .ub
  | some c => if d = s then .ub else m.begin d c

/-- `*dst = std::move(*src)` (e.g. /repo/src/c4/ctor_dtor.hpp:254, 419): moving an object to itself leaves it with an unspecified
value. -/
def Slots.moveAssign (m : Slots α) (d s : Nat) : Res (Slots α) :=
  match m.cells[s]?, m.cells[d]? with
  | none, _ | some .raw, _ | _, none | _, some .raw => .ub
  | some c, some _ => .ok ⟨(m.cells.set d c).set s .moved, m.dropped⟩

/-- `*dst = *src` (e.g. /repo/src/c4/ctor_dtor.hpp:157, 171). -/
def Slots.copyAssign (m : Slots α) (d s : Nat) : Res (Slots α) :=
  match m.cells[s]?, m.cells[d]? with
  | none, _ | some .raw, _ | _, none | _, some .raw => .ub
  | some c, some _ => .ok ⟨m.cells.set d c, m.dropped⟩

/-- `ptr->~U()` (/repo/src/c4/ctor_dtor.hpp:283, 296). -/
def Slots.destroy (m : Slots α) (d : Nat) : Res (Slots α) :=
  match m.cells[d]? with
  | none | some .raw => .ub
  | some _ => .ok ⟨m.cells.set d .raw, m.dropped⟩

/-- `memmove(dst, src, n * sizeof(U))`: the slots are moved with whatever they hold. -/
def Slots.memmove (m : Slots α) (d s n : Nat) : Res (Slots α) :=
  if d + n ≤ m.cells.length ∧ s + n ≤ m.cells.length then
    .ok ⟨m.cells.take d ++ (m.cells.drop s).take n ++ m.cells.drop (d + n), m.dropped⟩
  else .ub

/-- `memcpy(dst, src, n * sizeof(U))`: the ranges must not overlap. -/
def Slots.memcpy (m : Slots α) (d s n : Nat) : Res (Slots α) :=
  if d + n ≤ s ∨ s + n ≤ d ∨ n = 0 then m.memmove d s n else .ub

/-! ### n objects -/

/-- `construct_n(ptr, n)` (/repo/src/c4/ctor_dtor.hpp:33-46): all zeros for trivial types, `U()` for others.  `zero` is the
value. -/
def constructN (m : Slots α) (zero : α) (d n : Nat) (triv : Bool) : Res (Slots α) :=
  if triv then
    if d + n ≤ m.cells.length then
      .ok ⟨m.cells.take d ++ List.replicate n (.live zero) ++ m.cells.drop (d + n), m.dropped⟩
    else .ub
  else forN n (fun i m => m.begin (d + i) (.live zero)) m

/-- `construct_n(ptr, n, args...)` (/repo/src/c4/ctor_dtor.hpp:62-69), for all types; `v` is the value of `U(args...)`. -/
def constructNArgs (m : Slots α) (v : α) (d n : Nat) : Res (Slots α) :=
  forN n (fun i m => m.begin (d + i) (.live v)) m

/-- `copy_construct_n(dst, src, n)` (/repo/src/c4/ctor_dtor.hpp:93-107), also used for arrays (lines 138-142). -/
def copyConstructN (m : Slots α) (d s n : Nat) (triv : Bool) : Res (Slots α) :=
  if triv then m.memcpy d s n else forN n (fun i m => m.copyConstruct (d + i) (s + i)) m

/-- `copy_assign_n(dst, src, n)` (/repo/src/c4/ctor_dtor.hpp:159-173), also used for arrays (lines 204-208). -/
def copyAssignN (m : Slots α) (d s n : Nat) (triv : Bool) : Res (Slots α) :=
  if triv then m.memcpy d s n else forN n (fun i m => m.copyAssign (d + i) (s + i)) m

/-- `move_construct_n(dst, src, n)` (/repo/src/c4/ctor_dtor.hpp:225-239). -/
def moveConstructN (m : Slots α) (d s n : Nat) (triv : Bool) : Res (Slots α) :=
  if triv then m.memcpy d s n else forN n (fun i m => m.moveConstruct (d + i) (s + i)) m

/-- `move_assign_n(dst, src, n)` (/repo/src/c4/ctor_dtor.hpp:256-270). -/
def moveAssignN (m : Slots α) (d s n : Nat) (triv : Bool) : Res (Slots α) :=
  if triv then m.memcpy d s n else forN n (fun i m => m.moveAssign (d + i) (s + i)) m

/-- `copy_construct_n(dst, value, n)` for types that are not scalar (/repo/src/c4/ctor_dtor.hpp:128-136): the value is an object that
may be in the same memory, at slot `s`. -/
def fillConstructN (m : Slots α) (d s n : Nat) : Res (Slots α) :=
  forN n (fun i m => m.copyConstruct (d + i) s) m

/-- `copy_assign_n(dst, value, n)` for types that are not scalar (/repo/src/c4/ctor_dtor.hpp:194-202). -/
def fillAssignN (m : Slots α) (d s n : Nat) : Res (Slots α) :=
  forN n (fun i m => m.copyAssign (d + i) s) m

/-- `destroy_n(ptr, n)` (/repo/src/c4/ctor_dtor.hpp:285-298). -/
def destroyN (m : Slots α) (d n : Nat) (triv : Bool) : Res (Slots α) :=
  if triv then .ok m else forN n (fun i m => m.destroy (d + i)) m

/-! ### make_room -/

/-- `make_room(buf, bufsz, room)` (/repo/src/c4/ctor_dtor.hpp:303-336), `buf` at slot `b`. -/
def makeRoom (m : Slots α) (b bufsz room : Nat) (triv : Bool) : Res (Slots α) :=
  if triv then
    if room ≥ bufsz then m.memcpy (b + room) b bufsz else m.memmove (b + room) b bufsz
  else if room ≥ bufsz then forN bufsz (fun i m => m.moveConstruct (b + (i + room)) (b + i)) m
  else forN bufsz (fun i m => m.moveConstruct (b + ((bufsz - 1 - i) + room)) (b + (bufsz - 1 - i))) m

/-- `make_room(buf, bufsz, currsz, pos, room)` (/repo/src/c4/ctor_dtor.hpp:339-347). -/
def makeRoomPos (m : Slots α) (b currsz pos room : Nat) (triv : Bool) : Res (Slots α) :=
  makeRoom m (b + pos) (currsz - pos) room triv

/-- `new (dst) U(std::move(src[i]))` with `src` pointing to const objects, in another buffer: a copy
(/repo/src/c4/ctor_dtor.hpp:367, 373, 450, 456). -/
def Slots.copyFrom (m : Slots α) (src : List (Cell α)) (d s : Nat) : Res (Slots α) :=
  match src[s]? with
  | none | some .raw => .ub
  | some c => m.begin d c

/-- `memcpy(dst, src, n * sizeof(U))` from another buffer. -/
def Slots.memcpyFrom (m : Slots α) (src : List (Cell α)) (d s n : Nat) : Res (Slots α) :=
  if d + n ≤ m.cells.length ∧ s + n ≤ src.length then
    .ok ⟨m.cells.take d ++ (src.drop s).take n ++ m.cells.drop (d + n), m.dropped⟩
  else .ub

/-- `make_room(dst, src, srcsz, room, pos)` (/repo/src/c4/ctor_dtor.hpp:351-375), `dst` and `src` at the start of their
buffers. -/
def makeRoomTo (m : Slots α) (src : List (Cell α)) (srcsz room pos : Nat) (triv : Bool) : Res (Slots α) :=
  if triv then do
    let m ← m.memcpyFrom src 0 0 pos
    m.memcpyFrom src (room + pos) pos (srcsz - pos)
  else do
    let m ← forN pos (fun i m => m.copyFrom src i i) m
    forN (srcsz - pos) (fun i m => m.copyFrom src (room + pos + i) (pos + i)) m

/-! ### destroy_room -/

/-- `destroy_room(buf, n, room)` (/repo/src/c4/ctor_dtor.hpp:395-429). -/
def destroyRoom (m : Slots α) (b n room : Nat) (triv : Bool) : Res (Slots α) :=
  if triv then
    if room < n then m.memmove b (b + room) (n - room) else .ok m
  else if room < n then forN (n - room) (fun i m => m.moveAssign (b + i) (b + (i + room))) m
  else forN n (fun i m => m.destroy (b + i)) m

/-- `destroy_room(dst, src, n, room, pos)` (/repo/src/c4/ctor_dtor.hpp:432-458). -/
def destroyRoomTo (m : Slots α) (src : List (Cell α)) (n room pos : Nat) (triv : Bool) : Res (Slots α) :=
  if triv then do
    let m ← m.memcpyFrom src 0 0 pos
    m.memcpyFrom src pos (room + pos) (n - pos - room)
  else do
    let m ← forN pos (fun i m => m.copyFrom src i i) m
    forN (n - pos - room) (fun i m => m.copyFrom src (pos + i) (room + pos + i)) m

end C4
