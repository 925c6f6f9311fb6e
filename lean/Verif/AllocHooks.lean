import Verif.Resources
/-
Model of the replaceable allocation functions (/repo/src/c4/memory_resource.cpp:80-157): `aalloc`, `afree` and `arealloc` call whatever functions
`set_aalloc`, `set_afree` and `set_arealloc` were given last; the default `arealloc_impl` goes through `aalloc` and `afree` again.
The functions of a user are known by the number of the heap they work on; heap 0 is the system's, with `aalloc_impl` and `afree_impl`.
-/
namespace C4

/-- A block obtained and not freed: its address, the heap it is from, and its contents. -/
structure HookBlk where
  addr : Nat
  heap : Nat
  data : List Nat
deriving DecidableEq, Repr

/-- The calls received by the functions of the heaps: memory obtained (heap, address, size and alignment asked for), freed, or reallocated
by a function of the user (heap, old address and size, new address and size, alignment). -/
inductive HookCall where
  | got (h p sz al : Nat)
  | freed (h p : Nat)
  | moved (h p old q new al : Nat)
deriving DecidableEq, Repr

/-- The function set with `set_arealloc`: `arealloc_impl` or one that works on a heap. -/
inductive ReallocFn where
  | dflt
  | user (h : Nat)
deriving DecidableEq, Repr

/-- The three function pointers (/repo/src/c4/memory_resource.cpp:100-102), `none` being null, the blocks obtained from the heaps, and the calls so far. -/
structure Hooks where
  aalloc : Option Nat := some 0
  afree : Option Nat := some 0
  arealloc : Option ReallocFn := some .dflt
  live : List HookBlk := []
  log : List HookCall := []
deriving DecidableEq, Repr

/-- What the heaps answer: the system to `posix_memalign`, the functions of the users to a heap, a size and an alignment; and what new memory contains. -/
structure HookEnv where
  os : Nat → Nat → MemAlign
  user : Nat → Nat → Nat → Res Nat
  fill : Nat → Nat

/-- A call to the allocation function of heap `h`; that of heap 0 is `aalloc_impl` (/repo/src/c4/memory_resource.cpp:39-77). -/
def HookEnv.answer (e : HookEnv) (h sz al : Nat) : Res Nat := if h = 0 then aallocImpl e.os sz al else e.user h sz al

/-- Bytes `i`, `i+1`, … of a new block of `n` bytes. -/
def HookEnv.fresh (e : HookEnv) (i n : Nat) : List Nat := (List.range (n - i)).map fun k => e.fill (i + k)

/-- `set_aalloc` (/repo/src/c4/memory_resource.cpp:112-115). -/
def Hooks.setAalloc (s : Hooks) (f : Option Nat) : Hooks := { s with aalloc := f }
/-- `set_afree` (/repo/src/c4/memory_resource.cpp:121-124). -/
def Hooks.setAfree (s : Hooks) (f : Option Nat) : Hooks := { s with afree := f }
/-- `set_arealloc` (/repo/src/c4/memory_resource.cpp:130-133). -/
def Hooks.setArealloc (s : Hooks) (f : Option ReallocFn) : Hooks := { s with arealloc := f }

/-- A call through a null function pointer: stopped by the assertion if there are assertions (`chk`), otherwise undefined
(/repo/src/c4/memory_resource.cpp:138, 146, 153). -/
def nullHook {α : Type} (chk : Bool) : Res α := if chk then .abort else .ub

/-- `aalloc` (/repo/src/c4/memory_resource.cpp:136-142). -/
def hookAalloc (chk : Bool) (e : HookEnv) (s : Hooks) (sz al : Nat) : Res (Nat × Hooks) :=
  match s.aalloc with
  | none => nullHook chk
  | some h => (e.answer h sz al).bind fun p =>
      .ok (p, { s with live := if p = 0 then s.live else ⟨p, h, e.fresh 0 sz⟩ :: s.live, log := s.log ++ [.got h p sz al] })

/-- `afree` (/repo/src/c4/memory_resource.cpp:144-149).  Freeing what is not a block of the heap is undefined; null is ignored. -/
def hookAfree (chk : Bool) (s : Hooks) (p : Nat) : Res Hooks :=
  match s.afree with
  | none => nullHook chk
  | some h =>
    if p = 0 then .ok { s with log := s.log ++ [.freed h 0] }
    else match s.live.find? fun b => b.addr == p && b.heap == h with
      | none => .ub
      | some b => .ok { s with live := s.live.erase b, log := s.log ++ [.freed h p] }

/-- `arealloc_impl` (/repo/src/c4/memory_resource.cpp:80-98).  Blocks are copied as wholes (the bytes are in `arealloc`); copying from or to null is
undefined, even of no bytes. -/
def hookAreallocImpl (chk : Bool) (e : HookEnv) (s : Hooks) (p old new al : Nat) : Res (Nat × Hooks) :=
  (hookAalloc chk e s new al).bind fun r =>
    let mn := if new < old then new else old
    if p = 0 ∨ r.1 = 0 then .ub
    else match r.2.live.find? (fun b => b.addr == p), r.2.live.find? (fun b => b.addr == r.1) with
      | some b, some t =>
        if b.data.length < mn ∨ t.data.length < mn then .ub
        else (hookAfree chk { r.2 with live := ⟨t.addr, t.heap, b.data.take mn ++ t.data.drop mn⟩ :: r.2.live.erase t } p).bind fun s' => .ok (r.1, s')
      | _, _ => .ub

/-- `arealloc` (/repo/src/c4/memory_resource.cpp:151-157).  A function of a user keeps the contents of a block of its heap, and is undefined for others. -/
def hookArealloc (chk : Bool) (e : HookEnv) (s : Hooks) (p old new al : Nat) : Res (Nat × Hooks) :=
  match s.arealloc with
  | none => nullHook chk
  | some .dflt => hookAreallocImpl chk e s p old new al
  | some (.user h) =>
    match s.live.find? fun b => b.addr == p && b.heap == h with
    | none => .ub
    | some b => (e.answer h new al).bind fun q =>
        .ok (q, { s with
          live := if q = 0 then s.live else ⟨q, h, b.data.take new ++ e.fresh b.data.length new⟩ :: s.live.erase b,
          log := s.log ++ [.moved h p old q new al] })

/-- The caller stores `v` at byte `i` of the block at `p`. -/
def hookStore (s : Hooks) (p i v : Nat) : Hooks :=
  { s with live := s.live.map fun b => if b.addr = p then { b with data := b.data.set i v } else b }

/-- The contents of the block at `p`. -/
def hookRead (s : Hooks) (p : Nat) : Option (List Nat) := (s.live.find? fun b => b.addr == p).map (·.data)

/-! ### The malloc resource on the current functions -/

/-- `allocate` of `MemoryResourceMalloc` (/repo/src/c4/memory_resource.hpp:122-127, 181-185). -/
def hookMallocAllocate (chk : Bool) (e : HookEnv) (s : Hooks) (sz al : Nat) : Res (Nat × Hooks) :=
  (hookAalloc chk e s sz al).bind fun r => if r.1 = 0 then .abort else .ok r

/-- `reallocate` of `MemoryResourceMalloc` (/repo/src/c4/memory_resource.hpp:129-134, 194-197). -/
def hookMallocReallocate (chk : Bool) (e : HookEnv) (s : Hooks) (p old new al : Nat) : Res (Nat × Hooks) :=
  (hookArealloc chk e s p old new al).bind fun r => if r.1 = 0 then .abort else .ok r

/-- `deallocate` of `MemoryResourceMalloc` (/repo/src/c4/memory_resource.hpp:136-139, 187-192): size and alignment are not used. -/
def hookMallocDeallocate (chk : Bool) (s : Hooks) (p _sz _al : Nat) : Res Hooks := hookAfree chk s p

end C4
