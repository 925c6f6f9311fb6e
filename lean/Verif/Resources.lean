import Verif.MemRes
/-
Model of aligned allocation from the system (/repo/src/c4/memory_resource.cpp:31-98) and of memory resources that get their memory from one another
(/repo/src/c4/memory_resource.hpp:115-257, 475-523): the malloc resource, derived resources and counting resources, with their calls to the system.
-/
namespace C4

/-- The answer of `posix_memalign`: an address (possibly null for a request of no bytes), no memory, or another error. -/
inductive MemAlign where
  | ok (p : Nat)
  | enomem
  | other
deriving DecidableEq, Repr

/-- `aalloc_impl(size, alignment)` with `posix_memalign` (/repo/src/c4/memory_resource.cpp:39-77), whose answer to an alignment and a size is `os`; pointers have 8 bytes. -/
def aallocImpl (os : Nat → Nat → MemAlign) (size al : Nat) : Res Nat :=
  if ¬ (al > 0 ∧ al &&& (al - 1) = 0) then .abort
  else
    let al := if al < 8 then 8 else al
    if al &&& (8 - 1) ≠ 0 then .abort
    else match os al size with
      | .ok p => .ok p
      | .enomem => .abort
      | .other => .ok 0

/-- The check on the pointer in `MemoryResource::allocate` and `reallocate` (/repo/src/c4/memory_resource.hpp:122-134). -/
def notNull : Res Nat → Res Nat
  | .ok p => if p = 0 then .abort else .ok p
  | e => e

/-- A memory resource: `MemoryResourceMalloc` (/repo/src/c4/memory_resource.hpp:175-203), `DerivedMemoryResource` (/repo/src/c4/memory_resource.hpp:230-257) and
`MemoryResourceCounts` (/repo/src/c4/memory_resource.hpp:475-523) on the resource of a number. -/
inductive Node where
  | malloc
  | derived (inner : Nat)
  | counts (inner : Nat)
deriving DecidableEq, Repr

/-- A call to the system: memory obtained (address, size and alignment asked for) or freed. -/
inductive SysEv where
  | got (p sz al : Nat)
  | freed (p : Nat)
deriving DecidableEq, Repr

/-- The resources of a program, the counters of each, and the calls to the system so far. -/
structure Sys where
  nodes : List Node
  cnt : Nat → Counts
  log : List SysEv

def Sys.setCnt (s : Sys) (r : Nat) (c : Counts) : Sys := { s with cnt := fun i => if i = r then c else s.cnt i }

/-- The alignment in the call to the system (/repo/src/c4/memory_resource.cpp:44-45). -/
def sysAlign (al : Nat) : Nat := if al < 8 then 8 else al

/-- `MemoryResource::allocate` of the resource `r` (/repo/src/c4/memory_resource.hpp:122-127, 181-185, 242-245, 501-506).  The first argument bounds the number of resources
involved. -/
def sysAllocate : Nat → (Nat → Nat → MemAlign) → Sys → Nat → Nat → Nat → Res Nat × Sys
  | 0, _, s, _, _, _ => (.loop, s)
  | f + 1, os, s, r, sz, al =>
    match s.nodes[r]? with
    | none => (.ub, s)
    | some .malloc =>
      match notNull (aallocImpl os sz al) with
      | .ok p => (.ok p, { s with log := s.log ++ [.got p sz (sysAlign al)] })
      | e => (e, s)
    | some (.derived j) =>
      let x := sysAllocate f os s j sz al
      (notNull x.1, x.2)
    | some (.counts j) =>
      let x := sysAllocate f os s j sz al
      let y := countsAllocate (x.2.cnt r) x.1 sz
      (y.1, x.2.setCnt r y.2)

/-- `MemoryResource::deallocate` of the resource `r` (/repo/src/c4/memory_resource.hpp:136-139, 187-192, 252-255, 508-512). -/
def sysDeallocate : Nat → Sys → Nat → Nat → Nat → Res Sys
  | 0, _, _, _, _ => .loop
  | f + 1, s, r, p, sz =>
    match s.nodes[r]? with
    | none => .ub
    | some .malloc => .ok { s with log := s.log ++ [.freed p] }
    | some (.derived j) => sysDeallocate f s j p sz
    | some (.counts j) => sysDeallocate f (s.setCnt r (countsDeallocate (s.cnt r) p sz)) j p sz

/-- `MemoryResource::reallocate` of the resource `r` (/repo/src/c4/memory_resource.hpp:129-134, 194-197, 247-250, 514-520), with `arealloc_impl`
(/repo/src/c4/memory_resource.cpp:80-98) at the bottom; the contents of the memory are not represented here.  If `aalloc` returns null, memory is copied to null. -/
def sysReallocate : Nat → (Nat → Nat → MemAlign) → Sys → Nat → Nat → Nat → Nat → Nat → Res Nat × Sys
  | 0, _, s, _, _, _, _, _ => (.loop, s)
  | f + 1, os, s, r, p, old, new, al =>
    match s.nodes[r]? with
    | none => (.ub, s)
    | some .malloc =>
      match aallocImpl os new al with
      | .ok q => if q = 0 then (.ub, s) else (.ok q, { s with log := s.log ++ [.got q new (sysAlign al), .freed p] })
      | e => (e, s)
    | some (.derived j) =>
      let x := sysReallocate f os s j p old new al
      (notNull x.1, x.2)
    | some (.counts j) =>
      let x := sysReallocate f os (s.setCnt r ((s.cnt r).remCounts p old)) j p old new al
      match x.1 with
      | .ok q => (if q = 0 then .abort else .ok q, x.2.setCnt r ((x.2.cnt r).addCounts q new))
      | e => (e, x.2)

/-! ### Allocators and their resource -/

/-- The resource of an `Allocator` (/repo/src/c4/allocator.hpp:41-68): its own, or the global one at the time of each call. -/
inductive Provider where
  | own (r : Nat)
  | global
deriving DecidableEq, Repr

/-- `resource()` (/repo/src/c4/allocator.hpp:48, 67), `g` being the global resource at that time. -/
def Provider.resource (g : Nat) : Provider → Nat
  | .own r => r
  | .global => g

/-- The constructors of `Allocator<T, MemRes>` from nothing or a pointer to a resource, `none` being null (/repo/src/c4/allocator.hpp:45-46, 220-221). -/
def allocatorOwn (g : Nat) : Option Nat → Provider
  | none => .own g
  | some r => .own r

/-- The constructor from an allocator for another type, and `rebound()` (/repo/src/c4/allocator.hpp:207-216, 223): a new allocator on `that.resource()`; with the global
provider nothing is kept. -/
def allocatorFrom (g : Nat) (that : Provider) : Provider :=
  match that with
  | .own _ => allocatorOwn g (some (that.resource g))
  | .global => .global

/-- `select_on_container_copy_construct()` (/repo/src/c4/allocator.hpp:233). -/
def allocatorSelect (a : Provider) : Provider := a

/-- `operator==` (/repo/src/c4/allocator.hpp:193-197), `g` being the global resource. -/
def allocatorEq (g : Nat) (a b : Provider) : Bool := a.resource g == b.resource g

/-! ### Arithmetic of counts -/

/-- `operator+` and `update` (/repo/src/c4/memory_resource.hpp:420-428, 456-466). -/
def Counts.plus (a b : Counts) : Counts :=
  ⟨⟨a.curr.allocs + b.curr.allocs, a.curr.size + b.curr.size⟩, ⟨a.total.allocs + b.total.allocs, a.total.size + b.total.size⟩, ⟨a.max.allocs + b.max.allocs, a.max.size + b.max.size⟩⟩

/-- `operator-` (/repo/src/c4/memory_resource.hpp:444-454). -/
def Counts.minus (a b : Counts) : Counts :=
  ⟨⟨a.curr.allocs - b.curr.allocs, a.curr.size - b.curr.size⟩, ⟨a.total.allocs - b.total.allocs, a.total.size - b.total.size⟩, ⟨a.max.allocs - b.max.allocs, a.max.size - b.max.size⟩⟩

end C4
