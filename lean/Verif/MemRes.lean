import Verif.Format
/-
Memory resources and allocators (/repo/src/c4/memory_resource.hpp, memory_resource.cpp, allocator.hpp).

Addresses are natural numbers, 0 is the null pointer.  `size_t` and pointer arithmetic that may leave the address space is
taken modulo 2^64 (`wrap64`).  An error (C4_ERROR, C4_CHECK) is `abort`: the call does not return normally, and as no member
was changed before, the object is as before the call.
-/
namespace C4

/-- Arithmetic modulo 2^64. -/
def wrap64 (n : Nat) : Nat := n % 18446744073709551616

theorem wrap64_of_lt {n : Nat} (h : n < 2 ^ 64) : wrap64 n = n := by
  unfold wrap64; omega

/-! ### MemoryResourceLinear -/

/-- The members `m_mem`, `m_size`, `m_pos` of a `MemoryResourceLinear` (/repo/src/c4/memory_resource.hpp:288-290). -/
structure Lin where
  mem : Nat
  size : Nat
  pos : Nat
deriving DecidableEq, Repr

/-- `MemoryResourceLinear::do_allocate` (/repo/src/c4/memory_resource.cpp:199-223).  `m_mem + m_pos` is undefined beyond the buffer. -/
def linDoAllocate (s : Lin) (sz al : Nat) : Res (Nat × Lin) :=
  if sz = 0 then .ok (0, s)
  else if wrap64 (s.pos + sz) > s.size then .abort
  else if s.pos > s.size then .ub
  else
    match stdAlign (s.mem + s.pos) al sz (s.size - s.pos) with
    | none => .abort
    | some d =>
      let space := s.size - s.pos - d
      let pos := s.pos + ((s.size - s.pos) - space)
      .ok (s.mem + s.pos + d, { s with pos := pos + sz })

/-- `MemoryResourceLinear::do_reallocate` (/repo/src/c4/memory_resource.cpp:233-259).  No byte of memory is touched. -/
def linDoReallocate (s : Lin) (ptr oldsz newsz al : Nat) : Res (Nat × Lin) :=
  if newsz = oldsz then .ok (ptr, s)
  else
    let samePos := wrap64 (s.mem + s.pos) = wrap64 (ptr + oldsz)
    if newsz < oldsz then
      if samePos then .ok (ptr, { s with pos := s.pos - (oldsz - newsz) }) else .ok (ptr, s)
    else if samePos ∧ wrap64 (ptr + newsz) ≤ wrap64 (s.mem + s.size) then
      .ok (ptr, { s with pos := wrap64 (s.pos + (newsz - oldsz)) })
    else linDoAllocate s newsz al

/-- The check on the returned pointer in `MemoryResource::allocate` and `reallocate`
(/repo/src/c4/memory_resource.hpp:122-134). -/
def checkNonNull (r : Res (Nat × σ)) : Res (Nat × σ) := do
  let (p, s) ← r
  if p = 0 then .abort else .ok (p, s)

/-- `MemoryResource::allocate` on a `MemoryResourceLinear` (/repo/src/c4/memory_resource.hpp:122-127). -/
def linAllocate (s : Lin) (sz al : Nat) : Res (Nat × Lin) := checkNonNull (linDoAllocate s sz al)

/-- `MemoryResource::reallocate` on a `MemoryResourceLinear` (/repo/src/c4/memory_resource.hpp:129-134). -/
def linReallocate (s : Lin) (ptr oldsz newsz al : Nat) : Res (Nat × Lin) :=
  checkNonNull (linDoReallocate s ptr oldsz newsz al)

/-- `MemoryResource::deallocate` on a `MemoryResourceLinear`: nothing (/repo/src/c4/memory_resource.cpp:225-231). -/
def linDeallocate (s : Lin) (_ptr _sz _al : Nat) : Lin := s

/-- `_MemoryResourceSingleChunk::clear` (/repo/src/c4/memory_resource.hpp:296). -/
def linClear (s : Lin) : Lin := { s with pos := 0 }

/-- `slack()` (/repo/src/c4/memory_resource.hpp:284). -/
def linSlack (s : Lin) : Nat := wrap64 (s.size + 18446744073709551616 - s.pos)

/-! ### Owned and borrowed chunks -/

/-- A call received by the resource from which a chunk is obtained (`m_local`,
/repo/src/c4/memory_resource.hpp:230-257): allocation (address returned, size) or deallocation (address, size). -/
inductive PEv where
  | alloc (p sz : Nat)
  | dealloc (p sz : Nat)
deriving DecidableEq, Repr

/-- A `MemoryResourceLinear` with its `m_owner` member and the calls its parent has received. -/
structure Chunk where
  lin : Lin
  owner : Bool
  log : List PEv
deriving DecidableEq, Repr

/-- The default constructor (/repo/src/c4/memory_resource.hpp:269, 288-291): no memory. `m_owner` is uninitialized; `o` is its
value. -/
def chunkEmpty (o : Bool) : Chunk := ⟨⟨0, 0, 0⟩, o, []⟩

/-- The constructor with owned memory (/repo/src/c4/memory_resource.hpp:272, memory_resource.cpp:177-184).  In the constructor
of the base class virtual calls go to `DerivedMemoryResource::do_allocate`, hence to the parent, which returns `p`
(not null: `MemoryResource::allocate` checks). -/
def chunkCtorOwned (o : Bool) (p sz : Nat) : Chunk :=
  let c := chunkEmpty o
  let c := { c with lin := linClear c.lin, owner := true }
  { c with lin := ⟨p, sz, 0⟩, log := c.log ++ [.alloc p sz] }

/-- `acquire(mem, sz)` and the constructor with borrowed memory (/repo/src/c4/memory_resource.hpp:274,
memory_resource.cpp:186-193). -/
def chunkAcquireBorrowed (c : Chunk) (p sz : Nat) : Chunk := { c with lin := ⟨p, sz, 0⟩, owner := false }

/-- `acquire(sz)` on a constructed `MemoryResourceLinear` (/repo/src/c4/memory_resource.cpp:177-184): `impl_type::allocate` is not
virtual and calls the virtual `do_allocate`, which is now `MemoryResourceLinear::do_allocate`.  16 is
`alignof(max_align_t)`. -/
def chunkAcquire (c : Chunk) (sz : Nat) : Res Chunk := do
  let c := { c with lin := linClear c.lin, owner := true }
  let (p, _) ← linAllocate c.lin sz 16
  .ok { c with lin := ⟨p, sz, 0⟩ }

/-- `release()` on a constructed `MemoryResourceLinear` (/repo/src/c4/memory_resource.cpp:165-175): `impl_type::deallocate` calls
the virtual `do_deallocate`, which is `MemoryResourceLinear::do_deallocate`. -/
def chunkRelease (c : Chunk) : Chunk :=
  let c := if c.lin.mem ≠ 0 ∧ c.owner then { c with lin := linDeallocate c.lin c.lin.mem c.lin.size 16 } else c
  { c with lin := ⟨0, 0, 0⟩, owner := false }

/-- The destructor (/repo/src/c4/memory_resource.hpp:276, memory_resource.cpp:165-175).  In the destructor of the base class
virtual calls go to `DerivedMemoryResource::do_deallocate`, hence to the parent. -/
def chunkDtor (c : Chunk) : Chunk :=
  let c := if c.lin.mem ≠ 0 ∧ c.owner then { c with log := c.log ++ [.dealloc c.lin.mem c.lin.size] } else c
  { c with lin := ⟨0, 0, 0⟩, owner := false }

/-! ### arealloc -/

/-- `arealloc_impl(ptr, oldsz, newsz, alignment)` (/repo/src/c4/memory_resource.cpp:80-98) on the memory `m` of the process;
`tmp` is the address returned by `aalloc(newsz, alignment)`.  Result: the memory when `tmp` is returned, after `ptr` was passed
to `afree`. -/
def arealloc (m : List Nat) (tmp ptr oldsz newsz : Nat) : Res (List Nat) :=
  let mn := if newsz < oldsz then newsz else oldsz
  if memOverlaps ptr tmp oldsz newsz then memmove m tmp ptr mn else memcpyIn m tmp ptr mn

/-! ### Counts -/

/-- `AllocationCounts::Item` (/repo/src/c4/memory_resource.hpp:385-408).  `ssize_t` is taken without bounds. -/
structure CntItem where
  allocs : Int
  size : Int
deriving DecidableEq, Repr

/-- `Item::add` (/repo/src/c4/memory_resource.hpp:390-394). -/
def CntItem.add (i : CntItem) (sz : Nat) : CntItem := ⟨i.allocs + 1, i.size + sz⟩
/-- `Item::rem` (/repo/src/c4/memory_resource.hpp:395-399). -/
def CntItem.rem (i : CntItem) (sz : Nat) : CntItem := ⟨i.allocs - 1, i.size - sz⟩
/-- `Item::max` (/repo/src/c4/memory_resource.hpp:400-406). -/
def CntItem.max (i j : CntItem) : CntItem :=
  ⟨if i.allocs > j.allocs then i.allocs else j.allocs, if i.size > j.size then i.size else j.size⟩

/-- `AllocationCounts` (/repo/src/c4/memory_resource.hpp:383-412). -/
structure Counts where
  curr : CntItem := ⟨0, 0⟩
  total : CntItem := ⟨0, 0⟩
  max : CntItem := ⟨0, 0⟩
deriving DecidableEq, Repr

/-- `add_counts` (/repo/src/c4/memory_resource.hpp:430-436). -/
def Counts.addCounts (c : Counts) (ptr sz : Nat) : Counts :=
  if ptr = 0 then c
  else
    let curr := c.curr.add sz
    ⟨curr, c.total.add sz, c.max.max curr⟩

/-- `rem_counts` (/repo/src/c4/memory_resource.hpp:438-442). -/
def Counts.remCounts (c : Counts) (ptr sz : Nat) : Counts :=
  if ptr = 0 then c else { c with curr := c.curr.rem sz }

/-- `MemoryResourceCounts::allocate` (/repo/src/c4/memory_resource.hpp:501-506): `r` is the outcome of the counted
resource.  Outcome for the caller and the counts afterwards (also when the call fails). -/
def countsAllocate (c : Counts) (r : Res Nat) (sz : Nat) : Res Nat × Counts :=
  match r with
  | .ok p => (if p = 0 then .abort else .ok p, c.addCounts p sz)
  | e => (e, c)

/-- `MemoryResourceCounts::deallocate` (/repo/src/c4/memory_resource.hpp:508-512). -/
def countsDeallocate (c : Counts) (ptr sz : Nat) : Counts := c.remCounts ptr sz

/-- `MemoryResourceCounts::reallocate` (/repo/src/c4/memory_resource.hpp:514-520). -/
def countsReallocate (c : Counts) (r : Res Nat) (ptr oldsz newsz : Nat) : Res Nat × Counts :=
  let c := c.remCounts ptr oldsz
  match r with
  | .ok p => (if p = 0 then .abort else .ok p, c.addCounts p newsz)
  | e => (e, c)

/-! ### Scoped resources -/

/-- A scoped object (/repo/src/c4/memory_resource.hpp:527-564): `ScopedMemoryResource(r)`, `ScopedMemoryResourceCounts()` and
`ScopedMemoryResourceCounts(m)`.  `self` identifies the counting resource inside the object. -/
inductive Scope where
  | res (r : Nat)
  | counts (self : Nat)
  | countsOf (self m : Nat)
deriving DecidableEq, Repr

/-- What the object stores for its destructor: `m_original` or `mr.m_resource`, `g` being the global resource. -/
def Scope.saved (g : Nat) : Scope → Nat
  | .res _ => g
  | .counts _ => g
  | .countsOf _ m => m

/-- The global resource after construction. -/
def Scope.enter : Scope → Nat
  | .res r => r
  | .counts self => self
  | .countsOf self _ => self

/-- Run a block of code with scoped objects: constructions and destructions nest as in a C++ block.  `scope s body` constructs
`s`, runs the body, destroys `s`; `seq` runs one after the other; `use` reads the global resource. -/
inductive Prog where
  | use
  | seq (a b : Prog)
  | scope (s : Scope) (body : Prog)

/-- The global resource after the program and the resources read by `use`, in order. -/
def Prog.run : Prog → Nat → Nat × List Nat
  | .use, g => (g, [g])
  | .seq a b, g =>
    let (g1, u1) := a.run g
    let (g2, u2) := b.run g1
    (g2, u1 ++ u2)
  | .scope s body, g =>
    let saved := s.saved g
    let (_, u) := body.run s.enter
    (saved, u)

/-! ### Allocator and SmallAllocator -/

/-- The number of bytes `Allocator<T>::allocate(num_objs)` asks its resource for: `size_for<T>(num_objs)`
(/repo/src/c4/allocator.hpp:30, 235-242); `elem` is `sizeof(T)`. -/
def allocatorRequest (elem k : Nat) : Nat := wrap64 (k * elem)

/-- `SmallAllocator<T, N>` (/repo/src/c4/allocator.hpp:267-387): address of the object's own array, `N`, `sizeof(T)`, `m_num`. -/
structure Small where
  arr : Nat
  n : Nat
  elem : Nat
  num : Nat
deriving DecidableEq, Repr

/-- `SmallAllocator::allocate` (/repo/src/c4/allocator.hpp:334-350); `r` is the outcome of the memory resource if it is asked.  `m_arr + m_num * sizeof(T)`
is undefined beyond the array. -/
def smallAllocate (s : Small) (r : Res Nat) (k : Nat) : Res (Nat × Small) := do
  let p ← if wrap64 (s.num + k) ≤ s.n then (if s.num ≤ s.n then .ok (s.arr + s.num * s.elem) else .ub) else r
  .ok (p, { s with num := wrap64 (s.num + k) })

/-- `SmallAllocator::deallocate` (/repo/src/c4/allocator.hpp:352-363): the pointer passed on to the memory resource, if any.  `m_num -= num_objs` wraps around. -/
def smallDeallocate (s : Small) (p k : Nat) : Option Nat × Small :=
  let s' := { s with num := wrap64 (s.num + 18446744073709551616 - k) }
  (if p ≥ s.arr ∧ p < s.arr + s.n * s.elem then none else some p, s')

/-- `SmallAllocator::reallocate` (/repo/src/c4/allocator.hpp:365-385), which compiles only for `T = char`; `r` is the outcome of
the memory resource if it is asked.  Result: the pointer, and the pointer passed to the resource for deallocation. -/
def smallReallocate (s : Small) (r : Res Nat) (p oldn newn : Nat) : Res ((Nat × Option Nat) × Small) :=
  if oldn ≤ s.n ∧ newn ≤ s.n then .ok ((s.arr, none), s)
  else if oldn ≤ s.n ∧ newn > s.n then do
    let (q, s) ← smallAllocate s r newn
    .ok ((q, none), s)
  else if oldn > s.n ∧ newn ≤ s.n then
    let (d, s) := smallDeallocate s p oldn
    .ok ((s.arr, d), s)
  else do
    let q ← r
    .ok ((q, none), s)

end C4
