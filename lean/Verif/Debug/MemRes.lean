import Verif.MemRes
import Verif.SpanAssert
/-
Model of the linear memory resource and of `SmallAllocator` in builds with assertions (/repo/src/c4/memory_resource.cpp:199-259, memory_resource.hpp:284,
allocator.hpp:334-385): the functions of `MemRes.lean` with their assertions.  That `resource()` is not null is built in.
-/
namespace C4

/-- `MemoryResourceLinear::do_allocate` (/repo/src/c4/memory_resource.cpp:199-223). -/
def linDoAllocateD (s : Lin) (sz al : Nat) : Res (Nat × Lin) :=
  if sz = 0 then .ok (0, s)
  else if wrap64 (s.pos + sz) > s.size then .abort
  else if s.pos > s.size then .ub
  else
    match stdAlign (s.mem + s.pos) al sz (s.size - s.pos) with
    | none => .abort
    | some d => do
      let space := s.size - s.pos - d
      assertThat (s.pos ≤ s.size)
      assertThat (s.size - s.pos ≥ space)
      let pos := s.pos + ((s.size - s.pos) - space)
      let pos := pos + sz
      assertThat (pos ≤ s.size)
      .ok (s.mem + s.pos + d, { s with pos := pos })

/-- `MemoryResourceLinear::do_reallocate` (/repo/src/c4/memory_resource.cpp:233-259). -/
def linDoReallocateD (s : Lin) (ptr oldsz newsz al : Nat) : Res (Nat × Lin) :=
  if newsz = oldsz then .ok (ptr, s)
  else
    let samePos := wrap64 (s.mem + s.pos) = wrap64 (ptr + oldsz)
    if newsz < oldsz then
      if samePos then .ok (ptr, { s with pos := s.pos - (oldsz - newsz) }) else .ok (ptr, s)
    else if samePos ∧ wrap64 (ptr + newsz) ≤ wrap64 (s.mem + s.size) then
      .ok (ptr, { s with pos := wrap64 (s.pos + (newsz - oldsz)) })
    else linDoAllocateD s newsz al

/-- `slack()` (/repo/src/c4/memory_resource.hpp:284). -/
def linSlackD (s : Lin) : Res Nat := do
  assertThat (s.size ≥ s.pos)
  .ok (s.size - s.pos)

/-- `SmallAllocator::allocate` (/repo/src/c4/allocator.hpp:334-350), `alt` being `alignof(T)`. -/
def smallAllocateD (alt : Nat) (s : Small) (r : Res Nat) (k al : Nat) : Res (Nat × Small) := do
  assertThat (al ≥ alt)
  smallAllocate s r k

/-- `SmallAllocator::deallocate` (/repo/src/c4/allocator.hpp:352-363). -/
def smallDeallocateD (alt : Nat) (s : Small) (p k al : Nat) : Res (Option Nat × Small) := do
  assertThat (s.num ≥ k)
  let (d, s) := smallDeallocate s p k
  match d with
  | none => .ok (none, s)
  | some q => do
    assertThat (al ≥ alt)
    .ok (some q, s)

/-- `SmallAllocator::reallocate` (/repo/src/c4/allocator.hpp:365-385). -/
def smallReallocateD (alt : Nat) (s : Small) (r : Res Nat) (p oldn newn al : Nat) : Res ((Nat × Option Nat) × Small) := do
  assertThat (al ≥ alt)
  if oldn ≤ s.n ∧ newn ≤ s.n then .ok ((s.arr, none), s)
  else if oldn ≤ s.n ∧ newn > s.n then do
    let (q, s) ← smallAllocateD alt s r newn al
    .ok ((q, none), s)
  else if oldn > s.n ∧ newn ≤ s.n then do
    let (d, s) ← smallDeallocateD alt s p oldn al
    .ok ((s.arr, d), s)
  else do
    let q ← r
    .ok ((q, none), s)

end C4
