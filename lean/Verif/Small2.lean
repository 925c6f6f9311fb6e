import Verif.MemRes
import Verif.SpanAssert
/-
Model of the copies of small allocators (/repo/src/c4/allocator.hpp:281-332).
-/
namespace C4

/-- `operator==` (/repo/src/c4/allocator.hpp:281-285). -/
def smallEq (_ _ : Small) : Bool := false

/-- `operator!=` (/repo/src/c4/allocator.hpp:286-290). -/
def smallNe (_ _ : Small) : Bool := true

/-- Copy and move constructor (/repo/src/c4/allocator.hpp:324-325), and `select_on_container_copy_construct` (line 332): the new allocator has its array at `arr`.  The bytes of the array, which are copied too,
are left out. -/
def smallCopy (s : Small) (arr : Nat) : Small := { s with arr := arr }

/-- Copy and move assignment (/repo/src/c4/allocator.hpp:327-328); bytes are left out as above. -/
def smallAssign (s that : Small) : Small := { s with num := that.num }

/-- The constructor from another instance of the template (/repo/src/c4/allocator.hpp:318-322), and `rebound` (lines 300-304); `dbg` tells whether assertions are enabled. -/
def smallConvert (dbg : Bool) (that : Small) (arr n elem : Nat) : Res Small := do
  let _ ← (if dbg then assertThat (that.num = 0) else .ok ())
  .ok ⟨arr, n, elem, 0⟩

end C4
