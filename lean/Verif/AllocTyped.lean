import Verif.Resources
import Verif.MemRes
import Verif.SpanAssert
/-
Model of the functions of `Allocator<T, MemResProvider>` that ask its resource for objects of a type (/repo/src/c4/allocator.hpp:235-257).
-/
namespace C4

/-- `Allocator::allocate(num_objs, alignment)` (/repo/src/c4/allocator.hpp:235-242) for a type of `elem` bytes; `g` is the number of the global resource and `n` bounds the number
of resources involved. -/
def typedAllocate (n : Nat) (os : Nat → Nat → MemAlign) (s : Sys) (g : Nat) (a : Provider) (elem k al : Nat) : Res Nat × Sys :=
  sysAllocate n os s (a.resource g) (allocatorRequest elem k) al

/-- `Allocator::deallocate(ptr, num_objs, alignment)` (/repo/src/c4/allocator.hpp:244-249). -/
def typedDeallocate (n : Nat) (s : Sys) (g : Nat) (a : Provider) (elem p k : Nat) : Res Sys :=
  sysDeallocate n s (a.resource g) p (allocatorRequest elem k)

/-- `Allocator::reallocate(ptr, oldnum, newnum, alignment)` (/repo/src/c4/allocator.hpp:251-258). -/
def typedReallocate (n : Nat) (os : Nat → Nat → MemAlign) (s : Sys) (g : Nat) (a : Provider) (elem p old new al : Nat) : Res Nat × Sys :=
  sysReallocate n os s (a.resource g) p (allocatorRequest elem old) (allocatorRequest elem new) al

/-- `Allocator::operator!=` (/repo/src/c4/allocator.hpp:198-202). -/
def allocatorNe (g : Nat) (a b : Provider) : Bool := a.resource g != b.resource g

end C4
