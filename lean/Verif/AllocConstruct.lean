/-
Model of the overloads of `construct` and `construct_n` of the allocators (/repo/src/c4/allocator.hpp:78-153).
-/
namespace C4

/-- An argument of a constructor: one given by the caller, `std::allocator_arg`, or the memory resource `r`. -/
inductive CtorArg (α : Type) where
  | user (a : α)
  | allocArg
  | resource (r : Nat)
  deriving DecidableEq, Repr

/-- What overload resolution needs to know about a type: `std::uses_allocator<T, MemoryResource*>` and
`std::is_constructible<T, ...>` for the types of the arguments (those of user arguments are given by `τ`). -/
structure AllocType (τ : Type) where
  usesAllocator : Bool
  constructible : List (CtorArg τ) → Bool

variable {α τ : Type}

/-- `has_no_alloc<T, Args...>` (/repo/src/c4/allocator.hpp:78-82). -/
def AllocType.hasNoAlloc (T : AllocType τ) (args : List τ) : Bool := !T.usesAllocator && T.constructible (args.map .user)
/-- `has_alloc_arg<T, Args...>` (/repo/src/c4/allocator.hpp:86-90). The type of the resource is all that counts: number 0 stands for it. -/
def AllocType.hasAllocArg (T : AllocType τ) (args : List τ) : Bool :=
  T.usesAllocator && T.constructible (.allocArg :: .resource 0 :: args.map .user)
/-- `has_alloc<T, Args...>` (/repo/src/c4/allocator.hpp:93-97). -/
def AllocType.hasAlloc (T : AllocType τ) (args : List τ) : Bool :=
  T.usesAllocator && T.constructible (args.map .user ++ [.resource 0])

/-- What the compiler makes of a call. -/
inductive Overload (α : Type) where
  | call (args : List (CtorArg α))
  | noMatch
  | ambiguous
  deriving DecidableEq, Repr

/-- Overload resolution among candidates of the same signature: exactly one must be enabled. -/
def resolveOverload : List (Overload α) → Overload α
  | [] => .noMatch
  | [o] => o
  | _ => .ambiguous

/-- `construct(ptr, args...)` of an allocator with resource `r` (/repo/src/c4/allocator.hpp:111-116, 127-132, 141-146), and likewise
`construct_n` (117-122, 133-138, 147-152): the arguments with which the constructor is called.  `ty` gives the types of the arguments. -/
def allocConstruct (T : AllocType τ) (ty : α → τ) (r : Nat) (args : List α) : Overload α :=
  resolveOverload (
    (if T.hasNoAlloc (args.map ty) then [.call (args.map .user)] else []) ++
    (if T.hasAllocArg (args.map ty) then [.call (.allocArg :: .resource r :: args.map .user)] else []) ++
    (if T.hasAlloc (args.map ty) then [.call (args.map .user ++ [.resource r])] else []))

end C4
