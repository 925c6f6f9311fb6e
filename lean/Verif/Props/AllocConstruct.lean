import Verif.AllocConstruct
/-
Property C154: how allocators construct objects.
-/
namespace C4

variable {α τ : Type}

/-- Specification: uses-allocator construction, as of `std::pmr::polymorphic_allocator::construct`: types that do not use allocators get the
arguments; the others the resource too, first (after `std::allocator_arg`) if they can be constructed so, and otherwise last. -/
def Spec.usesAllocatorConstruct (uses plain first last : Prop) (r : Nat) (args : List α) (res : Overload α) : Prop :=
  (¬ uses → plain → res = .call (args.map .user)) ∧ (¬ uses → ¬ plain → res = .noMatch) ∧
  (uses → first → res = .call (.allocArg :: .resource r :: args.map .user)) ∧
  (uses → ¬ first → last → res = .call (args.map .user ++ [.resource r])) ∧ (uses → ¬ first → ¬ last → res = .noMatch)

open Spec

/-- **C154 is false** for types that can be constructed both ways: the call is ambiguous. -/
theorem C154_refuted (T : AllocType τ) (ty : α → τ) (r : Nat) (args : List α) (hu : T.usesAllocator = true)
    (h1 : T.constructible (.allocArg :: .resource 0 :: args.map (.user ∘ ty)) = true)
    (h2 : T.constructible (args.map (.user ∘ ty) ++ [.resource 0]) = true) : allocConstruct T ty r args = .ambiguous := by
  simp [allocConstruct, AllocType.hasNoAlloc, AllocType.hasAllocArg, AllocType.hasAlloc, hu, h1, h2, resolveOverload]

/-- A type with both constructors. -/
example : allocConstruct ⟨true, fun _ => true⟩ (fun _ : Nat => ()) 7 [1, 2] = .ambiguous := by decide

/-- **C154**, what holds for all other types: objects are constructed as the standard says, with the resource of the allocator.
Missing: types that can be constructed both with the resource first and last (false, see above). -/
theorem C154_construct_partial (T : AllocType τ) (ty : α → τ) (r : Nat) (args : List α)
    (h : ¬ (T.usesAllocator = true ∧ T.constructible (.allocArg :: .resource 0 :: args.map (.user ∘ ty)) = true ∧
      T.constructible (args.map (.user ∘ ty) ++ [.resource 0]) = true)) :
    usesAllocatorConstruct (T.usesAllocator = true) (T.constructible (args.map (.user ∘ ty)) = true)
      (T.constructible (.allocArg :: .resource 0 :: args.map (.user ∘ ty)) = true)
      (T.constructible (args.map (.user ∘ ty) ++ [.resource 0]) = true) r args (allocConstruct T ty r args) := by
  unfold usesAllocatorConstruct allocConstruct AllocType.hasNoAlloc AllocType.hasAllocArg AllocType.hasAlloc
  simp only [List.map_map]
  generalize T.constructible (args.map (.user ∘ ty)) = a at *
  generalize T.constructible (.allocArg :: .resource 0 :: args.map (.user ∘ ty)) = b at *
  generalize T.constructible (args.map (.user ∘ ty) ++ [.resource 0]) = c at *
  generalize T.usesAllocator = u at *
  cases a <;> cases b <;> cases c <;> cases u <;> simp_all [resolveOverload]

/-- A container whose constructor takes two arguments and then a resource; and a type that does not use allocators. -/
example : allocConstruct ⟨true, fun l => decide (l = [.user (), .user (), .resource 0])⟩ (fun _ : Nat => ()) 7 [1, 2] =
      .call [.user 1, .user 2, .resource 7] ∧
    allocConstruct ⟨false, fun l => l.length == 2⟩ (fun _ : Nat => ()) 7 [1, 2] = .call [.user 1, .user 2] := by decide

end C4
