/-
What a list of 32-bit limbs stands for, lowest first.
-/
namespace C4.Spec.L32

/-- The number. -/
def limbsVal : List Nat → Nat
  | [] => 0
  | x :: v => x + 2 ^ 32 * limbsVal v

/-- Every limb has 32 bits. -/
def Limbs (v : List Nat) : Prop := ∀ x ∈ v, x < 2 ^ 32

end C4.Spec.L32
