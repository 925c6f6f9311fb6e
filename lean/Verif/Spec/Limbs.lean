/-
Natural numbers in limbs of 64 bits, lowest first.
-/
namespace C4.Spec

/-- The number. -/
def limbsVal : List Nat → Nat
  | [] => 0
  | x :: v => x + 2 ^ 64 * limbsVal v

/-- Every limb has 64 bits. -/
def Limbs (v : List Nat) : Prop := ∀ x ∈ v, x < 2 ^ 64

/-- The highest limb is not zero. -/
def Norm (v : List Nat) : Prop := v.getLast? ≠ some 0

end C4.Spec
