import Mathlib.Algebra.Order.Field.Rat
import Mathlib.Algebra.Order.Field.Power
/-
What a correctly rounded conversion to an IEEE 754 binary floating point number is.
-/
namespace C4.Spec

/-- A binary interchange format of IEEE 754: the width of the fraction and of the exponent field. -/
structure Ieee where
  fracBits : Nat
  expBits : Nat
deriving DecidableEq, Repr

/-- `float` and `double`. -/
def binary32 : Ieee := ⟨23, 8⟩
def binary64 : Ieee := ⟨52, 11⟩

/-- The exponent bias. -/
def Ieee.bias (F : Ieee) : Int := 2 ^ (F.expBits - 1) - 1

/-- The bits of positive infinity: all bits of the exponent field, and only they, are set. -/
def Ieee.infBits (F : Ieee) : Nat := (2 ^ F.expBits - 1) * 2 ^ F.fracBits

/-- The bits of the sign alone. -/
def Ieee.signBit (F : Ieee) : Nat := 2 ^ (F.fracBits + F.expBits)

/-- The number whose sign bit is clear and whose other bits are `b`: subnormal if the exponent field is 0.  For the bits of infinity it gives the
power of two at which finite numbers end. -/
def Ieee.val (F : Ieee) (b : Nat) : ℚ :=
  let e := b / 2 ^ F.fracBits
  let m := b % 2 ^ F.fracBits
  if e = 0 then (m : ℚ) * 2 ^ (1 - F.bias - F.fracBits : ℤ)
  else ((2 ^ F.fracBits + m : ℕ) : ℚ) * 2 ^ ((e : ℤ) - F.bias - F.fracBits)

/-- Round to nearest, ties to even (IEEE 754, 4.3.1): among all numbers of the format, and infinity counted as the power of two at which they
end, `b` is the one nearest to `x`; if there are two, it is the one whose last bit is 0. -/
def Ieee.Nearest (F : Ieee) (x : ℚ) (b : Nat) : Prop :=
  b ≤ F.infBits ∧ ∀ c ≤ F.infBits, c ≠ b → |x - F.val b| < |x - F.val c| ∨ (|x - F.val b| = |x - F.val c| ∧ b % 2 = 0)

end C4.Spec
