import Verif.Spec.Ieee
/-
Arithmetic of IEEE 754: an operation gives the exact result, rounded in the current rounding direction.  Only results that are not negative occur.
-/
namespace C4.Spec

/-- The rounding directions (IEEE 754, 4.3). -/
inductive Mode
  | nearest | up | down | zero
deriving DecidableEq, Repr

/-- `b` is the number of the format that `x ≥ 0` is rounded to. -/
def Ieee.Rounded (F : Ieee) (mode : Mode) (x : ℚ) (b : Nat) : Prop :=
  match mode with
  | .nearest => F.Nearest x b
  | .up => b ≤ F.infBits ∧ (x ≤ F.val b ∨ b = F.infBits) ∧ ∀ c < b, F.val c < x
  | .down | .zero => b < F.infBits ∧ F.val b ≤ x ∧ ∀ c < F.infBits, F.val c ≤ x → c ≤ b

/-- A floating point unit: the rounding direction of the thread, and the rounding of an exact result. -/
structure Fpu where
  mode : Mode
  round : Ieee → ℚ → Nat
  rounded : ∀ F, F = binary32 ∨ F = binary64 → ∀ x, 0 ≤ x → F.Rounded mode x (round F x)

end C4.Spec
