import Verif.Basic
import Verif.Spec.Numeral
/-
Specification of text writers: what "writes `text` at the start of the buffer" means.
-/
namespace C4.Spec

/-- The buffer after storing `text` in its first characters: everything beyond is unchanged. -/
def overwrite (text buf : List Nat) : List Nat := text ++ buf.drop text.length

/-- The text of an integer: sign, radix prefix, at least `n` digits. -/
def radixPrefix (r : Nat) : List Nat :=
  if r = 16 then [48, 120] else if r = 2 then [48, 98] else if r = 8 then [48, 111] else []

/-- Radices supported by itoa/utoa. -/
def isRadix (r : Nat) : Prop := r = 2 ∨ r = 8 ∨ r = 10 ∨ r = 16

instance (r : Nat) : Decidable (isRadix r) := by unfold isRadix; infer_instance

/-- Text of a non-negative integer in radix `r` padded to `n` digits. -/
def uintText (r v n : Nat) : List Nat := radixPrefix r ++ paddedText r v n

/-- Text of an integer in radix `r` padded to `n` digits. -/
def intText (r : Nat) (v : Int) (n : Nat) : List Nat :=
  (if v < 0 then [45] else []) ++ uintText r v.natAbs n

theorem overwrite_length {text buf : List Nat} (h : text.length ≤ buf.length) :
    (overwrite text buf).length = buf.length := by
  simp [overwrite]; omega

theorem overwrite_take {text buf : List Nat} : (overwrite text buf).take text.length = text := by
  simp [overwrite]

theorem overwrite_drop {text buf : List Nat} :
    (overwrite text buf).drop text.length = buf.drop text.length := by
  simp [overwrite]

theorem paddedText_zero (r v : Nat) : paddedText r v 0 = numeralText r v := by simp [paddedText]

end C4.Spec
