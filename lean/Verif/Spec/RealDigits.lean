import Verif.Spec.Decimal
/-
A number written with a given number of significant digits.
-/
namespace C4.Spec

/-- The text `t` is a number that agrees with `x > 0` to `P` significant digits: the error is at most half a unit of the digit number `P` of `x`.  This is what `printf` gives for `%.{P-1}e` and
`%.{P}g` (C standard, 7.21.6.1). -/
def SignificantDigits (P : Nat) (x : ℚ) (t : Decimal) : Prop :=
  ∃ e : ℤ, 10 ^ e ≤ x ∧ x < 10 ^ (e + 1) ∧ |t.mag - x| ≤ 10 ^ (e + 1 - P) / 2

end C4.Spec
