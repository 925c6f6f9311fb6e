import Verif.Spec.NumFormat
/-
What it means that a text of wide characters is like a text of narrow ones: the same, except for characters that cannot be a part of a number.
-/
namespace C4.Spec

/-- Characters that cannot be a part of a number or of the words for NaN and infinity, unless one is the decimal point: no digit, letter, sign,
parenthesis or underscore. -/
def Other (c : Nat) : Prop := IsPoint c ∧ c ≠ 40 ∧ c ≠ 41 ∧ c ≠ 95

/-- The character `c'` can stand for `c`: they are the same or both are characters of no meaning; the decimal point `dp'` stands for `dp` only. -/
def StandsFor (dp dp' c c' : Nat) : Prop := (c = dp ↔ c' = dp') ∧ (c' = c ∨ (Other c ∧ Other c'))

end C4.Spec
