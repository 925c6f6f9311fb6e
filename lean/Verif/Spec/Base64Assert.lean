import Verif.Spec.Base64
/-
Which texts the assertions of `base64_decode` let through.
-/
namespace C4.Spec

/-- Every `=` at the third or fourth place of a group of four characters is in the last group, and one at the third place is followed by another. -/
def PaddedAtEnd (s : List Nat) : Prop :=
  ∀ i, s[i]? = some 61 → (i % 4 = 2 → i + 2 = s.length ∧ s[i + 1]? = some 61) ∧ (i % 4 = 3 → i + 1 = s.length)

/-- Groups of four characters of the alphabet or `=`, padded at the end; a `=` at the first or second place of a group is not looked at. -/
def AssertedBase64 (s : List Nat) : Prop := s.length % 4 = 0 ∧ (∀ c ∈ s, Base64Char c ∨ c = 61) ∧ PaddedAtEnd s

end C4.Spec
