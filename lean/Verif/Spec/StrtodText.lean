import Verif.Basic
/-
The numbers that `strtod` and `scanf` know (C standard, 7.22.1.3, in the "C" locale), as a grammar.
-/
namespace C4.Spec.Strtod

def Dec (c : Nat) : Prop := 48 ≤ c ∧ c ≤ 57
def Hex (c : Nat) : Prop := Dec c ∨ (97 ≤ c ∧ c ≤ 102) ∨ (65 ≤ c ∧ c ≤ 70)
/-- The characters between the parentheses of `nan(...)`: letters, digits and underscores. -/
def Word (c : Nat) : Prop := Dec c ∨ (97 ≤ c ∧ c ≤ 122) ∨ (65 ≤ c ∧ c ≤ 90) ∨ c = 95

def Sign (s : List Nat) : Prop := s = [] ∨ s = [43] ∨ s = [45]

/-- Digits with at most one point among them, and at least one digit. -/
def Mantissa (D : Nat → Prop) (m : List Nat) : Prop :=
  ∃ i f, (∀ c ∈ i, D c) ∧ (∀ c ∈ f, D c) ∧ i ++ f ≠ [] ∧ (m = i ++ 46 :: f ∨ (f = [] ∧ m = i))

/-- Nothing, or a letter, a sign if any, and decimal digits. -/
def Exponent (e E : Nat) (x : List Nat) : Prop :=
  x = [] ∨ ∃ l sg ds, x = l :: (sg ++ ds) ∧ (l = e ∨ l = E) ∧ Sign sg ∧ ds ≠ [] ∧ ∀ c ∈ ds, Dec c

def Real (D : Nat → Prop) (e E : Nat) (s : List Nat) : Prop := ∃ m x, s = m ++ x ∧ Mantissa D m ∧ Exponent e E x

/-- The same letters in lower case. -/
def lower (s : List Nat) : List Nat := s.map fun c => if 65 ≤ c ∧ c ≤ 90 then c + 32 else c

/-- A number without its sign: decimal, hexadecimal, an infinity, or a NaN. -/
def Unsigned (s : List Nat) : Prop :=
  Real Dec 101 69 s ∨
  (∃ x m, s = 48 :: x :: m ∧ (x = 120 ∨ x = 88) ∧ Real Hex 112 80 m) ∨
  lower s = S "inf" ∨ lower s = S "infinity" ∨
  (∃ n t, s = n ++ t ∧ lower n = S "nan" ∧ (t = [] ∨ ∃ w, t = 40 :: (w ++ [41]) ∧ ∀ c ∈ w, Word c))

def Number (s : List Nat) : Prop := ∃ sg u, s = sg ++ u ∧ Sign sg ∧ Unsigned u

/-- The text can be continued to a number. -/
def Beginning (s : List Nat) : Prop := ∃ u, Number (s ++ u)

/-- What `scanf` takes of the text: the longest of its beginnings that is the beginning of a number. -/
def Takes (s : List Nat) (n : Nat) : Prop := n ≤ s.length ∧ Beginning (s.take n) ∧ ∀ m, n < m → m ≤ s.length → ¬ Beginning (s.take m)

end C4.Spec.Strtod
