import Verif.Spec.Numeral
import Mathlib.Algebra.Order.Field.Rat
/-
Decimal floating point texts: which texts are numbers, and which number they are.
-/
namespace C4.Spec

/-- '0' to '9'. -/
def IsDigit (c : Nat) : Prop := 48 ≤ c ∧ c ≤ 57

/-- The number written by a list of digits. -/
def digitsVal (ds : List Nat) : Nat := value 10 (ds.map (· - 48))

/-- A decimal number: optional minus sign, digits, optionally a point and digits, optionally the letter e or E, a sign and digits. -/
structure Decimal where
  neg : Bool
  int : List Nat
  frac : Option (List Nat)
  exp : Option (Nat × Option Nat × List Nat)
deriving DecidableEq, Repr

namespace Decimal

/-- The text of the point and the digits after it. -/
def fracText : Option (List Nat) → List Nat
  | none => []
  | some f => 46 :: f

/-- The text of the exponent part. -/
def expText : Option (Nat × Option Nat × List Nat) → List Nat
  | none => []
  | some (e, sg, ds) => e :: (sg.toList ++ ds)

/-- The text. -/
def text (t : Decimal) : List Nat :=
  (if t.neg then [45] else []) ++ (t.int ++ (fracText t.frac ++ expText t.exp))

/-- The digits of the significand. -/
def digits (t : Decimal) : List Nat := t.int ++ t.frac.getD []

/-- The exponent that is written. -/
def expVal (t : Decimal) : Int :=
  match t.exp with
  | none => 0
  | some (_, sg, ds) => if sg = some 45 then -(digitsVal ds : Int) else digitsVal ds

/-- There is at least one digit in the significand, and one in the exponent if there is an exponent. -/
structure WF (t : Decimal) : Prop where
  digits : ∀ c ∈ t.digits, IsDigit c
  nonempty : t.digits ≠ []
  exp : ∀ e sg ds, t.exp = some (e, sg, ds) → (e = 101 ∨ e = 69) ∧ (sg = none ∨ sg = some 43 ∨ sg = some 45) ∧ ds ≠ [] ∧ ∀ c ∈ ds, IsDigit c

/-- The absolute value. -/
def mag (t : Decimal) : ℚ := (digitsVal t.digits : ℚ) * 10 ^ (t.expVal - ((t.frac.getD []).length : Int))

end Decimal
end C4.Spec
