import Verif.Spec.FloatText
/-
Decimal floating point texts in several formats and with any decimal point.
-/
namespace C4.Spec

/-- What a format allows: the decimal point; whether exponents are allowed, whether they may be missing, whether they may be written as in Fortran, with the
letter d or with a sign only. -/
structure NumFormat where
  point : Nat
  scientific : Bool
  fixed : Bool
  fortran : Bool
deriving DecidableEq, Repr

/-- A number: optional minus sign, digits, optionally the point and digits, optionally a letter, a sign and digits. -/
structure Num where
  neg : Bool
  int : List Nat
  frac : Option (List Nat)
  exp : Option (Option Nat × Option Nat × List Nat)
deriving DecidableEq, Repr

namespace Num

/-- The text of the point and the digits after it. -/
def fracText (pt : Nat) : Option (List Nat) → List Nat
  | none => []
  | some f => pt :: f

/-- The text of the exponent part. -/
def expText : Option (Option Nat × Option Nat × List Nat) → List Nat
  | none => []
  | some (l, sg, ds) => l.toList ++ (sg.toList ++ ds)

/-- The text, with a decimal point. -/
def text (pt : Nat) (t : Num) : List Nat := minus t.neg ++ (t.int ++ (fracText pt t.frac ++ expText t.exp))

/-- The digits of the significand. -/
def digits (t : Num) : List Nat := t.int ++ t.frac.getD []

/-- The same number as it is written in the general format, with the point '.' and the letter e. -/
def plain (t : Num) : Decimal := ⟨t.neg, t.int, t.frac, t.exp.map fun x => (101, x.2.1, x.2.2)⟩

/-- A letter before an exponent, if the sign of the exponent is `sg`. -/
def IsLetter (F : NumFormat) (l sg : Option Nat) : Prop :=
  (F.scientific = true ∧ (l = some 101 ∨ l = some 69)) ∨ (F.fortran = true ∧ (l = some 100 ∨ l = some 68 ∨ (l = none ∧ sg ≠ none)))

/-- The exponent part of a number in the format. -/
def ExpWF (F : NumFormat) (ex : Option (Option Nat × Option Nat × List Nat)) : Prop :=
  ∀ l sg ds, ex = some (l, sg, ds) → IsLetter F l sg ∧ (sg = none ∨ sg = some 43 ∨ sg = some 45) ∧ ds ≠ [] ∧ ∀ c ∈ ds, IsDigit c

/-- The number is one in the format: there is at least one digit in the significand, and one in the exponent if there is an exponent. -/
structure WF (F : NumFormat) (t : Num) : Prop where
  digits : ∀ c ∈ t.digits, IsDigit c
  nonempty : t.digits ≠ []
  exp : ExpWF F t.exp
  required : F.scientific = true → F.fixed = false → t.exp ≠ none

/-- The number is one in JSON (RFC 8259): digits before the point, without leading zeros, and digits after it. -/
structure Json (t : Num) : Prop where
  int : t.int ≠ []
  zeros : t.int.head? = some 48 → t.int = [48]
  frac : t.frac ≠ some []

end Num

/-- `s` is the number `t` in the format and then `rest`, and no longer prefix of `s` is a number in the format. -/
structure LongestIn (F : NumFormat) (s : List Nat) (t : Num) (rest : List Nat) : Prop where
  wf : t.WF F
  split : s = t.text F.point ++ rest
  longest : ∀ u r, Num.WF F u → s = u.text F.point ++ r → rest.length ≤ r.length

/-- No prefix is a number in the format. -/
def NoNumberIn (F : NumFormat) (s : List Nat) : Prop := ∀ t r, Num.WF F t → s ≠ t.text F.point ++ r

/-- A character that can be the decimal point: no digit, letter or sign. -/
def IsPoint (c : Nat) : Prop := ¬ IsDigit c ∧ ¬ (97 ≤ c ∧ c ≤ 122) ∧ ¬ (65 ≤ c ∧ c ≤ 90) ∧ c ≠ 43 ∧ c ≠ 45

end C4.Spec
