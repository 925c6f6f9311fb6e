/-
Specification of number tokens in a text: character classes, integer and real tokens, and where they stand.
-/
namespace C4.Spec

def DecChar (c : Nat) : Prop := 48 ≤ c ∧ c ≤ 57
def HexChar (c : Nat) : Prop := (48 ≤ c ∧ c ≤ 57) ∨ (97 ≤ c ∧ c ≤ 102) ∨ (65 ≤ c ∧ c ≤ 70)
def BinChar (c : Nat) : Prop := c = 48 ∨ c = 49
def OctChar (c : Nat) : Prop := 48 ≤ c ∧ c ≤ 55

/-- Space, newline, carriage return, tab. -/
def Blank (c : Nat) : Prop := c = 32 ∨ c = 10 ∨ c = 13 ∨ c = 9

/-- Blanks, closing brackets, comma, semicolon, NUL. -/
def DelimChar (c : Nat) : Prop := Blank c ∨ c = 93 ∨ c = 41 ∨ c = 125 ∨ c = 44 ∨ c = 59 ∨ c = 0

/-- The text ends or goes on with a delimiter. -/
def DelimEnd (rest : List Nat) : Prop := ∀ c, rest.head? = some c → DelimChar c

/-- Non-empty string of characters of a class. -/
def Run (P : Nat → Prop) (ds : List Nat) : Prop := ds ≠ [] ∧ ∀ c ∈ ds, P c

/-- An unsigned integer literal: decimal digits, or `0x`, `0b`, `0o` (any case) and digits of that radix. -/
inductive IntBody : List Nat → Prop
  | dec {ds} : Run DecChar ds → IntBody ds
  | hex {x ds} : x = 120 ∨ x = 88 → Run HexChar ds → IntBody (48 :: x :: ds)
  | bin {x ds} : x = 98 ∨ x = 66 → Run BinChar ds → IntBody (48 :: x :: ds)
  | oct {x ds} : x = 111 ∨ x = 79 → Run OctChar ds → IntBody (48 :: x :: ds)

/-- An optional sign; a minus only if allowed. -/
def SignText (minus : Bool) (sg : List Nat) : Prop := sg = [] ∨ sg = [43] ∨ (minus = true ∧ sg = [45])

/-- An integer token: an optional sign and an integer literal. -/
def IntToken (minus : Bool) (t : List Nat) : Prop := ∃ sg body, t = sg ++ body ∧ SignText minus sg ∧ IntBody body

/-- Mantissa and exponent of a real literal: digits of class `dig` with an optional point, at least one digit, and
optionally an exponent introduced by a character of class `pw`, one of the `signs`, and decimal digits. -/
def RealBody (dig pw : Nat → Prop) (signs : List (List Nat)) (b : List Nat) : Prop :=
  ∃ ip fp ep, b = ip ++ fp ++ ep ∧ (∀ c ∈ ip, dig c) ∧
    ((fp = [] ∧ ip ≠ []) ∨ (∃ f, fp = 46 :: f ∧ (∀ c ∈ f, dig c) ∧ (ip ≠ [] ∨ f ≠ []))) ∧
    (ep = [] ∨ ∃ e sg ds, ep = e :: (sg ++ ds) ∧ pw e ∧ sg ∈ signs ∧ Run DecChar ds)

def IsE (c : Nat) : Prop := c = 101 ∨ c = 69
def IsP (c : Nat) : Prop := c = 112 ∨ c = 80

/-- An unsigned real literal: decimal with optional exponent; hexadecimal, binary or octal with optional power whose
sign is mandatory; `inf`, `infinity`, `nan`. -/
inductive RealLit : List Nat → Prop
  | dec {b} : RealBody DecChar IsE [[], [43], [45]] b → RealLit b
  | hex {x b} : x = 120 ∨ x = 88 → RealBody HexChar IsP [[43], [45]] b → RealLit (48 :: x :: b)
  | bin {x b} : x = 98 ∨ x = 66 → RealBody BinChar IsP [[43], [45]] b → RealLit (48 :: x :: b)
  | oct {x b} : x = 111 ∨ x = 79 → RealBody OctChar IsP [[43], [45]] b → RealLit (48 :: x :: b)
  | inf : RealLit [105, 110, 102]
  | infinity : RealLit [105, 110, 102, 105, 110, 105, 116, 121]
  | nan : RealLit [110, 97, 110]

/-- A real token: an optional sign and a real literal. -/
def RealToken (t : List Nat) : Prop := ∃ sg body, t = sg ++ body ∧ SignText true sg ∧ RealLit body

/-- The token (of language `T`) standing at the first non-blank character of `s` and followed by a delimiter or the end is
`[off, off+n)`. -/
def TokenAt (T : List Nat → Prop) (s : List Nat) (off n : Nat) : Prop :=
  ∃ ws tok rest, s = ws ++ tok ++ rest ∧ (∀ c ∈ ws, Blank c) ∧ T tok ∧ DelimEnd rest ∧ off = ws.length ∧ n = tok.length

end C4.Spec
