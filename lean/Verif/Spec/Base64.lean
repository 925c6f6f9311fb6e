/-
Specification of base64 (RFC 4648, section 4): the bytes form a bit string, most significant bit first, which is cut into
groups of six bits, the last one filled up with zero bits; every group is written as a letter of the alphabet, and the
text is filled up with `=` to a multiple of four characters.
-/
namespace C4.Spec

/-- The `n` low bits of a number, most significant first. -/
def bits : Nat → Nat → List Nat
  | 0, _ => []
  | n+1, v => (v / 2 ^ n) % 2 :: bits n v

/-- The number of a bit string. -/
def bitsValue : List Nat → Nat → Nat
  | [], acc => acc
  | b :: bs, acc => bitsValue bs (2 * acc + b)

/-- The bit string of a byte string. -/
def byteBits (data : List Nat) : List Nat := (data.map (bits 8)).flatten

/-- Groups of six bits as numbers, the last one filled up with zeros. -/
def sextets : List Nat → List Nat
  | a :: b :: c :: d :: e :: f :: r => bitsValue [a, b, c, d, e, f] 0 :: sextets r
  | [] => []
  | [a] => [bitsValue [a, 0, 0, 0, 0, 0] 0]
  | [a, b] => [bitsValue [a, b, 0, 0, 0, 0] 0]
  | [a, b, c] => [bitsValue [a, b, c, 0, 0, 0] 0]
  | [a, b, c, d] => [bitsValue [a, b, c, d, 0, 0] 0]
  | [a, b, c, d, e] => [bitsValue [a, b, c, d, e, 0] 0]

/-- The letter of a six-bit group: `A`-`Z`, `a`-`z`, `0`-`9`, `+`, `/`. -/
def letter (i : Nat) : Nat :=
  if i < 26 then 65 + i else if i < 52 then 97 + (i - 26) else if i < 62 then 48 + (i - 52) else if i = 62 then 43 else 47

/-- Fill up with `=` to a multiple of four. -/
def padText (t : List Nat) : List Nat := t ++ List.replicate ((4 - t.length % 4) % 4) 61

/-- The encoding. -/
def base64Text (data : List Nat) : List Nat := padText ((sextets (byteBits data)).map letter)

/-- A character of the alphabet. -/
def Base64Char (c : Nat) : Prop := ∃ i, i < 64 ∧ c = letter i

/-- A well formed text: full quartets of letters, then nothing, or one quartet ending in one or two `=`. -/
inductive Base64WF : List Nat → Prop
  | nil : Base64WF []
  | pad1 {a b c} : Base64Char a → Base64Char b → Base64Char c → Base64WF [a, b, c, 61]
  | pad2 {a b} : Base64Char a → Base64Char b → Base64WF [a, b, 61, 61]
  | quartet {a b c d r} : Base64Char a → Base64Char b → Base64Char c → Base64Char d → Base64WF r →
      Base64WF (a :: b :: c :: d :: r)

/-- The buffer after storing as much of a text as fits. -/
def stamp (t buf : List Nat) : List Nat := t.take buf.length ++ buf.drop t.length

/-- Specification: `data` is the byte string a text stands for: the bits of its letters are the bits of the bytes and less than
eight more. -/
def DecodesTo (t data : List Nat) : Prop :=
  (∀ b ∈ data, b < 256) ∧ ∃ idx slack : List Nat, (∀ i ∈ idx, i < 64) ∧ t = padText (idx.map letter) ∧ slack.length < 8 ∧
    (idx.map (bits 6)).flatten = byteBits data ++ slack

end C4.Spec
