import Verif.MemUtil
import Verif.Substr.Search
/-
Model of the integer reading half of /repo/src/c4/charconv.hpp (lines 850-970, 1432-1600, 1616-1810) and of
`fmt::overflow_checked` (/repo/src/c4/format.hpp:326-343).

A value of an integer type `T` is an `Int` in the range of `T`.  Arithmetic on `T` happens in the promoted
type (`int` for types narrower than `int`), where a signed overflow is recorded in a flag and the result
wraps; the conversion back to `T` wraps without overflow (two's complement, as all supported compilers do).
A reader returns `(returned bool, *v, overflow flag)`.
-/
namespace C4

/-- An integer type: width and signedness. -/
structure ITy where
  w : W
  sgn : Bool
  deriving DecidableEq, Repr

/-- Smallest value of the type. -/
def ITy.min (t : ITy) : Int := if t.sgn then -(2 ^ (t.w.bits - 1) : Nat) else 0
/-- Largest value of the type. -/
def ITy.max (t : ITy) : Int := if t.sgn then (2 ^ (t.w.bits - 1) : Nat) - 1 else (2 ^ t.w.bits : Nat) - 1

/-- Conversion of any integer to the type (modulo 2^width, two's complement). -/
def ITy.wrap (t : ITy) (x : Int) : Int :=
  if t.sgn then Int.bmod x (2 ^ t.w.bits) else x % (2 ^ t.w.bits : Nat)

/-- Integral promotion: types narrower than `int` (32 bit) are promoted to `int`. -/
def ITy.prom (t : ITy) : ITy :=
  match t.w with
  | .w8 | .w16 => ⟨.w32, true⟩
  | _ => t

/-- Result of an arithmetic operation in the promoted type: the value, and whether a signed overflow
(undefined behaviour in C++) happened. -/
def ITy.arith (t : ITy) (x : Int) : Int × Bool :=
  (t.prom.wrap x, t.prom.sgn && (decide (x < t.prom.min) || decide (x > t.prom.max)))

/-- `(*v) * I(b) + d` assigned to `*v` of type `t` (/repo/src/c4/charconv.hpp:874, 909, 967). -/
def mulAdd (t : ITy) (b : Nat) (v : Int) (d : Nat) : Int × Bool :=
  let (m, o1) := t.arith (v * b)
  let (a, o2) := t.arith (m + d)
  (t.wrap a, o1 || o2)

/-- `read_dec` (/repo/src/c4/charconv.hpp:863-877): the loop, with the current `*v` and overflow flag. -/
def readDecLoop (t : ITy) : List Nat → Int → Bool → Bool × Int × Bool
  | [], v, o => (true, v, o)
  | c :: s, v, o =>
    if c < 48 ∨ c > 57 then (false, v, o)
    else
      let (v', o') := mulAdd t 10 v (c - 48)
      readDecLoop t s v' (o || o')

/-- `read_dec` (/repo/src/c4/charconv.hpp:863-877). -/
def readDec (t : ITy) (s : List Nat) : Bool × Int × Bool := readDecLoop t s 0 false

/-- The loop of `read_hex` (/repo/src/c4/charconv.hpp:898-911). -/
def readHexLoop (t : ITy) : List Nat → Int → Bool → Bool × Int × Bool
  | [], v, o => (true, v, o)
  | c :: s, v, o =>
    if c ≥ 48 ∧ c ≤ 57 then
      let (v', o') := mulAdd t 16 v (c - 48)
      readHexLoop t s v' (o || o')
    else if c ≥ 97 ∧ c ≤ 102 then
      let (v', o') := mulAdd t 16 v (10 + (c - 97))
      readHexLoop t s v' (o || o')
    else if c ≥ 65 ∧ c ≤ 70 then
      let (v', o') := mulAdd t 16 v (10 + (c - 65))
      readHexLoop t s v' (o || o')
    else (false, v, o)

/-- `read_hex` (/repo/src/c4/charconv.hpp:891-912). -/
def readHex (t : ITy) (s : List Nat) : Bool × Int × Bool := readHexLoop t s 0 false

/-- `*v <<= 1` (/repo/src/c4/charconv.hpp:935).  Before C++20 a left shift in a signed type is undefined if the
operand is negative or the result is not representable in the corresponding unsigned type; this is recorded
in the same flag. -/
def shl1 (t : ITy) (v : Int) : Int × Bool :=
  (t.wrap (t.prom.wrap (v * 2)),
    t.prom.sgn && (decide (v < 0) || decide (v * 2 ≥ (2 ^ t.prom.w.bits : Nat))))

/-- The loop of `read_bin` (/repo/src/c4/charconv.hpp:933-941).  `*v |= 1` after the shift sets the low bit,
which is zero, so it is an addition of 1 (no overflow: the value is even). -/
def readBinLoop (t : ITy) : List Nat → Int → Bool → Bool × Int × Bool
  | [], v, o => (true, v, o)
  | c :: s, v, o =>
    let (v', o') := shl1 t v
    if c = 49 then readBinLoop t s (v' + 1) (o || o')
    else if c ≠ 48 then (false, v', o || o')
    else readBinLoop t s v' (o || o')

/-- `read_bin` (/repo/src/c4/charconv.hpp:926-942). -/
def readBin (t : ITy) (s : List Nat) : Bool × Int × Bool := readBinLoop t s 0 false

/-- The loop of `read_oct` (/repo/src/c4/charconv.hpp:963-969). -/
def readOctLoop (t : ITy) : List Nat → Int → Bool → Bool × Int × Bool
  | [], v, o => (true, v, o)
  | c :: s, v, o =>
    if c < 48 ∨ c > 55 then (false, v, o)
    else
      let (v', o') := mulAdd t 8 v (c - 48)
      readOctLoop t s v' (o || o')

/-- `read_oct` (/repo/src/c4/charconv.hpp:956-970). -/
def readOct (t : ITy) (s : List Nat) : Bool × Int × Bool := readOctLoop t s 0 false

/-- `*v *= sign` (/repo/src/c4/charconv.hpp:1497). -/
def mulSign (t : ITy) (v : Int) (sign : Int) : Int × Bool :=
  let (m, o) := t.arith (v * sign)
  (t.wrap m, o)

/-- The part of `atoi` that reads the magnitude starting at `start`
(/repo/src/c4/charconv.hpp:1469-1494). -/
def atoiMag (t : ITy) (str : List Nat) (start : Nat) : Res (Bool × Int × Bool) := do
  let c ← rd str start
  if c ≠ 48 then .ok (readDec t (str.drop start))
  else if str.length > start + 1 then do
    let pfx ← rd str (start + 1)
    if pfx = 120 ∨ pfx = 88 then
      if str.length > start + 2 then .ok (readHex t (str.drop (start + 2))) else .ok (false, 0, false)
    else if pfx = 98 ∨ pfx = 66 then
      if str.length > start + 2 then .ok (readBin t (str.drop (start + 2))) else .ok (false, 0, false)
    else if pfx = 111 ∨ pfx = 79 then
      if str.length > start + 2 then .ok (readOct t (str.drop (start + 2))) else .ok (false, 0, false)
    else .ok (readDec t (str.drop (start + 1)))
  else .ok (readDec t (str.drop start))

/-- `atoi(csubstr str, T *v)` (/repo/src/c4/charconv.hpp:1453-1499).  When the returned bool is false the
value is meaningless (`*v` may not even have been written; the model then gives 0). -/
def atoi (t : ITy) (str : List Nat) : Res (Bool × Int × Bool) :=
  if str.length = 0 then .ok (false, 0, false)
  else do
    let c0 ← rd str 0
    let sign : Int := if c0 = 45 then -1 else 1
    let start := if c0 = 45 then 1 else 0
    if c0 = 45 ∧ str.length = 1 then .ok (false, 0, false)
    else do
      let (ok, v, o) ← atoiMag t str start
      if ok then
        let (v', o') := mulSign t v sign
        .ok (true, v', o || o')
      else .ok (false, v, o)

/-- `atou(csubstr str, T *v)` (/repo/src/c4/charconv.hpp:1547-1580). -/
def atou (t : ITy) (str : List Nat) : Res (Bool × Int × Bool) :=
  if str.length = 0 then .ok (false, 0, false)
  else do
    let c0 ← rd str 0
    if c0 = 45 then .ok (false, 0, false)
    else if c0 ≠ 48 then .ok (readDec t str)
    else if str.length > 1 then do
      let pfx ← rd str 1
      if pfx = 120 ∨ pfx = 88 then
        if str.length > 2 then .ok (readHex t (str.drop 2)) else .ok (false, 0, false)
      else if pfx = 98 ∨ pfx = 66 then
        if str.length > 2 then .ok (readBin t (str.drop 2)) else .ok (false, 0, false)
      else if pfx = 111 ∨ pfx = 79 then
        if str.length > 2 then .ok (readOct t (str.drop 2)) else .ok (false, 0, false)
      else .ok (readDec t str)
    else .ok (true, 0, false)

end C4
