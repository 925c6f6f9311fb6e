import Verif.Basic
/-
Model of the text half of fast_float (/repo/src/c4/ext/fast_float_all.h), for `char` and the format `general` with '.' as decimal point,
which is what c4core uses.  A pointer into the text is the list of the characters from there to the end.  `int64_t` values are unbounded
integers: they are sums of lengths and of an exponent below 2^32.
-/
namespace C4.FF

/-- `is_integer(c)` (/repo/src/c4/ext/fast_float_all.h:934-938). -/
def isInteger (c : Nat) : Bool := !(c > 57 || c < 48)

/-- `read8_to_u64(chars)` (/repo/src/c4/ext/fast_float_all.h:952-971): the first byte is the lowest one. -/
def read8 : List Nat → Nat
  | [] => 0
  | c :: s => c + 256 * read8 s

/-- `parse_eight_digits_unrolled(val)` (/repo/src/c4/ext/fast_float_all.h:1026-1037). -/
def parseEightDigitsUnrolled (val : Nat) : Nat :=
  let mask := 0x000000FF000000FF
  let mul1 := 0x000F424000000064
  let mul2 := 0x0000271000000001
  let val := (val + (2 ^ 64 - 0x3030303030303030)) % 2 ^ 64
  let val := (val * 10 + (val >>> 8)) % 2 ^ 64
  let val := (((val &&& mask) * mul1 + ((val >>> 16) &&& mask) * mul2) % 2 ^ 64) >>> 32
  val % 2 ^ 32

/-- `is_made_of_eight_digits_fast(val)` (/repo/src/c4/ext/fast_float_all.h:1051-1055). -/
def isMadeOfEightDigitsFast (val : Nat) : Bool :=
  (((val + 0x4646464646464646) % 2 ^ 64 ||| (val + (2 ^ 64 - 0x3030303030303030)) % 2 ^ 64) &&& 0x8080808080808080) == 0

/-- `loop_parse_if_eight_digits(p, pend, i)` (/repo/src/c4/ext/fast_float_all.h:1129-1136): the new `p` and `i`. -/
def loopParseIfEightDigits : List Nat → Nat → List Nat × Nat
  | c0 :: c1 :: c2 :: c3 :: c4 :: c5 :: c6 :: c7 :: s, i =>
    let val := read8 [c0, c1, c2, c3, c4, c5, c6, c7]
    if isMadeOfEightDigitsFast val then
      loopParseIfEightDigits s ((i * 100000000 + parseEightDigitsUnrolled val) % 2 ^ 64)
    else (c0 :: c1 :: c2 :: c3 :: c4 :: c5 :: c6 :: c7 :: s, i)
  | s, i => (s, i)

/-- The loops over digits one at a time (/repo/src/c4/ext/fast_float_all.h:1189-1195 and 1215-1219): the new `p` and `i`. -/
def digitLoop : List Nat → Nat → List Nat × Nat
  | [], i => ([], i)
  | c :: s, i => if isInteger c then digitLoop s ((10 * i + (c - 48)) % 2 ^ 64) else (c :: s, i)

/-- The loop over the digits of the exponent (/repo/src/c4/ext/fast_float_all.h:1260-1266): the new `p` and `exp_number`. -/
def expLoop : List Nat → Nat → List Nat × Nat
  | [], e => ([], e)
  | c :: s, e => if isInteger c then expLoop s (if e < 0x10000000 then 10 * e + (c - 48) else e) else (c :: s, e)

/-- The loop over leading zeros (/repo/src/c4/ext/fast_float_all.h:1288-1291): the new `digit_count`. -/
def zeroLoop : List Nat → Int → Int
  | [], n => n
  | c :: s, n => if c = 48 then zeroLoop s (n - 1) else if c = 46 then zeroLoop s n else n

/-- The loops over at most nineteen digits (/repo/src/c4/ext/fast_float_all.h:1302-1305 and 1312-1315): the new `p` and `i`. -/
def nineteenLoop : List Nat → Nat → List Nat × Nat
  | [], i => ([], i)
  | c :: s, i => if i < 1000000000000000000 then nineteenLoop s ((i * 10 + (c - 48)) % 2 ^ 64) else (c :: s, i)

/-- `parsed_number_string_t` (/repo/src/c4/ext/fast_float_all.h:1138-1149).  `lastmatch` is the text after the number. -/
structure PNS where
  exponent : Int
  mantissa : Nat
  lastmatch : List Nat
  negative : Bool
  valid : Bool
  tooManyDigits : Bool
  integer : List Nat
  fraction : Option (List Nat)
deriving DecidableEq, Repr

/-- An `answer` that is not valid; its other members are not read. -/
def invalidPNS : PNS := ⟨0, 0, [], false, false, false, [], none⟩

/-- The exponent part (/repo/src/c4/ext/fast_float_all.h:1233-1273): the new `p` and the number to add to the exponent. -/
def exponentPart (p : List Nat) : List Nat × Int :=
  match p with
  | [] => ([], 0)
  | c :: s =>
    if c = 101 ∨ c = 69 then
      let (negExp, s) := match s with
        | d :: s' => if d = 45 then (true, s') else if d = 43 then (false, s') else (false, d :: s')
        | [] => (false, [])
      match s with
      | [] => (p, 0)
      | d :: s' =>
        if isInteger d then
          let (s'', e) := expLoop (d :: s') 0
          (s'', if negExp then -(e : Int) else e)
        else (p, 0)
    else (p, 0)

/-- The end of `parse_number_string` (/repo/src/c4/ext/fast_float_all.h:1277-1323): more than nineteen digits. -/
def fixDigits (startDigits integer : List Nat) (fraction : Option (List Nat)) (digitCount : Int) (i : Nat) (exponent expNumber : Int) :
    Nat × Int × Bool :=
  if digitCount > 19 then
    if zeroLoop startDigits digitCount > 19 then
      let (p, i) := nineteenLoop integer 0
      if i ≥ 1000000000000000000 then (i, (p.length : Int) + expNumber, true)
      else
        let frac := fraction.getD []
        let (p, i) := nineteenLoop frac i
        (i, (p.length : Int) - frac.length + expNumber, true)
    else (i, exponent, false)
  else (i, exponent, false)

/-- The part of `parse_number_string` after the sign (/repo/src/c4/ext/fast_float_all.h:1185-1324). -/
def parseUnsigned (negative : Bool) (startDigits : List Nat) : PNS :=
  let (p, i) := digitLoop startDigits 0
  let integer := startDigits.take (startDigits.length - p.length)
  let digitCount : Int := (startDigits.length - p.length : Nat)
  let hasDecimalPoint := p.head? == some 46
  let (p, i, exponent, fraction) :=
    if hasDecimalPoint then
      let before := p.drop 1
      let (p, i) := loopParseIfEightDigits before i
      let (p, i) := digitLoop p i
      (p, i, (p.length : Int) - before.length, some (before.take (before.length - p.length)))
    else (p, i, (0 : Int), none)
  let digitCount := digitCount - exponent
  if digitCount = 0 then invalidPNS
  else
    let (p, expNumber) := exponentPart p
    let exponent := exponent + expNumber
    let (i, exponent, tooMany) := fixDigits startDigits integer fraction digitCount i exponent expNumber
    ⟨exponent, i, p, negative, true, tooMany, integer, fraction⟩

/-- `parse_number_string(p, pend, options)` (/repo/src/c4/ext/fast_float_all.h:1154-1324). -/
def parseNumberString (p : List Nat) : Res PNS :=
  match p with
  | [] => .ub
  | c :: s =>
    if c = 45 then
      match s with
      | [] => .ok invalidPNS
      | d :: _ => if !isInteger d && d ≠ 46 then .ok invalidPNS else .ok (parseUnsigned true s)
    else .ok (parseUnsigned false p)

end C4.FF
