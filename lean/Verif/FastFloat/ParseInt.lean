import Verif.Charconv.Read
import Verif.FastFloat.Parse
/-
Model of the integer half of fast_float (/repo/src/c4/ext/fast_float_all.h), for `char` and the default configuration.
-/
namespace C4.FF

/-- `int_luts::chdigit` (/repo/src/c4/ext/fast_float_all.h:791-810). -/
def chdigit : List Nat := [
  255, 255, 255, 255, 255, 255, 255, 255, 255, 255, 255, 255, 255, 255, 255, 255, 255, 255, 255, 255, 255, 255, 255, 255, 255, 255, 255, 255, 255, 255, 255, 255,
  255, 255, 255, 255, 255, 255, 255, 255, 255, 255, 255, 255, 255, 255, 255, 255, 0, 1, 2, 3, 4, 5, 6, 7, 8, 9, 255, 255, 255, 255, 255, 255,
  255, 10, 11, 12, 13, 14, 15, 16, 17, 18, 19, 20, 21, 22, 23, 24, 25, 26, 27, 28, 29, 30, 31, 32, 33, 34, 35, 255, 255, 255, 255, 255,
  255, 10, 11, 12, 13, 14, 15, 16, 17, 18, 19, 20, 21, 22, 23, 24, 25, 26, 27, 28, 29, 30, 31, 32, 33, 34, 35, 255, 255, 255, 255, 255,
  255, 255, 255, 255, 255, 255, 255, 255, 255, 255, 255, 255, 255, 255, 255, 255, 255, 255, 255, 255, 255, 255, 255, 255, 255, 255, 255, 255, 255, 255, 255, 255,
  255, 255, 255, 255, 255, 255, 255, 255, 255, 255, 255, 255, 255, 255, 255, 255, 255, 255, 255, 255, 255, 255, 255, 255, 255, 255, 255, 255, 255, 255, 255, 255,
  255, 255, 255, 255, 255, 255, 255, 255, 255, 255, 255, 255, 255, 255, 255, 255, 255, 255, 255, 255, 255, 255, 255, 255, 255, 255, 255, 255, 255, 255, 255, 255,
  255, 255, 255, 255, 255, 255, 255, 255, 255, 255, 255, 255, 255, 255, 255, 255, 255, 255, 255, 255, 255, 255, 255, 255, 255, 255, 255, 255, 255, 255, 255, 255]

/-- `int_luts::maxdigits_u64` (/repo/src/c4/ext/fast_float_all.h:812-818). -/
def maxdigitsU64 : List Nat := [
  64, 41, 32, 28, 25, 23, 22, 21, 20, 19, 18, 18, 17, 17, 16, 16, 16, 16,
  15, 15, 15, 15, 14, 14, 14, 14, 14, 14, 14, 13, 13, 13, 13, 13, 13]

/-- `int_luts::min_safe_u64` (/repo/src/c4/ext/fast_float_all.h:820-828). -/
def minSafeU64 : List Nat := [
  9223372036854775808, 12157665459056928801, 4611686018427387904, 7450580596923828125, 4738381338321616896, 3909821048582988049,
  9223372036854775808, 12157665459056928801, 10000000000000000000, 5559917313492231481, 2218611106740436992, 8650415919381337933,
  2177953337809371136, 6568408355712890625, 1152921504606846976, 2862423051509815793, 6746640616477458432, 15181127029874798299,
  1638400000000000000, 3243919932521508681, 6221821273427820544, 11592836324538749809, 876488338465357824, 1490116119384765625,
  2481152873203736576, 4052555153018976267, 6502111422497947648, 10260628712958602189, 15943230000000000000, 787662783788549761,
  1152921504606846976, 1667889514952984961, 2386420683693101056, 3379220508056640625, 4738381338321616896]

/-- `ch_to_digit(c)` (/repo/src/c4/ext/fast_float_all.h:840-842). -/
def chToDigit (c : Nat) : Nat := chdigit.getD c 255

/-- `max_digits_u64(base)` and `min_safe_u64(base)` (/repo/src/c4/ext/fast_float_all.h:844-850). -/
def maxDigitsU64 (base : Nat) : Nat := maxdigitsU64.getD (base - 2) 0
def minSafe (base : Nat) : Nat := minSafeU64.getD (base - 2) 0

/-- `std::errc` as far as it is used. -/
inductive IntErrc
  | ok | invalidArgument | resultOutOfRange
deriving DecidableEq, Repr

/-- What a call gives: the error code, the text from `ptr` on, and the value if it was assigned. -/
structure IntResult where
  ec : IntErrc
  ptr : List Nat
  value : Option Int
deriving DecidableEq, Repr

/-- The loop over leading zeros (/repo/src/c4/ext/fast_float_all.h:1349-1351). -/
def skipZeroDigits : List Nat → List Nat
  | [] => []
  | c :: s => if c = 48 then skipZeroDigits s else c :: s

/-- The loop over the digits (/repo/src/c4/ext/fast_float_all.h:1361-1368): the new `p` and `i`. -/
def baseLoop (base : Nat) : List Nat → Nat → List Nat × Nat
  | [], i => ([], i)
  | c :: s, i => if chToDigit c ≥ base then (c :: s, i) else baseLoop base s ((base * i + chToDigit c) % 2 ^ 64)

/-- The checks after the digits were read, and the assignment (/repo/src/c4/ext/fast_float_all.h:1385-1424).  `T(i - uint64_t(max))` is
computed with wrap-around. -/
def intStore (t : ITy) (base : Nat) (negative : Bool) (digitCount i : Nat) (p : List Nat) : IntResult :=
  if digitCount > maxDigitsU64 base then ⟨.resultOutOfRange, p, none⟩
  else if digitCount = maxDigitsU64 base ∧ i < minSafe base then ⟨.resultOutOfRange, p, none⟩
  else if ¬ (t.w = .w64 ∧ t.sgn = false) ∧ i > (t.max.toNat + (if negative then 1 else 0)) % 2 ^ 64 then ⟨.resultOutOfRange, p, none⟩
  else if negative then ⟨.ok, p, some (t.wrap (-t.max - t.wrap (((i : Int) - t.max) % 2 ^ 64)))⟩
  else ⟨.ok, p, some (t.wrap i)⟩

/-- `parse_int_string(p, pend, value, base)` (/repo/src/c4/ext/fast_float_all.h:1326-1425), without `FASTFLOAT_ALLOWS_LEADING_PLUS`; reading the
first character of an empty text is undefined. -/
def parseIntString (t : ITy) (base : Nat) (first : List Nat) : Res IntResult :=
  match first with
  | [] => .ub
  | c :: s =>
    let negative : Bool := c == 45
    if t.sgn = false ∧ negative = true then .ok ⟨.invalidArgument, first, none⟩
    else
      let startNum := if negative then s else first
      let startDigits := skipZeroDigits startNum
      let hasLeadingZeros : Bool := decide (startDigits.length < startNum.length)
      let (p, i) := if base = 10 then loopParseIfEightDigits startDigits 0 else (startDigits, 0)
      let (p, i) := baseLoop base p i
      let digitCount := startDigits.length - p.length
      if digitCount = 0 then
        .ok (if hasLeadingZeros then ⟨.ok, p, some 0⟩ else ⟨.invalidArgument, first, none⟩)
      else .ok (intStore t base negative digitCount i p)

/-- `from_chars(first, last, value, base)` for integers (/repo/src/c4/ext/fast_float_all.h:3656-3673), without `FASTFLOAT_SKIP_WHITE_SPACE`. -/
def intFromChars (t : ITy) (base : Int) (first : List Nat) : Res IntResult :=
  if first = [] ∨ base < 2 ∨ base > 36 then .ok ⟨.invalidArgument, first, none⟩
  else parseIntString t base.toNat first

end C4.FF
