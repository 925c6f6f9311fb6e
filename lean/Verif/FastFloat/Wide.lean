import Verif.FastFloat.ParseOpts
import Verif.FastFloat.ParseInt
/-
Model of fast_float for all its character types (/repo/src/c4/ext/fast_float_all.h): the functions that depend on the type `UC`.  A text is the list of its
code units, which are taken to be unsigned (`wchar_t` is like `char16_t` or `char32_t`, but never read with SIMD instructions).  The macros
`FASTFLOAT_SKIP_WHITE_SPACE`, `FASTFLOAT_ALLOWS_LEADING_PLUS` are not defined, and nothing is evaluated at compile time.
-/
namespace C4.FF
open Spec

/-- The character type. -/
inductive Uc
  | char | char16 | char32
deriving DecidableEq, Repr

/-- `sizeof(UC)`. -/
def Uc.bytes : Uc → Nat
  | .char => 1 | .char16 => 2 | .char32 => 4

/-- The SIMD instructions that are used (/repo/src/c4/ext/fast_float_all.h:219-233). -/
inductive Simd
  | none | sse2 | neon
deriving DecidableEq, Repr

structure Cfg where
  uc : Uc
  simd : Simd
  bigEndian : Bool
deriving DecidableEq, Repr

/-- `has_simd_opt<UC>()` (/repo/src/c4/ext/fast_float_all.h:924-931). -/
def Cfg.hasSimdOpt (k : Cfg) : Bool := k.simd != .none && k.uc == .char16

/-- `n` bytes of a number, the lowest first. -/
def leBytes : Nat → Nat → List Nat
  | 0, _ => []
  | n + 1, c => c % 256 :: leBytes n (c / 256)

/-- The bytes of a code unit in memory. -/
def Cfg.unitBytes (k : Cfg) (c : Nat) : List Nat := if k.bigEndian then (leBytes k.uc.bytes c).reverse else leBytes k.uc.bytes c

/-- `memcpy(&val, chars, sizeof(uint64_t))`: eight bytes of memory as a number. -/
def Cfg.memcpyU64 (k : Cfg) (chars : List Nat) : Nat :=
  let bs := chars.flatMap k.unitBytes
  if k.bigEndian then read8 bs.reverse else read8 bs

/-- `byteswap(val)` (/repo/src/c4/ext/fast_float_all.h:940-949). -/
def byteswap (val : Nat) : Nat :=
  ((val &&& 0xFF00000000000000) >>> 56) ||| ((val &&& 0x00FF000000000000) >>> 40) ||| ((val &&& 0x0000FF0000000000) >>> 24) |||
  ((val &&& 0x000000FF00000000) >>> 8) ||| ((val &&& 0x00000000FF000000) <<< 8) ||| ((val &&& 0x0000000000FF0000) <<< 24) |||
  ((val &&& 0x000000000000FF00) <<< 40) ||| ((val &&& 0x00000000000000FF) <<< 56)

/-- The loop of `read8_to_u64` (/repo/src/c4/ext/fast_float_all.h:956-960), from the `i`-th character on. -/
def orBytes : List Nat → Nat → Nat → Nat
  | [], _, val => val
  | c :: s, i, val => orBytes s (i + 1) (val ||| ((c % 256) <<< (i * 8)))

/-- `read8_to_u64(chars)` (/repo/src/c4/ext/fast_float_all.h:952-971). -/
def Cfg.read8 (k : Cfg) (chars : List Nat) : Nat :=
  if k.uc ≠ .char then orBytes chars 0 0
  else if k.bigEndian then byteswap (k.memcpyU64 chars) else k.memcpyU64 chars

/-- A 16-bit number as a signed one. -/
def sgn16 (c : Nat) : Int := if c < 2 ^ 15 then c else (c : Int) - 2 ^ 16

/-- One number of `_mm_packus_epi16`: a signed 16-bit number is converted to an unsigned 8-bit one, with saturation. -/
def packus (c : Nat) : Nat := if sgn16 c < 0 then 0 else if sgn16 c > 255 then 255 else c

/-- `simd_read8_to_u64(data)` (/repo/src/c4/ext/fast_float_all.h:975-1012); `vmovn_u16` keeps the low bytes.  Taken for
processors with the lowest byte first, which is a simplification for those with NEON.  The function for the other types returns 0 (1023-1025). -/
def Cfg.simdRead8 (k : Cfg) (chars : List Nat) : Nat :=
  match k.simd with
  | .sse2 => FF.read8 (chars.map packus)
  | .neon => FF.read8 (chars.map (· % 256))
  | .none => 0

/-- `parse_eight_digits_unrolled(chars)` (/repo/src/c4/ext/fast_float_all.h:1043-1048). -/
def Cfg.parseEight (k : Cfg) (chars : List Nat) : Nat :=
  if k.hasSimdOpt then parseEightDigitsUnrolled (k.simdRead8 chars) else parseEightDigitsUnrolled (k.read8 chars)

/-- The test of `simd_parse_if_eight_digits_unrolled(chars, i)` (/repo/src/c4/ext/fast_float_all.h:1064-1101): every 16-bit number is added to 32720 and compared
with -32759, signed (SSE2), or 48 is subtracted from it and it is compared with 10, unsigned (NEON). -/
def Cfg.simdIsEight (k : Cfg) (chars : List Nat) : Bool :=
  match k.simd with
  | .sse2 => chars.all fun c => !(decide (sgn16 ((c + 32720) % 2 ^ 16) > -32759))
  | .neon => chars.all fun c => decide ((c + (2 ^ 16 - 48)) % 2 ^ 16 < 10)
  | .none => false

/-- The test of `loop_parse_if_eight_digits(p, pend, i)` (/repo/src/c4/ext/fast_float_all.h:1118-1136). -/
def Cfg.isEight (k : Cfg) (chars : List Nat) : Bool :=
  if k.uc = .char then isMadeOfEightDigitsFast (k.read8 chars) else k.hasSimdOpt && k.simdIsEight chars

/-- `loop_parse_if_eight_digits(p, pend, i)` (/repo/src/c4/ext/fast_float_all.h:1118-1136): the new `p` and `i`. -/
def Cfg.loopEight (k : Cfg) : List Nat → Nat → List Nat × Nat
  | c0 :: c1 :: c2 :: c3 :: c4 :: c5 :: c6 :: c7 :: s, i =>
    if k.isEight [c0, c1, c2, c3, c4, c5, c6, c7] then
      k.loopEight s ((i * 100000000 + k.parseEight [c0, c1, c2, c3, c4, c5, c6, c7]) % 2 ^ 64)
    else (c0 :: c1 :: c2 :: c3 :: c4 :: c5 :: c6 :: c7 :: s, i)
  | s, i => (s, i)

/-- The part of `parse_number_string` after the sign (/repo/src/c4/ext/fast_float_all.h:1185-1324). -/
def Cfg.parseUnsigned (k : Cfg) (o : ParseOptions) (negative : Bool) (startDigits : List Nat) : PNS :=
  let (p, i) := digitLoop startDigits 0
  let integer := startDigits.take (startDigits.length - p.length)
  let digitCount : Int := (startDigits.length - p.length : Nat)
  let json := hasFlag o.format fmtJsonBit
  if json && (digitCount == 0 || (startDigits.head? == some 48 && digitCount > 1)) then invalidPNS
  else
    let hasDecimalPoint := p.head? == some o.decimalPoint
    let (p, i, exponent, fraction) :=
      if hasDecimalPoint then
        let before := p.drop 1
        let (p, i) := k.loopEight before i
        let (p, i) := digitLoop p i
        (p, i, (p.length : Int) - before.length, some (before.take (before.length - p.length)))
      else (p, i, (0 : Int), none)
    let digitCount := digitCount - exponent
    if (if json then hasDecimalPoint && exponent == 0 else digitCount == 0) then invalidPNS
    else
      match exponentPartO o.format p with
      | none => invalidPNS
      | some (p, expNumber) =>
        let exponent := exponent + expNumber
        let (i, exponent, tooMany) := fixDigitsO o.decimalPoint startDigits integer fraction digitCount i exponent expNumber
        ⟨exponent, i, p, negative, true, tooMany, integer, fraction⟩

/-- `parse_number_string<UC>(p, pend, options)` (/repo/src/c4/ext/fast_float_all.h:1154-1324). -/
def Cfg.parseNumberString (k : Cfg) (o : ParseOptions) (p : List Nat) : Res PNS :=
  match p with
  | [] => .ub
  | c :: s =>
    if c = 45 then
      match s with
      | [] => .ok invalidPNS
      | d :: _ =>
        if hasFlag o.format fmtJsonBit then
          if !isInteger d then .ok invalidPNS else .ok (k.parseUnsigned o true s)
        else if !isInteger d && d ≠ o.decimalPoint then .ok invalidPNS
        else .ok (k.parseUnsigned o true s)
    else .ok (k.parseUnsigned o false p)

/-- `fastfloat_strncasecmp(input1, input2, length)` (/repo/src/c4/ext/fast_float_all.h:302-310), for two texts of the same length: the characters are
converted to `char`. -/
def strncasecmpW (a b : List Nat) : Bool :=
  let runningDiff := (a.zip b).foldl (fun d p => d ||| ((p.1 % 256) ^^^ (p.2 % 256))) 0
  runningDiff == 0 || runningDiff == 32

/-- `parse_infnan<T, UC>(first, last, value)` (/repo/src/c4/ext/fast_float_all.h:3379-3424). -/
def parseInfnanW (f : Fmt) (first : List Nat) : Res FCResult :=
  match first with
  | [] => .ub
  | c :: r =>
    let minusSign := c == 45
    let s := if minusSign then r else first
    if s.length ≥ 3 then
      if strncasecmpW (s.take 3) (S "nan") then
        let s := s.drop 3
        let ptr := match s with
          | d :: t => if d = 40 then (nanSeq t).getD s else s
          | [] => s
        .ok ⟨ptr, .none, some (.nan minusSign)⟩
      else if strncasecmpW (s.take 3) (S "inf") then
        let ptr := if s.length ≥ 8 && strncasecmpW ((s.drop 3).take 5) (S "inity") then s.drop 8 else s.drop 3
        .ok ⟨ptr, .none, some (.bits (toFloat f minusSign ⟨0, f.infinitePower⟩))⟩
      else .ok ⟨first, .invalidArgument, none⟩
    else .ok ⟨first, .invalidArgument, none⟩

/-- `int_cmp_zeros<UC>()` (/repo/src/c4/ext/fast_float_all.h:728-733). -/
def Uc.cmpZeros : Uc → Nat
  | .char => 0x3030303030303030
  | .char16 => 48 <<< 48 ||| 48 <<< 32 ||| 48 <<< 16 ||| 48
  | .char32 => 48 <<< 32 ||| 48

/-- `int_cmp_len<UC>()` (/repo/src/c4/ext/fast_float_all.h:734-738). -/
def Uc.cmpLen (u : Uc) : Nat := 8 / u.bytes

/-- `skip_zeros(first, last)` (/repo/src/c4/ext/fast_float_all.h:3091-3108): the new `first`.  Every turn takes a character at least. -/
def Cfg.skipZeros (k : Cfg) : Nat → List Nat → List Nat
  | 0, s => skipZeros1 s
  | fuel + 1, s =>
    if s.length ≥ k.uc.cmpLen then
      if k.memcpyU64 (s.take k.uc.cmpLen) ≠ k.uc.cmpZeros then skipZeros1 s else k.skipZeros fuel (s.drop k.uc.cmpLen)
    else skipZeros1 s

/-- `is_truncated(first, last)` (/repo/src/c4/ext/fast_float_all.h:3110-3136). -/
def Cfg.isTruncated (k : Cfg) : Nat → List Nat → Bool
  | 0, s => isTruncated1 s
  | fuel + 1, s =>
    if s.length ≥ k.uc.cmpLen then
      if k.memcpyU64 (s.take k.uc.cmpLen) ≠ k.uc.cmpZeros then true else k.isTruncated fuel (s.drop k.uc.cmpLen)
    else isTruncated1 s

/-- The loop over eight digits at a time in `parse_mantissa` (/repo/src/c4/ext/fast_float_all.h:3194-3196, 3139-3146). -/
def Cfg.eightLoop (k : Cfg) (maxDigits : Nat) : List Nat → Nat → Nat → Nat → List Nat × Nat × Nat × Nat
  | c0 :: c1 :: c2 :: c3 :: c4 :: c5 :: c6 :: c7 :: s, value, counter, digits =>
    if 19 - counter ≥ 8 ∧ maxDigits - digits ≥ 8 then
      k.eightLoop maxDigits s ((value * 100000000 + k.parseEight [c0, c1, c2, c3, c4, c5, c6, c7]) % 2 ^ 64) (counter + 8) (digits + 8)
    else (c0 :: c1 :: c2 :: c3 :: c4 :: c5 :: c6 :: c7 :: s, value, counter, digits)
  | s, value, counter, digits => (s, value, counter, digits)

/-- The loop over the digits before or after the point in `parse_mantissa` (/repo/src/c4/ext/fast_float_all.h:3193-3217 and 3227-3245), see `mantissaLoop`. -/
def Cfg.mantissaLoop (k : Cfg) (maxDigits : Nat) (more : List Nat) : Nat → List Nat → List Nat → Nat → List Nat × Nat × Bool
  | 0, _, result, digits => (result, digits, false)
  | fuel + 1, p, result, digits =>
    if p = [] then (result, digits, false)
    else
      let (p, value, counter, digits) := k.eightLoop maxDigits p 0 0 digits
      let (p, value, counter, digits) := oneLoop maxDigits p value counter digits
      let result := addNative result (powersOfTenUint64.getD counter 0) value
      if digits = maxDigits then
        if k.isTruncated p.length p || k.isTruncated more.length more then (addNative result 10 1, digits + 1, true) else (result, digits, true)
      else k.mantissaLoop maxDigits more fuel p result digits

/-- `parse_mantissa(result, num, max_digits, digits)` (/repo/src/c4/ext/fast_float_all.h:3171-3251). -/
def Cfg.parseMantissa (k : Cfg) (maxDigits : Nat) (integer : List Nat) (fraction : Option (List Nat)) : List Nat × Nat :=
  let p := k.skipZeros integer.length integer
  let (result, digits, done) := k.mantissaLoop maxDigits (fraction.getD []) p.length p [] 0
  if done then (result, digits)
  else
    match fraction with
    | none => (result, digits)
    | some fr =>
      let p := if digits = 0 then k.skipZeros fr.length fr else fr
      let (result, digits, _) := k.mantissaLoop maxDigits [] p.length p result digits
      (result, digits)

/-- `digit_comp<T>(num, am)` (/repo/src/c4/ext/fast_float_all.h:3338-3356). -/
def Cfg.digitComp (k : Cfg) (f : Fmt) (num : PNS) (am : AM) : AM :=
  let am : AM := ⟨am.mantissa, am.power2 - invalidAmBias⟩
  let sciExp := scientificExponent num.mantissa num.exponent
  let (bigmant, digits) := k.parseMantissa f.maxDigits num.integer num.fraction
  let exponent := sciExp + 1 - digits
  if exponent ≥ 0 then positiveDigitComp f bigmant exponent.toNat else negativeDigitComp f bigmant am exponent

/-- The `adjusted_mantissa` of the slow path of `from_chars_advanced` (/repo/src/c4/ext/fast_float_all.h:3606-3614). -/
def Cfg.slowPath (k : Cfg) (f : Fmt) (pns : PNS) : AM :=
  let am := computeFloat f pns.exponent pns.mantissa
  let am := if pns.tooManyDigits = true ∧ am.power2 ≥ 0 then
      (if am ≠ computeFloat f pns.exponent (pns.mantissa + 1) then computeError f pns.exponent pns.mantissa else am)
    else am
  if am.power2 < 0 then k.digitComp f pns am else am

/-- `from_chars_advanced(pns, value)` (/repo/src/c4/ext/fast_float_all.h:3552-3619). -/
def Cfg.fromCharsPns (k : Cfg) (f : Fmt) (fpu : Fpu) (pns : PNS) : FCResult :=
  match fastPath f fpu pns with
  | some v => ⟨pns.lastmatch, .none, some (.bits v)⟩
  | none =>
    let am := k.slowPath f pns
    let outOfRange := (pns.mantissa ≠ 0 ∧ am.mantissa = 0 ∧ am.power2 = 0) ∨ am.power2 = f.infinitePower
    ⟨pns.lastmatch, if outOfRange then .resultOutOfRange else .none, some (.bits (toFloat f pns.negative am))⟩

/-- `from_chars_advanced<T, UC>(first, last, value, options)` (/repo/src/c4/ext/fast_float_all.h:3621-3653). -/
def Cfg.fromCharsAdvanced (k : Cfg) (f : Fmt) (fpu : Fpu) (o : ParseOptions) (s : List Nat) : Res FCResult :=
  if s = [] then .ok ⟨s, .invalidArgument, none⟩
  else
    match k.parseNumberString o s with
    | .ok pns =>
      if pns.valid then .ok (k.fromCharsPns f fpu pns)
      else if hasFlag o.format fmtNoInfnan then .ok ⟨s, .invalidArgument, none⟩
      else parseInfnanW f s
    | _ => .ub

/-- `ch_to_digit<UC>(c)` (/repo/src/c4/ext/fast_float_all.h:840-842): the character is converted to `unsigned char`. -/
def chToDigitW (c : Nat) : Nat := chdigit.getD (c % 256) 255

/-- The loop over the digits (/repo/src/c4/ext/fast_float_all.h:1361-1368): the new `p` and `i`. -/
def baseLoopW (base : Nat) : List Nat → Nat → List Nat × Nat
  | [], i => ([], i)
  | c :: s, i => if chToDigitW c ≥ base then (c :: s, i) else baseLoopW base s ((base * i + chToDigitW c) % 2 ^ 64)

/-- `parse_int_string<T, UC>(p, pend, value, base)` (/repo/src/c4/ext/fast_float_all.h:1326-1425). -/
def Cfg.parseIntString (k : Cfg) (t : ITy) (base : Nat) (first : List Nat) : Res IntResult :=
  match first with
  | [] => .ub
  | c :: s =>
    let negative : Bool := c == 45
    if t.sgn = false ∧ negative = true then .ok ⟨.invalidArgument, first, none⟩
    else
      let startNum := if negative then s else first
      let startDigits := skipZeroDigits startNum
      let hasLeadingZeros : Bool := decide (startDigits.length < startNum.length)
      let (p, i) := if base = 10 then k.loopEight startDigits 0 else (startDigits, 0)
      let (p, i) := baseLoopW base p i
      let digitCount := startDigits.length - p.length
      if digitCount = 0 then
        .ok (if hasLeadingZeros then ⟨.ok, p, some 0⟩ else ⟨.invalidArgument, first, none⟩)
      else .ok (intStore t base negative digitCount i p)

/-- `from_chars<T, UC>(first, last, value, base)` for integers (/repo/src/c4/ext/fast_float_all.h:3656-3673). -/
def Cfg.intFromChars (k : Cfg) (t : ITy) (base : Int) (first : List Nat) : Res IntResult :=
  if first = [] ∨ base < 2 ∨ base > 36 then .ok ⟨.invalidArgument, first, none⟩
  else k.parseIntString t base.toNat first

end C4.FF
