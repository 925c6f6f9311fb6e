import Verif.FastFloat.Bigint
import Verif.FastFloat.Parse
/-
Model of the slow path of fast_float (/repo/src/c4/ext/fast_float_all.h:2938-3356): the digits as a big number, compared with the middle between
two floating point numbers.
-/
namespace C4.FF

/-- `powers_of_ten_uint64` (/repo/src/c4/ext/fast_float_all.h:2950-2955). -/
def powersOfTenUint64 : List Nat :=
  [1, 10, 100, 1000, 10000, 100000, 1000000, 10000000, 100000000, 1000000000, 10000000000, 100000000000, 1000000000000, 10000000000000,
   100000000000000, 1000000000000000, 10000000000000000, 100000000000000000, 1000000000000000000, 10000000000000000000]

/-- One of the loops of `scientific_exponent` (/repo/src/c4/ext/fast_float_all.h:2965-2976): divide by `10^k` as long as it goes.  A 64-bit
number is divided at most 20 times. -/
def sciLoop (d : Nat) (k : Int) : Nat → Nat → Int → Nat × Int
  | 0, m, e => (m, e)
  | fuel + 1, m, e => if m ≥ d then sciLoop d k fuel (m / d) (e + k) else (m, e)

/-- `scientific_exponent(num)` (/repo/src/c4/ext/fast_float_all.h:2960-2978). -/
def scientificExponent (mantissa : Nat) (exponent : Int) : Int :=
  let (m, e) := sciLoop 10000 4 20 mantissa exponent
  let (m, e) := sciLoop 100 2 20 m e
  (sciLoop 10 1 20 m e).2

/-- `to_extended(value)` (/repo/src/c4/ext/fast_float_all.h:2981-3009), from the bits of `value`. -/
def toExtended (f : Fmt) (bits : Nat) : AM :=
  let bias : Int := (f.mantissaExplicitBits : Int) - f.minimumExponent
  let exponentField := (bits >>> f.mantissaExplicitBits) % 2 ^ (f.signIndex - f.mantissaExplicitBits)
  let fraction := bits % 2 ^ f.mantissaExplicitBits
  if exponentField = 0 then ⟨fraction, 1 - bias⟩
  else ⟨fraction ||| 1 <<< f.mantissaExplicitBits, (exponentField : Int) - bias⟩

/-- `to_extended_halfway(value)` (/repo/src/c4/ext/fast_float_all.h:3014-3022). -/
def toExtendedHalfway (f : Fmt) (bits : Nat) : AM :=
  let am := toExtended f bits
  ⟨(am.mantissa <<< 1) % 2 ^ 64 + 1, am.power2 - 1⟩

/-- `round<T>(am, cb)` (/repo/src/c4/ext/fast_float_all.h:3025-3053). -/
def roundAM (f : Fmt) (am : AM) (cb : AM → Nat → AM) : AM :=
  let mantissaShift := 64 - f.mantissaExplicitBits - 1
  if -am.power2 ≥ mantissaShift then
    let shift := -am.power2 + 1
    let am := cb am (min shift 64).toNat
    ⟨am.mantissa, if am.mantissa < 1 <<< f.mantissaExplicitBits then 0 else 1⟩
  else
    let am := cb am mantissaShift
    let am := if am.mantissa ≥ 2 <<< f.mantissaExplicitBits then ⟨1 <<< f.mantissaExplicitBits, am.power2 + 1⟩ else am
    let mantissa := am.mantissa &&& (2 ^ 64 - 1 - 1 <<< f.mantissaExplicitBits)
    if am.power2 ≥ f.infinitePower then ⟨0, f.infinitePower⟩ else ⟨mantissa, am.power2⟩

/-- `round_nearest_tie_even(am, shift, cb)` (/repo/src/c4/ext/fast_float_all.h:3055-3080). -/
def roundNearestTieEven (cb : Bool → Bool → Bool → Bool) (am : AM) (shift : Nat) : AM :=
  let mask := if shift = 64 then 2 ^ 64 - 1 else 1 <<< shift - 1
  let halfway := if shift = 0 then 0 else 1 <<< (shift - 1)
  let truncatedBits := am.mantissa &&& mask
  let isAbove := decide (truncatedBits > halfway)
  let isHalfway := decide (truncatedBits = halfway)
  let mantissa := if shift = 64 then 0 else am.mantissa >>> shift
  let isOdd := decide (mantissa &&& 1 = 1)
  ⟨mantissa + (if cb isOdd isHalfway isAbove then 1 else 0), am.power2 + shift⟩

/-- `round_down(am, shift)` (/repo/src/c4/ext/fast_float_all.h:3082-3090). -/
def roundDown (am : AM) (shift : Nat) : AM := ⟨if shift = 64 then 0 else am.mantissa >>> shift, am.power2 + shift⟩

/-- The second loop of `skip_zeros` (/repo/src/c4/ext/fast_float_all.h:3102-3107). -/
def skipZeros1 : List Nat → List Nat
  | [] => []
  | c :: s => if c ≠ 48 then c :: s else skipZeros1 s

/-- `skip_zeros(first, last)` (/repo/src/c4/ext/fast_float_all.h:3091-3108): the new `first`. -/
def skipZeros : List Nat → List Nat
  | c0 :: c1 :: c2 :: c3 :: c4 :: c5 :: c6 :: c7 :: s =>
    if read8 [c0, c1, c2, c3, c4, c5, c6, c7] ≠ 0x3030303030303030 then skipZeros1 (c0 :: c1 :: c2 :: c3 :: c4 :: c5 :: c6 :: c7 :: s)
    else skipZeros s
  | s => skipZeros1 s

/-- The second loop of `is_truncated` (/repo/src/c4/ext/fast_float_all.h:3124-3130). -/
def isTruncated1 : List Nat → Bool
  | [] => false
  | c :: s => if c ≠ 48 then true else isTruncated1 s

/-- `is_truncated(first, last)` (/repo/src/c4/ext/fast_float_all.h:3110-3136). -/
def isTruncated : List Nat → Bool
  | c0 :: c1 :: c2 :: c3 :: c4 :: c5 :: c6 :: c7 :: s =>
    if read8 [c0, c1, c2, c3, c4, c5, c6, c7] ≠ 0x3030303030303030 then true else isTruncated s
  | s => isTruncated1 s

/-- The loop over eight digits at a time in `parse_mantissa` (/repo/src/c4/ext/fast_float_all.h:3194-3196, 3139-3146): the new `p`, `value`,
`counter` and `digits`. -/
def eightLoop (maxDigits : Nat) : List Nat → Nat → Nat → Nat → List Nat × Nat × Nat × Nat
  | c0 :: c1 :: c2 :: c3 :: c4 :: c5 :: c6 :: c7 :: s, value, counter, digits =>
    if 19 - counter ≥ 8 ∧ maxDigits - digits ≥ 8 then
      eightLoop maxDigits s ((value * 100000000 + parseEightDigitsUnrolled (read8 [c0, c1, c2, c3, c4, c5, c6, c7])) % 2 ^ 64) (counter + 8) (digits + 8)
    else (c0 :: c1 :: c2 :: c3 :: c4 :: c5 :: c6 :: c7 :: s, value, counter, digits)
  | s, value, counter, digits => (s, value, counter, digits)

/-- The loop over single digits in `parse_mantissa` (/repo/src/c4/ext/fast_float_all.h:3197-3199, 3148-3155). -/
def oneLoop (maxDigits : Nat) : List Nat → Nat → Nat → Nat → List Nat × Nat × Nat × Nat
  | [], value, counter, digits => ([], value, counter, digits)
  | c :: s, value, counter, digits =>
    if counter < 19 ∧ digits < maxDigits then oneLoop maxDigits s ((value * 10 + (c - 48)) % 2 ^ 64) (counter + 1) (digits + 1)
    else (c :: s, value, counter, digits)

/-- `add_native(big, power, value)` (/repo/src/c4/ext/fast_float_all.h:3157-3161): whether there was room is not looked at. -/
def addNative (big : List Nat) (power value : Nat) : List Nat := (smallAddFrom (smallMul big power).1 value 0).1

/-- The loop over the digits before or after the point in `parse_mantissa` (/repo/src/c4/ext/fast_float_all.h:3193-3217 and 3227-3245): the big
number, the number of digits, and whether the function returns.  `more` are the digits that follow, those after the point (line 3204), which is
empty in the second loop.  Every turn but the last takes a digit. -/
def mantissaLoop (maxDigits : Nat) (more : List Nat) : Nat → List Nat → List Nat → Nat → List Nat × Nat × Bool
  | 0, _, result, digits => (result, digits, false)
  | fuel + 1, p, result, digits =>
    if p = [] then (result, digits, false)
    else
      let (p, value, counter, digits) := eightLoop maxDigits p 0 0 digits
      let (p, value, counter, digits) := oneLoop maxDigits p value counter digits
      let result := addNative result (powersOfTenUint64.getD counter 0) value
      if digits = maxDigits then
        if isTruncated p || isTruncated more then (addNative result 10 1, digits + 1, true) else (result, digits, true)
      else mantissaLoop maxDigits more fuel p result digits

/-- `parse_mantissa(result, num, max_digits, digits)` (/repo/src/c4/ext/fast_float_all.h:3171-3251): the big number and the number of digits. -/
def parseMantissa (maxDigits : Nat) (integer : List Nat) (fraction : Option (List Nat)) : List Nat × Nat :=
  let p := skipZeros integer
  let (result, digits, done) := mantissaLoop maxDigits (fraction.getD []) p.length p [] 0
  if done then (result, digits)
  else
    match fraction with
    | none => (result, digits)
    | some fr =>
      let p := if digits = 0 then skipZeros fr else fr
      let (result, digits, _) := mantissaLoop maxDigits [] p.length p result digits
      (result, digits)

/-- `positive_digit_comp<T>(bigmant, exponent)` (/repo/src/c4/ext/fast_float_all.h:3253-3270). -/
def positiveDigitComp (f : Fmt) (bigmant : List Nat) (exponent : Nat) : AM :=
  let bigmant := (pow10 bigmant exponent).1
  let (mantissa, truncated) := hi64 bigmant
  let bias : Int := (f.mantissaExplicitBits : Int) - f.minimumExponent
  roundAM f ⟨mantissa, bitLength bigmant - 64 + bias⟩
    (roundNearestTieEven fun isOdd isHalfway isAbove => isAbove || (isHalfway && truncated) || (isOdd && isHalfway))

/-- `negative_digit_comp<T>(bigmant, am, exponent)` (/repo/src/c4/ext/fast_float_all.h:3277-3323). -/
def negativeDigitComp (f : Fmt) (bigmant : List Nat) (am : AM) (exponent : Int) : AM :=
  let b := toFloat f false (roundAM f am roundDown)
  let theor := toExtendedHalfway f b
  let theorDigits := bigintOf theor.mantissa
  let pow2Exp := theor.power2 - exponent
  let pow5Exp := (-exponent).toNat
  let theorDigits := if pow5Exp ≠ 0 then (pow5 theorDigits pow5Exp).1 else theorDigits
  let (theorDigits, realDigits) :=
    if pow2Exp > 0 then ((shl theorDigits pow2Exp.toNat).1, bigmant)
    else if pow2Exp < 0 then (theorDigits, (shl bigmant (-pow2Exp).toNat).1)
    else (theorDigits, bigmant)
  let ord := compareBig realDigits theorDigits
  roundAM f am (roundNearestTieEven fun isOdd _ _ => if ord > 0 then true else if ord < 0 then false else isOdd)

/-- `digit_comp<T>(num, am)` (/repo/src/c4/ext/fast_float_all.h:3338-3356). -/
def digitComp (f : Fmt) (num : PNS) (am : AM) : AM :=
  let am : AM := ⟨am.mantissa, am.power2 - invalidAmBias⟩
  let sciExp := scientificExponent num.mantissa num.exponent
  let (bigmant, digits) := parseMantissa f.maxDigits num.integer num.fraction
  let exponent := sciExp + 1 - digits
  if exponent ≥ 0 then positiveDigitComp f bigmant exponent.toNat else negativeDigitComp f bigmant am exponent

end C4.FF
