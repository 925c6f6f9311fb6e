import Verif.FastFloat.Bigint32
import Verif.FastFloat.FromChars
/-
Model of the slow path of fast_float (/repo/src/c4/ext/fast_float_all.h:2938-3356) with 32-bit limbs, and of `from_chars` with it.  What does not
depend on the size of a limb is that of `Verif.FastFloat.DigitComp`.  `limb(powers_of_ten_uint64[counter])` is the power modulo 2^32.
-/
namespace C4.FF.L32
open Spec

/-- The loop over eight digits at a time in `parse_mantissa` (/repo/src/c4/ext/fast_float_all.h:3194-3196, 3139-3146): the new `p`, `value`,
`counter` and `digits`. -/
def eightLoop (maxDigits : Nat) : List Nat → Nat → Nat → Nat → List Nat × Nat × Nat × Nat
  | c0 :: c1 :: c2 :: c3 :: c4 :: c5 :: c6 :: c7 :: s, value, counter, digits =>
    if 9 - counter ≥ 8 ∧ maxDigits - digits ≥ 8 then
      eightLoop maxDigits s ((value * 100000000 + parseEightDigitsUnrolled (read8 [c0, c1, c2, c3, c4, c5, c6, c7])) % 2 ^ 32) (counter + 8) (digits + 8)
    else (c0 :: c1 :: c2 :: c3 :: c4 :: c5 :: c6 :: c7 :: s, value, counter, digits)
  | s, value, counter, digits => (s, value, counter, digits)

/-- The loop over single digits in `parse_mantissa` (/repo/src/c4/ext/fast_float_all.h:3197-3199, 3148-3155). -/
def oneLoop (maxDigits : Nat) : List Nat → Nat → Nat → Nat → List Nat × Nat × Nat × Nat
  | [], value, counter, digits => ([], value, counter, digits)
  | c :: s, value, counter, digits =>
    if counter < 9 ∧ digits < maxDigits then oneLoop maxDigits s ((value * 10 + (c - 48)) % 2 ^ 32) (counter + 1) (digits + 1)
    else (c :: s, value, counter, digits)

/-- `add_native(big, power, value)` (/repo/src/c4/ext/fast_float_all.h:3157-3161): whether there was room is not looked at. -/
def addNative (big : List Nat) (power value : Nat) : List Nat := (smallAddFrom (smallMul big power).1 value 0).1

/-- The loop over the digits before or after the point in `parse_mantissa` (/repo/src/c4/ext/fast_float_all.h:3193-3217 and 3227-3245): the big
number, the number of digits, and whether the function returns.  `more` are the digits that follow, those after the point (line 3204), which is
empty in the second loop.  Every turn but the last takes a digit. -/
def mantissaLoop (maxDigits : Nat) (more : List Nat) : Nat → List Nat → List Nat → Nat → List Nat × Nat × Bool
  | 0, _, result, digits => (result, digits, false)
  | fuel + 1, p, result, digits =>
    if p = [] then (result, digits, false)
    else
      let (p, value, counter, digits) := eightLoop maxDigits p 0 0 digits
      let (p, value, counter, digits) := oneLoop maxDigits p value counter digits
      let result := addNative result (powersOfTenUint64.getD counter 0 % 2 ^ 32) value
      if digits = maxDigits then
        if isTruncated p || isTruncated more then (addNative result 10 1, digits + 1, true) else (result, digits, true)
      else mantissaLoop maxDigits more fuel p result digits

/-- `parse_mantissa(result, num, max_digits, digits)` (/repo/src/c4/ext/fast_float_all.h:3171-3251): the big number and the number of digits. -/
def parseMantissa (maxDigits : Nat) (integer : List Nat) (fraction : Option (List Nat)) : List Nat × Nat :=
  let p := skipZeros integer
  let (result, digits, done) := mantissaLoop maxDigits (fraction.getD []) p.length p [] 0
  if done then (result, digits)
  else
    match fraction with
    | none => (result, digits)
    | some fr =>
      let p := if digits = 0 then skipZeros fr else fr
      let (result, digits, _) := mantissaLoop maxDigits [] p.length p result digits
      (result, digits)

/-- `positive_digit_comp<T>(bigmant, exponent)` (/repo/src/c4/ext/fast_float_all.h:3253-3270). -/
def positiveDigitComp (f : Fmt) (bigmant : List Nat) (exponent : Nat) : AM :=
  let bigmant := (pow10 bigmant exponent).1
  let (mantissa, truncated) := hi64 bigmant
  let bias : Int := (f.mantissaExplicitBits : Int) - f.minimumExponent
  roundAM f ⟨mantissa, bitLength bigmant - 64 + bias⟩
    (roundNearestTieEven fun isOdd isHalfway isAbove => isAbove || (isHalfway && truncated) || (isOdd && isHalfway))

/-- `negative_digit_comp<T>(bigmant, am, exponent)` (/repo/src/c4/ext/fast_float_all.h:3277-3323). -/
def negativeDigitComp (f : Fmt) (bigmant : List Nat) (am : AM) (exponent : Int) : AM :=
  let b := toFloat f false (roundAM f am roundDown)
  let theor := toExtendedHalfway f b
  let theorDigits := bigintOf theor.mantissa
  let pow2Exp := theor.power2 - exponent
  let pow5Exp := (-exponent).toNat
  let theorDigits := if pow5Exp ≠ 0 then (pow5 theorDigits pow5Exp).1 else theorDigits
  let (theorDigits, realDigits) :=
    if pow2Exp > 0 then ((shl theorDigits pow2Exp.toNat).1, bigmant)
    else if pow2Exp < 0 then (theorDigits, (shl bigmant (-pow2Exp).toNat).1)
    else (theorDigits, bigmant)
  let ord := compareBig realDigits theorDigits
  roundAM f am (roundNearestTieEven fun isOdd _ _ => if ord > 0 then true else if ord < 0 then false else isOdd)

/-- `digit_comp<T>(num, am)` (/repo/src/c4/ext/fast_float_all.h:3338-3356). -/
def digitComp (f : Fmt) (num : PNS) (am : AM) : AM :=
  let am : AM := ⟨am.mantissa, am.power2 - invalidAmBias⟩
  let sciExp := scientificExponent num.mantissa num.exponent
  let (bigmant, digits) := parseMantissa f.maxDigits num.integer num.fraction
  let exponent := sciExp + 1 - digits
  if exponent ≥ 0 then positiveDigitComp f bigmant exponent.toNat else negativeDigitComp f bigmant am exponent

/-- The `adjusted_mantissa` of the slow path of `from_chars_advanced` (/repo/src/c4/ext/fast_float_all.h:3606-3614). -/
def slowPath (f : Fmt) (pns : PNS) : AM :=
  let am := computeFloat f pns.exponent pns.mantissa
  let am := if pns.tooManyDigits = true ∧ am.power2 ≥ 0 then
      (if am ≠ computeFloat f pns.exponent (pns.mantissa + 1) then computeError f pns.exponent pns.mantissa else am)
    else am
  if am.power2 < 0 then digitComp f pns am else am

/-- The fast path of `from_chars_advanced` on platforms of 32 bits (/repo/src/c4/ext/fast_float_all.h:3570-3604): zero is assigned apart (lines
3591-3597). -/
def fastPath (f : Fmt) (fpu : Fpu) (pns : PNS) : Option Nat :=
  if f.minExponentFastPath ≤ pns.exponent ∧ pns.exponent ≤ f.maxExponentFastPath ∧ pns.tooManyDigits = false then
    let F := ieeeOf f
    let value := fpu.round F (pns.mantissa : ℚ)
    if roundsToNearest fpu then
      if pns.mantissa ≤ maxMantissaFastPath f then
        if pns.exponent < 0 then some (negate f pns.negative (fpu.round F (F.val value / 10 ^ (-pns.exponent).toNat)))
        else some (negate f pns.negative (fpu.round F (F.val value * 10 ^ pns.exponent.toNat)))
      else none
    else if pns.exponent ≥ 0 ∧ pns.mantissa ≤ maxMantissaFastPathPower f pns.exponent.toNat then
      if pns.mantissa = 0 then some (if pns.negative then 1 <<< f.signIndex else 0)
      else some (negate f pns.negative (fpu.round F (F.val value * 10 ^ pns.exponent.toNat)))
    else none
  else none

/-- `from_chars_advanced(pns, value)` (/repo/src/c4/ext/fast_float_all.h:3552-3619). -/
def fromCharsPns (f : Fmt) (fpu : Fpu) (pns : PNS) : FCResult :=
  match fastPath f fpu pns with
  | some v => ⟨pns.lastmatch, .none, some (.bits v)⟩
  | none =>
    let am := slowPath f pns
    let outOfRange := (pns.mantissa ≠ 0 ∧ am.mantissa = 0 ∧ am.power2 = 0) ∨ am.power2 = f.infinitePower
    ⟨pns.lastmatch, if outOfRange then .resultOutOfRange else .none, some (.bits (toFloat f pns.negative am))⟩

/-- `from_chars(first, last, value)` and `from_chars_advanced(first, last, value, options)` (/repo/src/c4/ext/fast_float_all.h:3538-3544 and
3621-3653). -/
def fromChars (f : Fmt) (fpu : Fpu) (s : List Nat) : Res FCResult :=
  if s = [] then .ok ⟨s, .invalidArgument, none⟩
  else
    match parseNumberString s with
    | .ok pns => if pns.valid then .ok (fromCharsPns f fpu pns) else parseInfnan f s
    | _ => .ub

end C4.FF.L32
