import Verif.FastFloat.DigitComp
import Verif.Spec.Fpu
/-
Model of `fast_float::from_chars` for `float` and `double` (/repo/src/c4/ext/fast_float_all.h:3371-3653), for `char`, the format `general` and
'.' as decimal point.  The macros `FASTFLOAT_SKIP_WHITE_SPACE`, `FASTFLOAT_ALLOWS_LEADING_PLUS` are not defined; `FLT_EVAL_METHOD` is 0.
-/
namespace C4.FF
open Spec

/-- `std::errc` as far as it is used. -/
inductive Errc
  | none | invalidArgument | resultOutOfRange
deriving DecidableEq, Repr

/-- What is assigned to `value`: the bits of a number or infinity, or a quiet NaN with a sign. -/
inductive FVal
  | bits (b : Nat)
  | nan (negative : Bool)
deriving DecidableEq, Repr

/-- `from_chars_result_t`, and what is assigned to `value`.  `ptr` is the text from there on. -/
structure FCResult where
  ptr : List Nat
  ec : Errc
  value : Option FVal
deriving DecidableEq, Repr

/-- `fastfloat_strncasecmp(input1, input2, length)` (/repo/src/c4/ext/fast_float_all.h:302-310), for two texts of the same length. -/
def strncasecmp (a b : List Nat) : Bool :=
  let runningDiff := (a.zip b).foldl (fun d p => d ||| (p.1 ^^^ p.2)) 0
  runningDiff == 0 || runningDiff == 32

/-- The loop over the characters after `nan(` (/repo/src/c4/ext/fast_float_all.h:3401-3408): the text after the parenthesis that closes. -/
def nanSeq : List Nat → Option (List Nat)
  | [] => none
  | c :: s =>
    if c = 41 then some s
    else if !((97 ≤ c && c ≤ 122) || (65 ≤ c && c ≤ 90) || (48 ≤ c && c ≤ 57) || c == 95) then none
    else nanSeq s

/-- `parse_infnan(first, last, value)` (/repo/src/c4/ext/fast_float_all.h:3379-3424). -/
def parseInfnan (f : Fmt) (first : List Nat) : Res FCResult :=
  match first with
  | [] => .ub
  | c :: r =>
    let minusSign := c == 45
    let s := if minusSign then r else first
    if s.length ≥ 3 then
      if strncasecmp (s.take 3) (S "nan") then
        let s := s.drop 3
        let ptr := match s with
          | d :: t => if d = 40 then (nanSeq t).getD s else s
          | [] => s
        .ok ⟨ptr, .none, some (.nan minusSign)⟩
      else if strncasecmp (s.take 3) (S "inf") then
        let ptr := if s.length ≥ 8 && strncasecmp ((s.drop 3).take 5) (S "inity") then s.drop 8 else s.drop 3
        .ok ⟨ptr, .none, some (.bits (toFloat f minusSign ⟨0, f.infinitePower⟩))⟩
      else .ok ⟨first, .invalidArgument, none⟩
    else .ok ⟨first, .invalidArgument, none⟩

/-- `rounds_to_nearest()` (/repo/src/c4/ext/fast_float_all.h:3431-3483): `fmin` is 2^-126. -/
def roundsToNearest (fpu : Fpu) : Bool := fpu.round binary32 (2 ^ (-126 : ℤ) + 1) == fpu.round binary32 (1 - 2 ^ (-126 : ℤ))

/-- `max_mantissa_fast_path()` (/repo/src/c4/ext/fast_float_all.h:611-613 and 621-623). -/
def maxMantissaFastPath (f : Fmt) : Nat := 2 <<< f.mantissaExplicitBits

/-- The tables of `max_mantissa_fast_path` (/repo/src/c4/ext/fast_float_all.h:480-506 and 520-534), as the constant that is divided and the powers of
five that divide it: the row of 5^14 is missing in the table of `double`. -/
def maxMantissaTable (f : Fmt) : List Nat :=
  if f = dbl then
    [0, 1, 2, 3, 4, 5, 6, 7, 8, 9, 10, 11, 12, 13, 15, 16, 17, 18, 19, 20, 21, 22, 23, 24].map (0x10000000000000 / 5 ^ ·)
  else [0, 1, 2, 3, 4, 5, 6, 7, 8, 9, 10, 11].map (0x1000000 / 5 ^ ·)

/-- `max_mantissa_fast_path(power)` (/repo/src/c4/ext/fast_float_all.h:614-620 and 624-630).  The callers stay within the table. -/
def maxMantissaFastPathPower (f : Fmt) (power : Nat) : Nat := (maxMantissaTable f).getD power 0

/-- The IEEE format of a `binary_format`. -/
def ieeeOf (f : Fmt) : Ieee := if f = dbl then binary64 else binary32

/-- `value = -value`. -/
def negate (f : Fmt) (negative : Bool) (bits : Nat) : Nat := if negative then bits ^^^ (1 <<< f.signIndex) else bits

/-- The fast path of `from_chars_advanced` (/repo/src/c4/ext/fast_float_all.h:3570-3604), if it is taken: what is assigned to `value`.
`exact_power_of_ten(k)` (lines 631-640) is taken to be 10^k: all of these are numbers of the format. -/
def fastPath (f : Fmt) (fpu : Fpu) (pns : PNS) : Option Nat :=
  if f.minExponentFastPath ≤ pns.exponent ∧ pns.exponent ≤ f.maxExponentFastPath ∧ pns.tooManyDigits = false then
    let F := ieeeOf f
    let value := fpu.round F (pns.mantissa : ℚ)
    if roundsToNearest fpu then
      if pns.mantissa ≤ maxMantissaFastPath f then
        if pns.exponent < 0 then some (negate f pns.negative (fpu.round F (F.val value / 10 ^ (-pns.exponent).toNat)))
        else some (negate f pns.negative (fpu.round F (F.val value * 10 ^ pns.exponent.toNat)))
      else none
    else if pns.exponent ≥ 0 ∧ pns.mantissa ≤ maxMantissaFastPathPower f pns.exponent.toNat then
      some (negate f pns.negative (fpu.round F (F.val value * 10 ^ pns.exponent.toNat)))
    else none
  else none

/-- The `adjusted_mantissa` of the slow path of `from_chars_advanced` (/repo/src/c4/ext/fast_float_all.h:3606-3614). -/
def slowPath (f : Fmt) (pns : PNS) : AM :=
  let am := computeFloat f pns.exponent pns.mantissa
  let am := if pns.tooManyDigits = true ∧ am.power2 ≥ 0 then
      (if am ≠ computeFloat f pns.exponent (pns.mantissa + 1) then computeError f pns.exponent pns.mantissa else am)
    else am
  if am.power2 < 0 then digitComp f pns am else am

/-- `from_chars_advanced(pns, value)` (/repo/src/c4/ext/fast_float_all.h:3552-3619). -/
def fromCharsPns (f : Fmt) (fpu : Fpu) (pns : PNS) : FCResult :=
  match fastPath f fpu pns with
  | some v => ⟨pns.lastmatch, .none, some (.bits v)⟩
  | none =>
    let am := slowPath f pns
    let outOfRange := (pns.mantissa ≠ 0 ∧ am.mantissa = 0 ∧ am.power2 = 0) ∨ am.power2 = f.infinitePower
    ⟨pns.lastmatch, if outOfRange then .resultOutOfRange else .none, some (.bits (toFloat f pns.negative am))⟩

/-- `from_chars(first, last, value)` and `from_chars_advanced(first, last, value, options)` (/repo/src/c4/ext/fast_float_all.h:3538-3544 and
3621-3653). -/
def fromChars (f : Fmt) (fpu : Fpu) (s : List Nat) : Res FCResult :=
  if s = [] then .ok ⟨s, .invalidArgument, none⟩
  else
    match parseNumberString s with
    | .ok pns => if pns.valid then .ok (fromCharsPns f fpu pns) else parseInfnan f s
    | _ => .ub

end C4.FF
