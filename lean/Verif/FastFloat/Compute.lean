import Verif.Basic
import Verif.FastFloat.Table
/-
Model of the conversion of `w * 10^q` to a binary floating point number (/repo/src/c4/ext/fast_float_all.h:341-704 and 2144-2316),
with 64-bit words.  `int` and `int32_t` values are unbounded integers: the largest that occur are below 2^17 in size.
-/
namespace C4.FF

/-- `binary_format<T>` (/repo/src/c4/ext/fast_float_all.h:452-690): the constants of a format.  `FLT_EVAL_METHOD` is 0 or 1 (lines 555-569).
`exponent_mask`, `mantissa_mask` and `hidden_bit_mask` (lines 661-689) are those given by `mantissa_explicit_bits`. -/
structure Fmt where
  mantissaExplicitBits : Nat
  minimumExponent : Int
  infinitePower : Int
  signIndex : Nat
  minExponentFastPath : Int
  maxExponentFastPath : Int
  maxExponentRoundToEven : Int
  minExponentRoundToEven : Int
  largestPowerOfTen : Int
  smallestPowerOfTen : Int
  maxDigits : Nat
deriving DecidableEq, Repr

/-- `binary_format<double>` (/repo/src/c4/ext/fast_float_all.h:555-689). -/
def dbl : Fmt where
  mantissaExplicitBits := 52
  minimumExponent := -1023
  infinitePower := 0x7FF
  signIndex := 63
  minExponentFastPath := -22
  maxExponentFastPath := 22
  maxExponentRoundToEven := 23
  minExponentRoundToEven := -4
  largestPowerOfTen := 308
  smallestPowerOfTen := -342
  maxDigits := 769

/-- `binary_format<float>` (/repo/src/c4/ext/fast_float_all.h:555-689). -/
def flt : Fmt where
  mantissaExplicitBits := 23
  minimumExponent := -127
  infinitePower := 0xFF
  signIndex := 31
  minExponentFastPath := -10
  maxExponentFastPath := 10
  maxExponentRoundToEven := 10
  minExponentRoundToEven := -17
  largestPowerOfTen := 38
  smallestPowerOfTen := -64
  maxDigits := 114

/-- `adjusted_mantissa` (/repo/src/c4/ext/fast_float_all.h:431-441). -/
structure AM where
  mantissa : Nat
  power2 : Int
deriving DecidableEq, Repr

/-- `invalid_am_bias` (/repo/src/c4/ext/fast_float_all.h:444). -/
def invalidAmBias : Int := -0x8000

/-- One step of `leading_zeroes_generic` (/repo/src/c4/ext/fast_float_all.h:344-349). -/
def lzStep (mask n : Nat) (p : Nat × Nat) : Nat × Nat :=
  if p.1 &&& mask ≠ 0 then (p.1 >>> n, p.2 ||| n) else p

/-- `leading_zeroes_generic(input_num)` (/repo/src/c4/ext/fast_float_all.h:341-351). -/
def leadingZeroesGeneric (n : Nat) : Nat :=
  let p := lzStep 0xffffffff00000000 32 (n, 0)
  let p := lzStep 0xffff0000 16 p
  let p := lzStep 0xff00 8 p
  let p := lzStep 0xf0 4 p
  let p := lzStep 0xc 2 p
  let p := if p.1 &&& 0x2 ≠ 0 then (p.1, p.2 ||| 1) else p
  63 - p.2

/-- `leading_zeroes(input_num)` (/repo/src/c4/ext/fast_float_all.h:353-373); the builtin that is used on most platforms gives the same number
for every argument but 0, which does not occur. -/
def leadingZeroes (n : Nat) : Nat := leadingZeroesGeneric n

/-- `umul128_generic(ab, cd, hi)` (/repo/src/c4/ext/fast_float_all.h:380-391): the low and the high word. -/
def umul128Generic (ab cd : Nat) : Nat × Nat :=
  let ad := (ab >>> 32) * (cd % 2 ^ 32)
  let bd := (ab % 2 ^ 32) * (cd % 2 ^ 32)
  let adbc := (ad + (ab % 2 ^ 32) * (cd >>> 32)) % 2 ^ 64
  let adbcCarry := if adbc < ad then 1 else 0
  let lo := (bd + (adbc <<< 32) % 2 ^ 64) % 2 ^ 64
  let hi := ((ab >>> 32) * (cd >>> 32) + (adbc >>> 32) + (adbcCarry <<< 32) + (if lo < bd then 1 else 0)) % 2 ^ 64
  (lo, hi)

/-- `full_multiplication(a, b)` (/repo/src/c4/ext/fast_float_all.h:405-429), with the 128-bit type of the compiler: the low and the high word.
On other platforms it is `umul128Generic`, which is proved to be the same. -/
def fullMultiplication (a b : Nat) : Nat × Nat := (a * b % 2 ^ 64, a * b / 2 ^ 64)

/-- `compute_product_approximation<bit_precision>(q, w)` (/repo/src/c4/ext/fast_float_all.h:2144-2168): the low and the high word. -/
def computeProductApproximation (bitPrecision : Nat) (q : Int) (w : Nat) : Nat × Nat :=
  let index := 2 * (q - -342).toNat
  let (low, high) := fullMultiplication w (powerOfFive128.getD index 0)
  let precisionMask := if bitPrecision < 64 then 0xFFFFFFFFFFFFFFFF >>> bitPrecision else 0xFFFFFFFFFFFFFFFF
  if high &&& precisionMask = precisionMask then
    let (_, high2) := fullMultiplication w (powerOfFive128.getD (index + 1) 0)
    let low := (low + high2) % 2 ^ 64
    if high2 > low then (low, (high + 1) % 2 ^ 64) else (low, high)
  else (low, high)

/-- `detail::power(q)` (/repo/src/c4/ext/fast_float_all.h:2187-2189); shifting a negative number to the right rounds down. -/
def power (q : Int) : Int := (((152170 + 65536) * q) / 65536) + 63

/-- `compute_error_scaled<binary>(q, w, lz)` (/repo/src/c4/ext/fast_float_all.h:2192-2203). -/
def computeErrorScaled (f : Fmt) (q : Int) (w lz : Nat) : AM :=
  let hilz := (w >>> 63) ^^^ 1
  let bias : Int := (f.mantissaExplicitBits : Int) - f.minimumExponent
  ⟨(w <<< hilz) % 2 ^ 64, power q + bias - hilz - lz - 62 + invalidAmBias⟩

/-- `compute_error<binary>(q, w)` (/repo/src/c4/ext/fast_float_all.h:2205-2214). -/
def computeError (f : Fmt) (q : Int) (w : Nat) : AM :=
  let lz := leadingZeroes w
  let w := (w <<< lz) % 2 ^ 64
  let product := computeProductApproximation (f.mantissaExplicitBits + 3) q w
  computeErrorScaled f q product.2 lz

/-- The end of `compute_float` (/repo/src/c4/ext/fast_float_all.h:2302-2314): round up, and look whether the number became larger than the
format allows. -/
def computeFloatRound (f : Fmt) (mantissa : Nat) (power2 : Int) : AM :=
  let mantissa := mantissa + (mantissa &&& 1)
  let mantissa := mantissa >>> 1
  let (mantissa, power2) := if mantissa ≥ 2 <<< f.mantissaExplicitBits then (1 <<< f.mantissaExplicitBits, power2 + 1) else (mantissa, power2)
  let mantissa := mantissa &&& (2 ^ 64 - 1 - 1 <<< f.mantissaExplicitBits)
  if power2 ≥ f.infinitePower then ⟨0, f.infinitePower⟩ else ⟨mantissa, power2⟩

/-- `compute_float<binary>(q, w)` (/repo/src/c4/ext/fast_float_all.h:2216-2316). -/
def computeFloat (f : Fmt) (q : Int) (w : Nat) : AM :=
  if w = 0 ∨ q < f.smallestPowerOfTen then ⟨0, 0⟩
  else if q > f.largestPowerOfTen then ⟨0, f.infinitePower⟩
  else
    let lz := leadingZeroes w
    let w := (w <<< lz) % 2 ^ 64
    let product := computeProductApproximation (f.mantissaExplicitBits + 3) q w
    let upperbit := product.2 >>> 63
    let shift := upperbit + 64 - f.mantissaExplicitBits - 3
    let mantissa := product.2 >>> shift
    let power2 : Int := power q + upperbit - lz - f.minimumExponent
    if power2 ≤ 0 then
      if -power2 + 1 ≥ 64 then ⟨0, 0⟩
      else
        let mantissa := mantissa >>> (-power2 + 1).toNat
        let mantissa := mantissa + (mantissa &&& 1)
        let mantissa := mantissa >>> 1
        ⟨mantissa, if mantissa < 1 <<< f.mantissaExplicitBits then 0 else 1⟩
    else
      let mantissa :=
        if product.1 ≤ 1 ∧ q ≥ f.minExponentRoundToEven ∧ q ≤ f.maxExponentRoundToEven ∧ mantissa &&& 3 = 1
          ∧ (mantissa <<< shift) % 2 ^ 64 = product.2
        then mantissa - mantissa % 2
        else mantissa
      computeFloatRound f mantissa power2

/-- `to_float(negative, am, value)` (/repo/src/c4/ext/fast_float_all.h:691-704): the bits of `value`. -/
def toFloat (f : Fmt) (negative : Bool) (am : AM) : Nat :=
  let word := am.mantissa ||| (am.power2.toNat <<< f.mantissaExplicitBits)
  word ||| ((if negative then 1 else 0) <<< f.signIndex)

end C4.FF
