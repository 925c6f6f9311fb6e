import Verif.Charconv.Read
/-
Model of the hexadecimal real scanner `detail::scan_rhex` and of its use in `atof`/`atod`
(/repo/src/c4/charconv.hpp:1963-2037, 2108-2143, 2173-2206), compiled when fast_float is used.

Simplification: the floating point type `T` is replaced by the rational numbers, so nothing is rounded and nothing
overflows.  For texts whose partial results are exactly representable there is no difference.
-/
namespace C4

/-- Value given to a digit of the mantissa: `c - '0'`, `c - 'a'`, `c - 'A'`
(/repo/src/c4/charconv.hpp:1976-1981, 2003-2008). -/
def rhexDigit (c : Nat) : Option Nat :=
  if 48 ≤ c ∧ c ≤ 57 then some (c - 48)
  else if 97 ≤ c ∧ c ≤ 102 then some (c - 97)
  else if 65 ≤ c ∧ c ≤ 70 then some (c - 65)
  else none

/-- `for(E e = 0; e < exponent; ++e) r *= bbase;` (/repo/src/c4/memory_util.hpp:526-527). -/
def ratMulLoop (b : Rat) : Nat → Rat → Rat
  | 0, r => r
  | n+1, r => ratMulLoop b n (r * b)

/-- `for(E e = 0; e < exponent; ++e) r /= bbase;` (/repo/src/c4/memory_util.hpp:532-533). -/
def ratDivLoop (b : Rat) : Nat → Rat → Rat
  | 0, r => r
  | n+1, r => ratDivLoop b n (r / b)

/-- `ipow<T,int16_t,16>(exponent)` (/repo/src/c4/memory_util.hpp:518-536): `exponent *= -1` is stored in an `int16_t`, so
-32768 stays negative and the loop does not run. -/
def ipow16 (e : Int) : Rat :=
  if 0 ≤ e then ratMulLoop 16 e.toNat 1
  else ratDivLoop 16 ((ITy.mk .w16 true).wrap (-e)).toNat 1

/-- The part after the label `power` (/repo/src/c4/charconv.hpp:2019-2035); `s` is what follows the 'p'. -/
def rhexPower (s : List Nat) (val : Rat) : Res (Bool × Rat) :=
  let s' := if s.head? = some 43 then s.drop 1 else s
  if s'.length > 0 then do
    let (ok, p, _) ← atoi ⟨.w16, true⟩ s'
    .ok (if ok then (true, val * ipow16 p) else (false, val))
  else .ok (false, val)

/-- The loop over the characters after the point (/repo/src/c4/charconv.hpp:1999-2017). -/
def rhexFrac : List Nat → Rat → Rat → Res (Bool × Rat)
  | [], _, val => .ok (true, val)
  | c :: s, digit, val =>
    match rhexDigit c with
    | some d => rhexFrac s (digit / 16) (val + digit * d)
    | none => if c = 112 ∨ c = 80 then rhexPower s val else .ok (false, val)

/-- The loop over the characters before the point (/repo/src/c4/charconv.hpp:1971-1996).  If the string ends here, the
loop after the point has nothing to do and the function returns true. -/
def rhexInt : List Nat → Rat → Res (Bool × Rat)
  | [], val => .ok (true, val)
  | c :: s, val =>
    match rhexDigit c with
    | some d => rhexInt s (val * 16 + d)
    | none =>
      if c = 46 then rhexFrac s (1 / 16) val
      else if c = 112 ∨ c = 80 then rhexPower s val
      else .ok (false, val)

/-- `scan_rhex(s, val)` (/repo/src/c4/charconv.hpp:1963-2037): returned bool and value of `*val` afterwards; `val` is its value
before the call. -/
def scanRhex (s : List Nat) (val : Rat) : Res (Bool × Rat) := rhexInt s val

/-- The branch of `atof`/`atod` for text starting (after a sign) with `0x`/`0X`
(/repo/src/c4/charconv.hpp:2115-2128, 2180-2193); `none` for other texts, which are given to fast_float (see
`Charconv/Atof`).  `v` is the value of `*v` before the call. -/
def atofHex (str : List Nat) (v : Rat) : Res (Option (Bool × Rat)) := do
  let c ← rd str 0
  let neg : Bool := c = 45
  let rem := if c = 45 ∨ c = 43 then str.drop 1 else str
  match rem with
  | 48 :: x :: t =>
    if x = 120 ∨ x = 88 then do
      let (ok, r) ← scanRhex t v
      .ok (some (if ok then (true, r * (if neg then -1 else 1)) else (false, r)))
    else .ok none
  | _ => .ok none

end C4
