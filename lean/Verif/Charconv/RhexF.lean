import Verif.Charconv.Rhex
import Verif.Spec.Fpu
/-
The hexadecimal real scanner `detail::scan_rhex` (/repo/src/c4/charconv.hpp:1963-2037) with the arithmetic of the floating point type: every
operation is rounded.  `Charconv/Rhex` has the same functions over the rational numbers.  Contracting a multiplication and an addition into
one operation, which compilers may do, is not modelled.
-/
namespace C4
open Spec

/-- A floating point value that is not negative: a finite number by its bits, infinity, or not a number. -/
inductive HF
  | num (b : Nat) | inf | nan
deriving DecidableEq, Repr

/-- The value of a rounded result. -/
def HF.ofBits (F : Ieee) (b : Nat) : HF := if b = F.infBits then .inf else .num b

/-- `a * b`, `a + b` and `a / 16` of the floating point type (IEEE 754, 4.3 and 6.1). -/
def HF.mul (F : Ieee) (fpu : Fpu) : HF → HF → HF
  | .num a, .num b => .ofBits F (fpu.round F (F.val a * F.val b))
  | .nan, _ => .nan
  | _, .nan => .nan
  | .inf, .num b => if b = 0 then .nan else .inf
  | .num a, .inf => if a = 0 then .nan else .inf
  | .inf, .inf => .inf
def HF.add (F : Ieee) (fpu : Fpu) : HF → HF → HF
  | .num a, .num b => .ofBits F (fpu.round F (F.val a + F.val b))
  | .nan, _ => .nan
  | _, .nan => .nan
  | _, _ => .inf
def HF.div16 (F : Ieee) (fpu : Fpu) : HF → HF
  | .num a => .ofBits F (fpu.round F (F.val a / 16))
  | x => x

/-- `T(n)` for a small integer, and `T(0.0625)`: these are numbers of the format, so the rounding does not matter. -/
def HF.ofRat (F : Ieee) (fpu : Fpu) (x : Rat) : HF := .ofBits F (fpu.round F x)

/-- The loops of `ipow` (/repo/src/c4/memory_util.hpp:526-527, 532-533) in the floating point type. -/
def HF.mulLoop (F : Ieee) (fpu : Fpu) : Nat → HF → HF
  | 0, r => r
  | n+1, r => mulLoop F fpu n (r.mul F fpu (.ofRat F fpu 16))
def HF.divLoop (F : Ieee) (fpu : Fpu) : Nat → HF → HF
  | 0, r => r
  | n+1, r => divLoop F fpu n (r.div16 F fpu)

/-- `ipow<T,int16_t,16>(exponent)` (/repo/src/c4/memory_util.hpp:518-536); see `ipow16`. -/
def ipow16F (F : Ieee) (fpu : Fpu) (e : Int) : HF :=
  if 0 ≤ e then HF.mulLoop F fpu e.toNat (.ofRat F fpu 1)
  else HF.divLoop F fpu ((ITy.mk .w16 true).wrap (-e)).toNat (.ofRat F fpu 1)

/-- The part after the label `power` (/repo/src/c4/charconv.hpp:2019-2035); see `rhexPower`. -/
def rhexPowerF (F : Ieee) (fpu : Fpu) (s : List Nat) (val : HF) : Res (Bool × HF) :=
  let s' := if s.head? = some 43 then s.drop 1 else s
  if s'.length > 0 then do
    let (ok, p, _) ← atoi ⟨.w16, true⟩ s'
    .ok (if ok then (true, val.mul F fpu (ipow16F F fpu p)) else (false, val))
  else .ok (false, val)

/-- The loop over the characters after the point (/repo/src/c4/charconv.hpp:1999-2017). -/
def rhexFracF (F : Ieee) (fpu : Fpu) : List Nat → HF → HF → Res (Bool × HF)
  | [], _, val => .ok (true, val)
  | c :: s, digit, val =>
    match rhexDigit c with
    | some d => rhexFracF F fpu s (digit.div16 F fpu) (val.add F fpu (digit.mul F fpu (.ofRat F fpu d)))
    | none => if c = 112 ∨ c = 80 then rhexPowerF F fpu s val else .ok (false, val)

/-- The loop over the characters before the point (/repo/src/c4/charconv.hpp:1971-1996). -/
def rhexIntF (F : Ieee) (fpu : Fpu) : List Nat → HF → Res (Bool × HF)
  | [], val => .ok (true, val)
  | c :: s, val =>
    match rhexDigit c with
    | some d => rhexIntF F fpu s ((val.mul F fpu (.ofRat F fpu 16)).add F fpu (.ofRat F fpu d))
    | none =>
      if c = 46 then rhexFracF F fpu s (.ofRat F fpu (1 / 16)) val
      else if c = 112 ∨ c = 80 then rhexPowerF F fpu s val
      else .ok (false, val)

/-- `scan_rhex(s, val)` (/repo/src/c4/charconv.hpp:1963-2037). -/
def scanRhexF (F : Ieee) (fpu : Fpu) (s : List Nat) (val : HF) : Res (Bool × HF) := rhexIntF F fpu s val

/-- The branch of `atof`/`atod` for hexadecimal text (/repo/src/c4/charconv.hpp:2115-2128, 2180-2193): the returned bool, whether the result is
multiplied by -1, which is exact, and its absolute value. -/
def atofHexF (F : Ieee) (fpu : Fpu) (str : List Nat) (v : HF) : Res (Option (Bool × Bool × HF)) := do
  let c ← rd str 0
  let neg : Bool := c = 45
  let rem := if c = 45 ∨ c = 43 then str.drop 1 else str
  match rem with
  | 48 :: x :: t =>
    if x = 120 ∨ x = 88 then do
      let (ok, r) ← scanRhexF F fpu t v
      .ok (some (ok, ok && neg, r))
    else .ok none
  | _ => .ok none

end C4
