import Verif.Charconv.Convert
/-
Model of the conversions that choose by the type of the argument (/repo/src/c4/charconv.hpp:2242-2302, 2328-2342, 2363-2377), for integers and pointers.
-/
namespace C4

/-- `xtoa(s, v)` (/repo/src/c4/charconv.hpp:2242-2249, 2274-2275) and `to_chars(s, v)` (lines 2328-2335, 2339-2340) for the integral type `t`. -/
def xtoa (t : ITy) (v : Int) (buf : List Nat) : Res (Nat × List Nat) :=
  if t.sgn then itoa t.w v buf else writeDec t.w v.toNat buf

/-- `xtoa(s, v, radix)` (/repo/src/c4/charconv.hpp:2253-2260). -/
def xtoaRadix (t : ITy) (v : Int) (radix : Nat) (buf : List Nat) : Res (Nat × List Nat) :=
  if t.sgn then itoaRadix t.w v radix buf else utoaRadix t.w v.toNat radix buf

/-- `xtoa(s, v, radix, num_digits)` (/repo/src/c4/charconv.hpp:2262-2269). -/
def xtoaPad (t : ITy) (v : Int) (radix numDigits : Nat) (buf : List Nat) : Res (Nat × List Nat) :=
  if t.sgn then itoaRadixPad t.w v radix numDigits buf else utoaRadixPad t.w v.toNat radix numDigits buf

/-- `xtoa(s, T*)` (/repo/src/c4/charconv.hpp:2276-2277): the address is converted to `intptr_t`. -/
def xtoaPtr (address : Nat) (buf : List Nat) : Res (Nat × List Nat) := itoaRadix .w64 ((ITy.mk .w64 true).wrap address) 16 buf

/-- `atox(s, v)` (/repo/src/c4/charconv.hpp:2288-2295, 2299-2300) and `from_chars(s, v)` (lines 2363-2370, 2374-2375): the value if it is converted. -/
def atox (t : ITy) (s : List Nat) : Res (Option Int) := do
  let (ok, v, _) ← if t.sgn then atoi t s else atou t s
  .ok (if ok then some v else none)

/-- `atox(s, T**)` (/repo/src/c4/charconv.hpp:2301-2302): the address. -/
def atoxPtr (s : List Nat) : Res (Option Nat) := do
  let (ok, v, _) ← atoi ⟨.w64, true⟩ s
  .ok (if ok then some ((v % 2 ^ 64).toNat) else none)

end C4
