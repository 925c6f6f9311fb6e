import Verif.Charconv.Rhex
import Verif.FastFloat.FromChars
import Verif.Substr.Spans
/-
Model of `atof`/`atod` and `atof_first`/`atod_first` (/repo/src/c4/charconv.hpp:2108-2161 and 2173-2224), compiled when fast_float is used.
-/
namespace C4
open FF

/-- What is assigned to `*v`: by fast_float, or by the scanner of hexadecimal numbers, whose arithmetic is not rounded in the model. -/
inductive RealOut
  | dec (v : Option FVal)
  | hex (v : Rat)
deriving DecidableEq, Repr

/-- `atof(str, v)` and `atod(str, v)` (/repo/src/c4/charconv.hpp:2108-2143, 2173-2206); `v` is the value of `*v` before the call.  The pointer that
fast_float returns is not looked at. -/
def atof (f : Fmt) (fpu : Spec.Fpu) (str : List Nat) (v : Rat) : Res (Bool × RealOut) := do
  match ← atofHex str v with
  | some (ok, r) => .ok (ok, .hex r)
  | none => do
    let r ← fromChars f fpu str
    .ok (r.ec == .none, .dec r.value)

/-- `atof_first(str, v)` and `atod_first(str, v)` (/repo/src/c4/charconv.hpp:2150-2159, 2213-2222): the returned position (`none` is npos). -/
def atofFirst (f : Fmt) (fpu : Spec.Fpu) (str : List Nat) (v : Rat) : Res (Option Nat × RealOut) := do
  let r ← firstRealSpan str
  if r.2 = 0 then .ok (none, .dec none)
  else do
    let (ok, out) ← atof f fpu (Rng.of str r) v
    .ok (if ok then some (r.1 + r.2) else none, out)

end C4
