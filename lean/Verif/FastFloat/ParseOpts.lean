import Verif.FastFloat.FromChars
/-
Model of `fast_float::from_chars_advanced` with its options, the format and the decimal point (/repo/src/c4/ext/fast_float_all.h:104-140, 1154-1324 and
3621-3653), for `char`.  The macros `FASTFLOAT_SKIP_WHITE_SPACE`, `FASTFLOAT_ALLOWS_LEADING_PLUS` are not defined.
-/
namespace C4.FF
open Spec

/-- The bits of `chars_format` (/repo/src/c4/ext/fast_float_all.h:106-113). -/
def fmtScientific : Nat := 1
def fmtFixed : Nat := 4
def fmtHex : Nat := 8
def fmtNoInfnan : Nat := 16
def fmtJsonBit : Nat := 32
def fmtFortranBit : Nat := 64

/-- The values of `chars_format` that have several bits (/repo/src/c4/ext/fast_float_all.h:114-119). -/
def fmtJson : Nat := fmtJsonBit ||| fmtFixed ||| fmtScientific ||| fmtNoInfnan
def fmtJsonOrInfnan : Nat := fmtJsonBit ||| fmtFixed ||| fmtScientific
def fmtFortran : Nat := fmtFortranBit ||| fmtFixed ||| fmtScientific
def fmtGeneral : Nat := fmtFixed ||| fmtScientific

/-- `fmt & flag` as a condition. -/
def hasFlag (fmt flag : Nat) : Bool := fmt &&& flag != 0

/-- `parse_options_t` (/repo/src/c4/ext/fast_float_all.h:129-139). -/
structure ParseOptions where
  format : Nat
  decimalPoint : Nat
deriving DecidableEq, Repr

/-- The loop over leading zeros (/repo/src/c4/ext/fast_float_all.h:1288-1291): the new `digit_count`. -/
def zeroLoopO (dp : Nat) : List Nat → Int → Int
  | [], n => n
  | c :: s, n => if c = 48 then zeroLoopO dp s (n - 1) else if c = dp then zeroLoopO dp s n else n

/-- The exponent part (/repo/src/c4/ext/fast_float_all.h:1233-1273): the new `p` and the number to add to the exponent, or nothing if the text is refused. -/
def exponentPartO (fmt : Nat) (p : List Nat) : Option (List Nat × Int) :=
  if (hasFlag fmt fmtScientific && (p.head? == some 101 || p.head? == some 69)) ||
      (hasFlag fmt fmtFortranBit && (p.head? == some 43 || p.head? == some 45 || p.head? == some 100 || p.head? == some 68)) then
    let q := if p.head? == some 101 || p.head? == some 69 || p.head? == some 100 || p.head? == some 68 then p.drop 1 else p
    let negExp := q.head? == some 45
    let q := if q.head? == some 45 || q.head? == some 43 then q.drop 1 else q
    if q.head?.any isInteger then
      let (r, e) := expLoop q 0
      some (r, if negExp then -(e : Int) else e)
    else if !hasFlag fmt fmtFixed then none
    else some (p, 0)
  else if hasFlag fmt fmtScientific && !hasFlag fmt fmtFixed then none
  else some (p, 0)

/-- The end of `parse_number_string` (/repo/src/c4/ext/fast_float_all.h:1277-1323): more than nineteen digits. -/
def fixDigitsO (dp : Nat) (startDigits integer : List Nat) (fraction : Option (List Nat)) (digitCount : Int) (i : Nat) (exponent expNumber : Int) :
    Nat × Int × Bool :=
  if digitCount > 19 then
    if zeroLoopO dp startDigits digitCount > 19 then
      let (p, i) := nineteenLoop integer 0
      if i ≥ 1000000000000000000 then (i, (p.length : Int) + expNumber, true)
      else
        let frac := fraction.getD []
        let (p, i) := nineteenLoop frac i
        (i, (p.length : Int) - frac.length + expNumber, true)
    else (i, exponent, false)
  else (i, exponent, false)

/-- The part of `parse_number_string` after the sign (/repo/src/c4/ext/fast_float_all.h:1185-1324). -/
def parseUnsignedO (o : ParseOptions) (negative : Bool) (startDigits : List Nat) : PNS :=
  let (p, i) := digitLoop startDigits 0
  let integer := startDigits.take (startDigits.length - p.length)
  let digitCount : Int := (startDigits.length - p.length : Nat)
  let json := hasFlag o.format fmtJsonBit
  if json && (digitCount == 0 || (startDigits.head? == some 48 && digitCount > 1)) then invalidPNS
  else
    let hasDecimalPoint := p.head? == some o.decimalPoint
    let (p, i, exponent, fraction) :=
      if hasDecimalPoint then
        let before := p.drop 1
        let (p, i) := loopParseIfEightDigits before i
        let (p, i) := digitLoop p i
        (p, i, (p.length : Int) - before.length, some (before.take (before.length - p.length)))
      else (p, i, (0 : Int), none)
    let digitCount := digitCount - exponent
    if (if json then hasDecimalPoint && exponent == 0 else digitCount == 0) then invalidPNS
    else
      match exponentPartO o.format p with
      | none => invalidPNS
      | some (p, expNumber) =>
        let exponent := exponent + expNumber
        let (i, exponent, tooMany) := fixDigitsO o.decimalPoint startDigits integer fraction digitCount i exponent expNumber
        ⟨exponent, i, p, negative, true, tooMany, integer, fraction⟩

/-- `parse_number_string(p, pend, options)` (/repo/src/c4/ext/fast_float_all.h:1154-1324). -/
def parseNumberStringO (o : ParseOptions) (p : List Nat) : Res PNS :=
  match p with
  | [] => .ub
  | c :: s =>
    if c = 45 then
      match s with
      | [] => .ok invalidPNS
      | d :: _ =>
        if hasFlag o.format fmtJsonBit then
          if !isInteger d then .ok invalidPNS else .ok (parseUnsignedO o true s)
        else if !isInteger d && d ≠ o.decimalPoint then .ok invalidPNS
        else .ok (parseUnsignedO o true s)
    else .ok (parseUnsignedO o false p)

/-- `from_chars_advanced(first, last, value, options)` (/repo/src/c4/ext/fast_float_all.h:3621-3653). -/
def fromCharsAdvanced (f : Fmt) (fpu : Fpu) (o : ParseOptions) (s : List Nat) : Res FCResult :=
  if s = [] then .ok ⟨s, .invalidArgument, none⟩
  else
    match parseNumberStringO o s with
    | .ok pns =>
      if pns.valid then .ok (fromCharsPns f fpu pns)
      else if hasFlag o.format fmtNoInfnan then .ok ⟨s, .invalidArgument, none⟩
      else parseInfnan f s
    | _ => .ub

end C4.FF
