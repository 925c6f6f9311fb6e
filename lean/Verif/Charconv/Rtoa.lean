import Verif.Format
import Verif.Spec.Decimal
import Verif.Spec.Writer
/-
Model of the conversion of real numbers to text: `ftoa`, `dtoa` and what they call (/repo/src/c4/charconv.hpp:1821-1876, 1920-1966 and 2049-2098), in both
configurations: with `std::to_chars` (C++17) and with `snprintf`.  What digits a number is written with is up to these library functions and a parameter here.
-/
namespace C4

/-- `RealFormat_e` (/repo/src/c4/charconv.hpp:187-210). -/
inductive RealFormat
  | float | scient | flex | hexa
deriving DecidableEq, Repr

/-- The values of `RealFormat_e` without `std::to_chars` (/repo/src/c4/charconv.hpp:200-209). -/
def RealFormat.letter : RealFormat → Nat
  | .float => 102
  | .scient => 101
  | .flex => 103
  | .hexa => 97

/-- The texts `std::to_chars` gives for a number: without precision, or with one. -/
abbrev StdText := Option Int → RealFormat → List Nat

/-- `std::to_chars(first, last, v, fmt)` for `first` at `pos` and `last` at the end of the buffer (C++ standard, [charconv.to.chars]; trusted): the end of the text,
or `none` for `value_too_large`.  In this case the contents of the range are unspecified: `junk`.  If `last` comes before `first`, this is not a range. -/
def stdToChars (text : List Nat) (junk : Nat → Nat) (pos : Nat) (buf : List Nat) : Res (Option Nat × List Nat) :=
  if pos > buf.length then .ub
  else if text.length ≤ buf.length - pos then .ok (some (pos + text.length), buf.take pos ++ text ++ buf.drop (pos + text.length))
  else .ok (none, buf.take pos ++ (List.range (buf.length - pos)).map junk)

/-- `detail::rtoa(buf, v, precision, formatting)` (/repo/src/c4/charconv.hpp:1920-1966). -/
def rtoa (text : StdText) (junk : Nat → Nat) (maxDigits10 : Nat) (precision : Int) (fmt : RealFormat) : Writer := fun buf => do
  let (buf, pos) := if fmt = .hexa then (if buf.length > 2 then (buf.set 0 48).set 1 120 else buf, 2) else (buf, 0)
  let (result, buf) ← stdToChars (text (if precision = -1 then none else some precision) fmt) junk pos buf
  match result with
  | some delta => .ok (delta, buf)
  | none => .ok (if maxDigits10 > buf.length then maxDigits10 else buf.length + 1, buf)

/-- The output of `snprintf` for the formats in `get_real_format_str`, before it is cut (/repo/src/c4/charconv.hpp:1826-1832). -/
def realFormatText (precision : Int) (fmt : RealFormat) (lengthModifier : List Nat) : List Nat :=
  if precision = -1 then [37] ++ lengthModifier ++ [fmt.letter]
  else if precision = 0 then [37, 46] ++ lengthModifier ++ [fmt.letter]
  else [37, 46] ++ Spec.intText 10 precision 0 ++ lengthModifier ++ [fmt.letter]

/-- `get_real_format_str(fmt, precision, formatting, length_modifier)` (/repo/src/c4/charconv.hpp:1823-1835) for the array of 16 characters of its callers: the string
in it. -/
def getRealFormatStr (precision : Int) (fmt : RealFormat) (lengthModifier : List Nat) : List Nat := (realFormatText precision fmt lengthModifier).take 15

/-- A conversion specification as `printf` reads it, without flags and width, which do not occur: the precision, whether there is an l, and the letter
(C standard, 7.21.6.1; trusted). -/
def parseConversion (fmt : List Nat) : Option (Option Nat × Bool × Nat) :=
  match fmt with
  | 37 :: s =>
    let (precision, s) := match s with
      | 46 :: s => (some (Spec.digitsVal (s.takeWhile fun c => decide (48 ≤ c ∧ c ≤ 57))), s.dropWhile fun c => decide (48 ≤ c ∧ c ≤ 57))
      | s => (none, s)
    match s with
    | [c] => if c = 102 ∨ c = 101 ∨ c = 103 ∨ c = 97 then some (precision, false, c) else none
    | [l, c] => if l = 108 ∧ (c = 102 ∨ c = 101 ∨ c = 103 ∨ c = 97) then some (precision, true, c) else none
    | _ => none
  | _ => none

/-- The texts `printf` gives for a number. -/
abbrev PrintfText := Option Nat → Nat → List Nat

/-- `snprintf(str, len, fmt, v)` (C standard, 7.21.6.5; trusted): the result and the buffer.  The behaviour is undefined if the format is not valid.  A text whose
length is no `int` is an error. -/
def snprintf (text : PrintfText) (fmt : List Nat) (buf : List Nat) : Res (Int × List Nat) :=
  match parseConversion fmt with
  | none => .ub
  | some (precision, _, letter) =>
    let t := text precision letter
    if t.length ≥ 2 ^ 31 then .ok (-1, buf)
    else if buf.length = 0 then .ok (t.length, buf)
    else
      let t' := t.take (buf.length - 1) ++ [0]
      .ok (t.length, t' ++ buf.drop t'.length)

/-- `print_one(str, full_fmt, v)` (/repo/src/c4/charconv.hpp:1850-1876), with another compiler than Visual C++ and without assertions. -/
def printOne (text : PrintfText) (fmt : List Nat) : Writer := fun buf => do
  let (iret, buf) ← snprintf text fmt buf
  let ret := (iret % 2 ^ 64).toNat
  .ok (if ret ≥ buf.length then (ret + 1) % 2 ^ 64 else ret, buf)

/-- `ftoa(str, v, precision, formatting)` and `dtoa(str, v, precision, formatting)` with `std::to_chars` (/repo/src/c4/charconv.hpp:2061-2064 and 2087-2090), the
default `to_chars` of a real number (lines 2336-2337), and of `fmt::real` (/repo/src/c4/format.hpp:380-383). -/
def ftoaStd (text : StdText) (junk : Nat → Nat) (precision : Int) (fmt : RealFormat) : Writer := rtoa text junk 9 precision fmt
def dtoaStd (text : StdText) (junk : Nat → Nat) (precision : Int) (fmt : RealFormat) : Writer := rtoa text junk 17 precision fmt

/-- The same with `snprintf` (/repo/src/c4/charconv.hpp:2066-2068 and 2092-2094). -/
def ftoaC (text : PrintfText) (precision : Int) (fmt : RealFormat) : Writer := printOne text (getRealFormatStr precision fmt [])
def dtoaC (text : PrintfText) (precision : Int) (fmt : RealFormat) : Writer := printOne text (getRealFormatStr precision fmt [108])

end C4
