import Verif.Charconv.Rtoa
import Verif.Substr.Spans
/-
Model of `atof`/`atod` in the configuration without fast_float and without `std::from_chars` (/repo/src/c4/charconv.hpp:1880-1917, 2131-2137, 2196-2202): they
call `sscanf`.  `mem` is what can be read from the address of the view on; the view is its first `len` characters.
-/
namespace C4.Scan

/-- Where `sscanf` is within a floating point number: the syntax is that of `strtod` (C standard, 7.22.1.3; trusted). -/
inductive St
  | start | sign
  | zero | int | dot | intDot | frac | exp | expSign | expDigit
  | hexX | hexInt | hexDot | hexIntDot | hexFrac | pow | powSign | powDigit
  | inf (n : Nat) | nan (n : Nat) | paren | closed
deriving DecidableEq, Repr

def digit (c : Nat) : Bool := decide (48 ≤ c ∧ c ≤ 57)
def hexDigit (c : Nat) : Bool := digit c || decide (97 ≤ c ∧ c ≤ 102) || decide (65 ≤ c ∧ c ≤ 70)
def nanChar (c : Nat) : Bool := digit c || decide (97 ≤ c ∧ c ≤ 122) || decide (65 ≤ c ∧ c ≤ 90) || c == 95
/-- The letter at a place of a word, in upper or lower case. -/
def letterAt (word : List Nat) (n c : Nat) : Bool := word[n]? == some c || word[n]? == some (c + 32)

/-- The beginning of a number after the optional sign. -/
def begin (c : Nat) : Option St :=
  if c = 48 then some .zero
  else if digit c then some .int
  else if c = 46 then some .dot
  else if letterAt (S "infinity") 0 c then some (.inf 1)
  else if letterAt (S "nan") 0 c then some (.nan 1)
  else none

/-- One more character. -/
def step : St → Nat → Option St
  | .start, c => if c = 43 ∨ c = 45 then some .sign else begin c
  | .sign, c => begin c
  | .zero, c => if c = 120 ∨ c = 88 then some .hexX else if digit c then some .int else if c = 46 then some .intDot else if c = 101 ∨ c = 69 then some .exp else none
  | .int, c => if digit c then some .int else if c = 46 then some .intDot else if c = 101 ∨ c = 69 then some .exp else none
  | .dot, c => if digit c then some .frac else none
  | .intDot, c => if digit c then some .frac else if c = 101 ∨ c = 69 then some .exp else none
  | .frac, c => if digit c then some .frac else if c = 101 ∨ c = 69 then some .exp else none
  | .exp, c => if c = 43 ∨ c = 45 then some .expSign else if digit c then some .expDigit else none
  | .expSign, c => if digit c then some .expDigit else none
  | .expDigit, c => if digit c then some .expDigit else none
  | .hexX, c => if hexDigit c then some .hexInt else if c = 46 then some .hexDot else none
  | .hexInt, c => if hexDigit c then some .hexInt else if c = 46 then some .hexIntDot else if c = 112 ∨ c = 80 then some .pow else none
  | .hexDot, c => if hexDigit c then some .hexFrac else none
  | .hexIntDot, c => if hexDigit c then some .hexFrac else if c = 112 ∨ c = 80 then some .pow else none
  | .hexFrac, c => if hexDigit c then some .hexFrac else if c = 112 ∨ c = 80 then some .pow else none
  | .pow, c => if c = 43 ∨ c = 45 then some .powSign else if digit c then some .powDigit else none
  | .powSign, c => if digit c then some .powDigit else none
  | .powDigit, c => if digit c then some .powDigit else none
  | .inf n, c => if letterAt (S "infinity") n c then some (.inf (n + 1)) else none
  | .nan n, c => if letterAt (S "nan") n c then some (.nan (n + 1)) else if n = 3 ∧ c = 40 then some .paren else none
  | .paren, c => if nanChar c then some .paren else if c = 41 then some .closed else none
  | .closed, _ => none

/-- The characters read so far are a number. -/
def St.accepts : St → Bool
  | .zero | .int | .intDot | .frac | .expDigit | .hexInt | .hexIntDot | .hexFrac | .powDigit | .closed => true
  | .inf n => n == 3 || n == 8
  | .nan n => n == 3
  | _ => false

/-- The input item: the longest sequence of characters that is not longer than the field width and is a number or the beginning of one (C standard, 7.21.6.2;
trusted): how many characters, and the state after them. -/
def item : Nat → List Nat → St → Nat × St
  | 0, _, st => (0, st)
  | _, [], st => (0, st)
  | w + 1, c :: s, st =>
    match step st c with
    | none => (0, st)
    | some st' => let (n, e) := item w s st'; (n + 1, e)

/-- `isspace`. -/
def blank (c : Nat) : Bool := c == 32 || decide (9 ≤ c ∧ c ≤ 13)

/-- A format "%<width><f, lf, a or la>%n": the width. -/
def parseFormat (fmt : List Nat) : Option Nat :=
  match fmt with
  | 37 :: s =>
    let ds := s.takeWhile digit
    let t := s.dropWhile digit
    if ds = [] ∨ Spec.digitsVal ds = 0 then none
    else if t = S "f%n" ∨ t = S "lf%n" ∨ t = S "a%n" ∨ t = S "la%n" then some (Spec.digitsVal ds)
    else none
  | _ => none

/-- `sscanf(mem, fmt, v, &num_chars)` (C standard, 7.21.6.7; trusted): the number of conversions, the text converted, and `num_chars`.  Another format is undefined, and so is memory
without a terminating zero. -/
def sscanf (mem fmt : List Nat) : Res (Int × Option (List Nat × Nat)) :=
  match parseFormat fmt with
  | none => .ub
  | some width =>
    if 0 ∈ mem then
      let s := mem.takeWhile (· ≠ 0)
      let blanks := s.takeWhile blank
      let s := s.dropWhile blank
      if s = [] then .ok (-1, none)
      else
        let (n, e) := item width s .start
        if e.accepts then .ok (1, some (s.take n, blanks.length + n)) else .ok (0, none)
    else .ub

/-- A read of `num_chars` (/repo/src/c4/charconv.hpp:1909-1914): it is not initialized unless `sscanf` has stored to it. -/
def numChars : Option (List Nat × Nat) → Res Nat
  | some x => .ok x.2
  | none => .ub

/-- `scan_one(str, type_fmt, v)` (/repo/src/c4/charconv.hpp:1885-1916): the result, `none` for npos, and the text whose value is in `*v`, if it was assigned. -/
def scanOne (mem : List Nat) (len : Nat) (typeFmt : List Nat) : Res (Option Nat × Option (List Nat)) := do
  let (iret, out) ← sscanf mem (([37] ++ Spec.numeralText 10 len ++ typeFmt ++ [37, 110]).take 15)
  if iret ≠ 1 then .ok (none, out.map (·.1))
  else do
    let n ← numChars out
    .ok (some n, out.map (·.1))

/-- The test for 0x or 0X (/repo/src/c4/charconv.hpp:2133, 2198). -/
def hexPrefix : List Nat → Bool
  | 48 :: x :: _ => x == 120 || x == 88
  | _ => false

/-- `atof(str, v)` and `atod(str, v)` (/repo/src/c4/charconv.hpp:2131-2137, 2196-2202), `long` for `atod`: what is returned, and the text whose value is in `*v`. -/
def atof (long : Bool) (mem : List Nat) (len : Nat) : Res (Bool × Option (List Nat)) := do
  let str := mem.take len
  let c ← rd str 0
  let rem := str.drop (if c = 45 ∨ c = 43 then 1 else 0)
  let (r, out) ← scanOne mem len ((if long then [108] else []) ++ (if hexPrefix rem then [97] else [102]))
  .ok (r.isSome, out)

/-- `atof_first(str, v)` and `atod_first(str, v)` (/repo/src/c4/charconv.hpp:2150-2159, 2213-2222). -/
def atofFirst (long : Bool) (mem : List Nat) (len : Nat) : Res (Option Nat × Option (List Nat)) := do
  let r ← firstRealSpan (mem.take len)
  if r.2 = 0 then .ok (none, none)
  else do
    let (ok, out) ← atof long (mem.drop r.1) r.2
    .ok (if ok then some (r.1 + r.2) else none, out)

end C4.Scan
