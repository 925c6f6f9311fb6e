import Verif.Debug.Spans
import Verif.Charconv.Convert
import Verif.Charconv.Overflow
import Verif.Charconv.Atof
/-
Model of the readers of numbers in builds with assertions (/repo/src/c4/charconv.hpp:863-970, 1453-1598, 1648-1808, 1963-2037, 2108-2224): the functions of
`Charconv/Read.lean`, `Overflow.lean`, `Rhex.lean` and `Atof.lean` with the assertions of their own and of the functions of views that they use.
-/
namespace C4
open FF

/-- `read_dec` (/repo/src/c4/charconv.hpp:865-877). -/
def readDecD (t : ITy) (s : List Nat) : Res (Bool × Int × Bool) := do
  assertThat (s.length ≠ 0)
  pure (readDec t s)
/-- `read_hex` (/repo/src/c4/charconv.hpp:893-912). -/
def readHexD (t : ITy) (s : List Nat) : Res (Bool × Int × Bool) := do
  assertThat (s.length ≠ 0)
  pure (readHex t s)
/-- `read_bin` (/repo/src/c4/charconv.hpp:928-942). -/
def readBinD (t : ITy) (s : List Nat) : Res (Bool × Int × Bool) := do
  assertThat (s.length ≠ 0)
  pure (readBin t s)
/-- `read_oct` (/repo/src/c4/charconv.hpp:958-970). -/
def readOctD (t : ITy) (s : List Nat) : Res (Bool × Int × Bool) := do
  assertThat (s.length ≠ 0)
  pure (readOct t s)

/-- The part of `atoi` that reads the magnitude (/repo/src/c4/charconv.hpp:1474-1495). -/
def atoiMagD (t : ITy) (str : List Nat) (start : Nat) : Res (Bool × Int × Bool) := do
  let c ← rd str start
  if c ≠ 48 then do
    let s ← subL str start
    readDecD t s
  else if str.length > start + 1 then do
    let pfx ← rd str (start + 1)
    if pfx = 120 ∨ pfx = 88 then
      if str.length > start + 2 then do
        let s ← subL str (start + 2)
        readHexD t s
      else .ok (false, 0, false)
    else if pfx = 98 ∨ pfx = 66 then
      if str.length > start + 2 then do
        let s ← subL str (start + 2)
        readBinD t s
      else .ok (false, 0, false)
    else if pfx = 111 ∨ pfx = 79 then
      if str.length > start + 2 then do
        let s ← subL str (start + 2)
        readOctD t s
      else .ok (false, 0, false)
    else do
      let s ← subL str (start + 1)
      readDecD t s
  else do
    let s ← subL str start
    readDecD t s

/-- `atoi(csubstr str, T *v)` (/repo/src/c4/charconv.hpp:1455-1500). -/
def atoiD (t : ITy) (str : List Nat) : Res (Bool × Int × Bool) :=
  if str.length = 0 then .ok (false, 0, false)
  else do
    let c0 ← rd str 0
    assertThat (c0 ≠ 43)
    let sign : Int := if c0 = 45 then -1 else 1
    let start := if c0 = 45 then 1 else 0
    if c0 = 45 ∧ str.length = 1 then .ok (false, 0, false)
    else do
      let (ok, v, o) ← atoiMagD t str start
      if ok then
        let (v', o') := mulSign t v sign
        .ok (true, v', o || o')
      else .ok (false, v, o)

/-- `atou(csubstr str, T *v)` (/repo/src/c4/charconv.hpp:1548-1581); `str.front()` asserts that there is a character. -/
def atouD (t : ITy) (str : List Nat) : Res (Bool × Int × Bool) :=
  if str.length = 0 then .ok (false, 0, false)
  else do
    assertThat (str.length > 0)
    let c0 ← rd str 0
    if c0 = 45 then .ok (false, 0, false)
    else if c0 ≠ 48 then readDecD t str
    else if str.length > 1 then do
      let pfx ← rd str 1
      if pfx = 120 ∨ pfx = 88 then
        if str.length > 2 then do
          let s ← subL str 2
          readHexD t s
        else .ok (false, 0, false)
      else if pfx = 98 ∨ pfx = 66 then
        if str.length > 2 then do
          let s ← subL str 2
          readBinD t s
        else .ok (false, 0, false)
      else if pfx = 111 ∨ pfx = 79 then
        if str.length > 2 then do
          let s ← subL str 2
          readOctD t s
        else .ok (false, 0, false)
      else readDecD t str
    else .ok (true, 0, false)

/-- `atoi_first(str, v)` (/repo/src/c4/charconv.hpp:1510-1518). -/
def atoiFirstD (t : ITy) (s : List Nat) : Res (Option (Nat × Int)) := do
  let r ← firstIntSpanD s
  if r.2 = 0 then .ok none
  else do
    let (ok, v, _) ← atoiD t (Rng.of s r)
    .ok (if ok then some (r.1 + r.2, v) else none)

/-- `atou_first(str, v)` (/repo/src/c4/charconv.hpp:1591-1599). -/
def atouFirstD (t : ITy) (s : List Nat) : Res (Option (Nat × Int)) := do
  let r ← firstUintSpanD s
  if r.2 = 0 then .ok none
  else do
    let (ok, v, _) ← atouD t (Rng.of s r)
    .ok (if ok then some (r.1 + r.2, v) else none)

/-- The part of `scan_rhex` after the label `power` (/repo/src/c4/charconv.hpp:2019-2035); `s` is what follows the 'p'. -/
def rhexPowerD (s : List Nat) (val : Rat) : Res (Bool × Rat) :=
  let s' := if s.head? = some 43 then s.drop 1 else s
  if s'.length > 0 then do
    let (ok, p, _) ← atoiD ⟨.w16, true⟩ s'
    .ok (if ok then (true, val * ipow16 p) else (false, val))
  else .ok (false, val)

/-- The loop over the characters after the point (/repo/src/c4/charconv.hpp:1997-2017). -/
def rhexFracD : List Nat → Rat → Rat → Res (Bool × Rat)
  | [], _, val => .ok (true, val)
  | c :: s, digit, val =>
    match rhexDigit c with
    | some d => rhexFracD s (digit / 16) (val + digit * d)
    | none => if c = 112 ∨ c = 80 then rhexPowerD s val else .ok (false, val)

/-- The loop over the characters before the point (/repo/src/c4/charconv.hpp:1972-1995). -/
def rhexIntD : List Nat → Rat → Res (Bool × Rat)
  | [], val => .ok (true, val)
  | c :: s, val =>
    match rhexDigit c with
    | some d => rhexIntD s (val * 16 + d)
    | none =>
      if c = 46 then rhexFracD s (1 / 16) val
      else if c = 112 ∨ c = 80 then rhexPowerD s val
      else .ok (false, val)

/-- `scan_rhex(s, val)` (/repo/src/c4/charconv.hpp:1965-2037). -/
def scanRhexD (s : List Nat) (val : Rat) : Res (Bool × Rat) := do
  assertThat (s.length > 0)
  let c ← rd s 0
  assertThat (c ≠ 45)
  assertThat (c ≠ 43)
  let b ← beginsWith s (S "0x")
  assertThat (b = false)
  let b ← beginsWith s (S "0X")
  assertThat (b = false)
  rhexIntD s val

/-- The branch of `atof`/`atod` for text starting (after a sign) with `0x`/`0X` (/repo/src/c4/charconv.hpp:2117-2131, 2178-2192); the selections
`str.sub(0 or 1)` and `rem.sub(2)` are of as many characters as there are. -/
def atofHexD (str : List Nat) (v : Rat) : Res (Option (Bool × Rat)) := do
  let c ← rd str 0
  let neg : Bool := c = 45
  let rem ← subL str (if c = 45 ∨ c = 43 then 1 else 0)
  match rem with
  | 48 :: x :: t =>
    if x = 120 ∨ x = 88 then do
      let (ok, r) ← scanRhexD t v
      .ok (some (if ok then (true, r * (if neg then -1 else 1)) else (false, r)))
    else .ok none
  | _ => .ok none

/-- `atof(str, v)` and `atod(str, v)` (/repo/src/c4/charconv.hpp:2111-2143, 2172-2204). -/
def atofD (f : Fmt) (fpu : Spec.Fpu) (str : List Nat) (v : Rat) : Res (Bool × RealOut) := do
  assertThat (str.length > 0)
  let tr ← trimlSet str [32, 13, 9, 10]
  assertThat (tr.2 = str.length)
  match ← atofHexD str v with
  | some (ok, r) => .ok (ok, .hex r)
  | none => do
    let r ← fromChars f fpu str
    .ok (r.ec == .none, .dec r.value)

/-- `atof_first(str, v)` and `atod_first(str, v)` (/repo/src/c4/charconv.hpp:2150-2159, 2211-2220). -/
def atofFirstD (f : Fmt) (fpu : Spec.Fpu) (str : List Nat) (v : Rat) : Res (Option Nat × RealOut) := do
  let r ← firstRealSpanD str
  if r.2 = 0 then .ok (none, .dec none)
  else do
    let (ok, out) ← atofD f fpu (Rng.of str r) v
    .ok (if ok then some (r.1 + r.2) else none, out)

/-- The pattern `fno = str.first_not_of('0', start); if(fno == npos) return false; return f(fno)`; `first_not_of` asserts its start
(/repo/src/c4/substr.hpp:857). -/
def skipZerosD (str : List Nat) (start : Nat) (f : Nat → Res Bool) : Res Bool := do
  assertThat (start ≤ str.length)
  match (← firstNotOf str 48 start) with
  | none => .ok false
  | some fno => f fno

/-- `overflows<T>(csubstr)` for unsigned `T` (/repo/src/c4/charconv.hpp:1648-1705).
`operator[]` is used with an index that was compared with the length, or that was found. -/
def overflowsUD (w : W) (str : List Nat) : Res Bool :=
  if str.length = 0 then .ok false
  else do
    let c0 ← rd str 0
    if c0 = 48 then
      if str.length = 1 then .ok false
      else do
        let c1 ← rd str 1
        if c1 = 120 ∨ c1 = 88 then
          skipZerosD str 2 fun fno => .ok (!decide (str.length ≤ fno + w.bytes * 2))
        else if c1 = 98 ∨ c1 = 66 then
          skipZerosD str 2 fun fno => .ok (!decide (str.length ≤ fno + w.bytes * 8))
        else if c1 = 111 ∨ c1 = 79 then
          skipZerosD str 2 fun fno => do let s ← subL str fno; isOctOverflow ⟨w, false⟩ s
        else
          skipZerosD str 1 fun fno => do let s ← subL str fno; .ok (checkOverflow s (maxValueDec ⟨w, false⟩))
    else if c0 = 45 then .ok true
    else .ok (checkOverflow str (maxValueDec ⟨w, false⟩))

/-- `overflows<T>(csubstr)` for signed `T` (/repo/src/c4/charconv.hpp:1715-1808).  `str.str[1]` is read as soon
as the first character is '-', also when it is the only one. -/
def overflowsID (w : W) (str : List Nat) : Res Bool :=
  if str.length = 0 then .ok false
  else do
    let c0 ← rd str 0
    if c0 = 45 then do
      let c1 ← rd str 1
      if c1 = 48 then
        if str.length = 2 then .ok false
        else do
          let c2 ← rd str 2
          if c2 = 120 ∨ c2 = 88 then
            skipZerosD str 3 fun fno => do let s ← subL str fno; .ok (checkOverflow s (minValueHex w))
          else if c2 = 98 ∨ c2 = 66 then
            skipZerosD str 3 fun fno => do let s ← subL str fno; .ok (checkOverflow s (minValueBin w))
          else if c2 = 111 ∨ c2 = 79 then
            skipZerosD str 3 fun fno => do let s ← subL str fno; .ok (checkOverflow s (minValueOct w))
          else
            skipZerosD str 2 fun fno => do let s ← subL str fno; .ok (checkOverflow s (minValueDec w))
      else do let s ← subL str 1; .ok (checkOverflow s (minValueDec w))
    else if c0 = 48 then
      if str.length = 1 then .ok false
      else do
        let c1 ← rd str 1
        if c1 = 120 ∨ c1 = 88 then
          skipZerosD str 2 fun fno =>
            let len := str.length - fno
            if len < w.bytes * 2 then .ok false
            else if len = w.bytes * 2 then do
              let x ← rd str fno
              .ok (!decide (x ≤ 55))
            else .ok true
        else if c1 = 98 ∨ c1 = 66 then
          skipZerosD str 2 fun fno => .ok (!decide (str.length ≤ fno + (w.bytes * 8 - 1)))
        else if c1 = 111 ∨ c1 = 79 then
          skipZerosD str 2 fun fno => do let s ← subL str fno; isOctOverflow ⟨w, true⟩ s
        else
          skipZerosD str 1 fun fno => do let s ← subL str fno; .ok (checkOverflow s (maxValueDec ⟨w, true⟩))
    else .ok (checkOverflow str (maxValueDec ⟨w, true⟩))

end C4
