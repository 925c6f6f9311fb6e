import Verif.Substr.Search
import Verif.Substr.Trim
/-
Model of the number-matching methods of `basic_substring`, /repo/src/c4/substr.hpp:1060-1650.  Sub-views are ranges `Rng`;
inside the helpers a result `first(n)` is the number `n` (`*this` is `len`).
-/
namespace C4

/-- `_is_delim_char` (/repo/src/c4/substr.hpp:1271-1276). -/
def isDelimChar (c : Nat) : Bool :=
  c == 32 || c == 10 || c == 93 || c == 41 || c == 125 || c == 44 || c == 59 || c == 13 || c == 9 || c == 0

/-- `c >= '0' && c <= '9'`. -/
def isDecC (c : Nat) : Bool := decide (48 ≤ c) && decide (c ≤ 57)
/-- `_is_hex_char` (/repo/src/c4/substr.hpp:1279-1282). -/
def isHexC (c : Nat) : Bool :=
  (decide (48 ≤ c) && decide (c ≤ 57)) || (decide (97 ≤ c) && decide (c ≤ 102)) || (decide (65 ≤ c) && decide (c ≤ 70))
/-- `c == '0' || c == '1'`. -/
def isBinC (c : Nat) : Bool := c == 48 || c == 49
/-- `c >= '0' && c <= '7'`. -/
def isOctC (c : Nat) : Bool := decide (48 ≤ c) && decide (c ≤ 55)

/-- `empty_chars(" \n\r\t")` (/repo/src/c4/substr.hpp:1119). -/
def blankChars : List Nat := [32, 10, 13, 9]

/-- `first_non_empty_span()` (/repo/src/c4/substr.hpp:1117-1126). -/
def firstNonEmptySpan (s : List Nat) : Res Rng := do
  match ← firstNotOfSet s blankChars 0 with
  | none => .ok (0, 0)
  | some pos => do
    match ← firstOfSet (s.drop pos) blankChars 0 with
    | none => .ok (pos, s.length - pos)
    | some q => .ok (pos, q)

/-- The loop `for(i = skip_start; i < len; ++i) if(!digit(c)) return i > skip_start && _is_delim_char(c) ? first(i) : first(0);`
occurring five times in `_first_integral_span` (/repo/src/c4/substr.hpp:1161-1166, 1174-1179, 1185-1190, 1196-1201,
1206-1211); `none` if the loop completes. -/
def digitLoop (s : List Nat) (isDig : Nat → Bool) (skip : Nat) : Res (Option Nat) :=
  forUp skip s.length fun i => do
    let c ← rd s i
    .ok (if !isDig c then some (if decide (i > skip) && isDelimChar c then i else 0) else none)

/-- A `digitLoop` followed by `return *this`. -/
def digitSpan (s : List Nat) (isDig : Nat → Bool) (skip : Nat) : Res Nat := do
  match ← digitLoop s isDig skip with
  | some k => .ok k
  | none => .ok s.length

/-- `_first_integral_span(skip_start)` (/repo/src/c4/substr.hpp:1150-1213). -/
def firstIntegralSpan (s : List Nat) (skip : Nat) : Res Nat :=
  if skip = s.length then .ok 0
  else if s.length ≥ skip + 3 then do
    let c ← rd s skip
    if c ≠ 48 then do
      match ← digitLoop s isDecC skip with
      | some k => .ok k
      | none => digitSpan s isDecC skip
    else do
      let next ← rd s (skip + 1)
      if next = 120 ∨ next = 88 then digitSpan s isHexC (skip + 2)
      else if next = 98 ∨ next = 66 then digitSpan s isBinC (skip + 2)
      else if next = 111 ∨ next = 79 then digitSpan s isOctC (skip + 2)
      else digitSpan s isDecC skip
  else digitSpan s isDecC skip

/-- `first_uint_span()` (/repo/src/c4/substr.hpp:1129-1138). -/
def firstUintSpan (s : List Nat) : Res Rng := do
  let ne ← firstNonEmptySpan s
  if ne.2 = 0 then .ok ne
  else do
    let c ← rd (Rng.of s ne) 0
    if c = 45 then .ok (0, 0)
    else do
      let n ← firstIntegralSpan (Rng.of s ne) (if c = 43 then 1 else 0)
      .ok (ne.1, n)

/-- `first_int_span()` (/repo/src/c4/substr.hpp:1141-1148). -/
def firstIntSpan (s : List Nat) : Res Rng := do
  let ne ← firstNonEmptySpan s
  if ne.2 = 0 then .ok ne
  else do
    let c ← rd (Rng.of s ne) 0
    let n ← firstIntegralSpan (Rng.of s ne) (if c = 43 ∨ c = 45 then 1 else 0)
    .ok (ne.1, n)

/-- How the loop over the integral or fractional part ends (`seen`: a digit was seen). -/
inductive PartEnd where
  | eos (seen : Bool)
  | dot (pos : Nat) (seen : Bool)
  | pow (pos : Nat) (seen : Bool)
  | delim (pos : Nat) (seen : Bool)
  | bad
  deriving Repr, DecidableEq

/-- The loop over the integral part (/repo/src/c4/substr.hpp:1300-1325 for decimals; 1387-1412, 1477-1502, 1567-1592 for the
other radices, which differ in the digit test and in the exponent character); `n` characters left. -/
def intPart (s : List Nat) (isDig isPow : Nat → Bool) : Nat → Nat → Bool → Res PartEnd
  | 0, _, seen => .ok (.eos seen)
  | n+1, pos, seen => do
    let c ← rd s pos
    if isDig c then intPart s isDig isPow n (pos + 1) true
    else if c = 46 then .ok (.dot (pos + 1) seen)
    else if isPow c then .ok (.pow (pos + 1) seen)
    else if isDelimChar c then .ok (.delim pos seen)
    else .ok .bad

/-- The loop over the fractional part (/repo/src/c4/substr.hpp:1334-1354; 1421-1441, 1511-1531, 1601-1621). -/
def fracPart (s : List Nat) (isDig isPow : Nat → Bool) : Nat → Nat → Bool → Res PartEnd
  | 0, _, seen => .ok (.eos seen)
  | n+1, pos, seen => do
    let c ← rd s pos
    if isDig c then fracPart s isDig isPow n (pos + 1) true
    else if isPow c then .ok (.pow (pos + 1) seen)
    else if isDelimChar c then .ok (.delim pos seen)
    else .ok .bad

/-- The loop over the digits of the exponent (/repo/src/c4/substr.hpp:1367-1376; 1457-1466, 1547-1556, 1637-1646): `none` if it
completes without return, with the final `powchars`. -/
def powDigits (s : List Nat) : Nat → Nat → Bool → Res (Option Nat × Bool)
  | 0, _, seen => .ok (none, seen)
  | n+1, pos, seen => do
    let c ← rd s pos
    if isDecC c then powDigits s n (pos + 1) true
    else if seen && isDelimChar c then .ok (some pos, seen)
    else .ok (some 0, seen)

/-- `power_part_dec` (/repo/src/c4/substr.hpp:1358-1377); `digs` is `intchars || fracchars`. -/
def powDec (s : List Nat) (pos : Nat) (digs : Bool) : Res Nat :=
  if s.length = pos ∨ digs = false then .ok 0
  else do
    let c ← rd s pos
    let pos := if c = 45 ∨ c = 43 then pos + 1 else pos
    let r ← powDigits s (s.length - pos) pos false
    match r.1 with
    | some k => .ok k
    | none => .ok (if r.2 then s.length else 0)

/-- `power_part_hex` and its copies for the radices 2 and 8 (/repo/src/c4/substr.hpp:1445-1467, 1535-1557, 1625-1647). -/
def powHex (s : List Nat) (pos : Nat) (digs : Bool) : Res Nat :=
  if s.length ≤ pos + 1 then .ok 0
  else do
    let c ← rd s pos
    if (c ≠ 43 ∧ c ≠ 45) ∨ digs = false then .ok 0
    else do
      let r ← powDigits s (s.length - (pos + 1)) (pos + 1) false
      match r.1 with
      | some k => .ok k
      | none => .ok s.length

/-- What follows the loop over the fractional part. -/
def afterFrac (s : List Nat) (isDig isPow : Nat → Bool) (pow : Nat → Bool → Res Nat) (pos : Nat) (ints : Bool) : Res Nat := do
  match ← fracPart s isDig isPow (s.length - pos) pos false with
  | .eos fracs => .ok (if ints || fracs then s.length else 0)
  | .delim p fracs => .ok (if ints || fracs then p else 0)
  | .pow p fracs => pow p (ints || fracs)
  | .dot _ _ => .ok 0
  | .bad => .ok 0

/-- The common shape of `_first_real_span_dec/hex/bin/oct` (/repo/src/c4/substr.hpp:1294-1378, 1381-1468, 1471-1558, 1561-1648). -/
def realSpanGen (s : List Nat) (isDig isPow : Nat → Bool) (pow : Nat → Bool → Res Nat) (pos : Nat) : Res Nat := do
  match ← intPart s isDig isPow (s.length - pos) pos false with
  | .eos ints => .ok (if ints then s.length else 0)
  | .delim p ints => .ok (if ints then p else 0)
  | .dot p ints => afterFrac s isDig isPow pow p ints
  | .pow p ints => pow p ints
  | .bad => .ok 0

def isEC (c : Nat) : Bool := c == 101 || c == 69
def isPC (c : Nat) : Bool := c == 112 || c == 80

/-- `_first_real_span_dec` (/repo/src/c4/substr.hpp:1294-1378). -/
def realSpanDec (s : List Nat) (pos : Nat) : Res Nat := realSpanGen s isDecC isEC (powDec s) pos
/-- `_first_real_span_hex` (/repo/src/c4/substr.hpp:1381-1468). -/
def realSpanHex (s : List Nat) (pos : Nat) : Res Nat := realSpanGen s isHexC isPC (powHex s) pos
/-- `_first_real_span_bin` (/repo/src/c4/substr.hpp:1471-1558). -/
def realSpanBin (s : List Nat) (pos : Nat) : Res Nat := realSpanGen s isBinC isPC (powHex s) pos
/-- `_first_real_span_oct` (/repo/src/c4/substr.hpp:1561-1648). -/
def realSpanOct (s : List Nat) (pos : Nat) : Res Nat := realSpanGen s isOctC isPC (powHex s) pos

/-- `_word_follows(pos, word)` (/repo/src/c4/substr.hpp:1284-1291). -/
def wordFollows (s : List Nat) (pos : Nat) (word : List Nat) : Res Nat :=
  if s.length ≥ pos + word.length ∧ (s.drop pos).take word.length = word then
    if s.length = pos + word.length then .ok (pos + word.length)
    else do
      let c ← rd s (pos + word.length)
      .ok (if isDelimChar c then pos + word.length else 0)
  else .ok 0

/-- `first_real_span()` (/repo/src/c4/substr.hpp:1216-1268), on the non-empty span. -/
def realSpanNe (ne : List Nat) : Res Nat := do
  let c0 ← rd ne 0
  let skip := if c0 = 43 ∨ c0 = 45 then 1 else 0
  if ne.length ≥ skip + 3 then do
    let c ← rd ne skip
    if c ≠ 48 then
      if c = 105 then do
        let n ← wordFollows ne (skip + 1) (S "nfinity")
        if n ≠ 0 then .ok n else wordFollows ne (skip + 1) (S "nf")
      else if c = 110 then wordFollows ne (skip + 1) (S "an")
      else realSpanDec ne skip
    else do
      let next ← rd ne (skip + 1)
      if next = 120 ∨ next = 88 then realSpanHex ne (skip + 2)
      else if next = 98 ∨ next = 66 then realSpanBin ne (skip + 2)
      else if next = 111 ∨ next = 79 then realSpanOct ne (skip + 2)
      else realSpanDec ne skip
  else realSpanDec ne skip

/-- `first_real_span()` (/repo/src/c4/substr.hpp:1216-1268). -/
def firstRealSpan (s : List Nat) : Res Rng := do
  let ne ← firstNonEmptySpan s
  if ne.2 = 0 then .ok ne
  else do
    let n ← realSpanNe (Rng.of s ne)
    .ok (ne.1, n)

/-- The guard `empty() || first_non_empty_span().empty()` of the predicates. -/
def noSpan (s : List Nat) : Res Bool :=
  if s.length = 0 then .ok true
  else do
    let r ← firstNonEmptySpan s
    .ok (r.2 == 0)

/-- `is_number()` (/repo/src/c4/substr.hpp:1068-1079). -/
def isNumber (s : List Nat) : Res Bool := do
  if ← noSpan s then .ok false
  else do
    let u ← firstUintSpan s
    if Rng.of s u = s then .ok true
    else do
      let i ← firstIntSpan s
      if Rng.of s i = s then .ok true
      else do
        let r ← firstRealSpan s
        .ok (decide (Rng.of s r = s))

/-- `is_real()` (/repo/src/c4/substr.hpp:1083-1090). -/
def isReal (s : List Nat) : Res Bool := do
  if ← noSpan s then .ok false
  else do
    let r ← firstRealSpan s
    .ok (decide (Rng.of s r = s))

/-- `is_integer()` (/repo/src/c4/substr.hpp:1094-1103). -/
def isInteger (s : List Nat) : Res Bool := do
  if ← noSpan s then .ok false
  else do
    let u ← firstUintSpan s
    if Rng.of s u = s then .ok true
    else do
      let i ← firstIntSpan s
      .ok (decide (Rng.of s i = s))

/-- `is_unsigned_integer()` (/repo/src/c4/substr.hpp:1107-1114). -/
def isUnsignedInteger (s : List Nat) : Res Bool := do
  if ← noSpan s then .ok false
  else do
    let u ← firstUintSpan s
    .ok (decide (Rng.of s u = s))

end C4
