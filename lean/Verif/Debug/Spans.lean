import Verif.Substr.Spans
import Verif.SpanAssert
/-
Model of the number-matching methods of `basic_substring` in builds with assertions (/repo/src/c4/substr.hpp:1117-1648): the functions of
`Substr/Spans.lean` with the assertions of their own and of `first` and `sub`.  The loops `intPart`, `fracPart` and `powDigits` assert
nothing.  `operator[]` is not used by them: they read through the pointer.
-/
namespace C4

/-- `first(n)` with `n` a number (/repo/src/c4/substr.hpp:349-353): the assertion. -/
def firstL (s : List Nat) (n : Nat) : Res Nat := do
  assertThat (n ≤ s.length)
  pure n

/-- `sub(n)` (/repo/src/c4/substr.hpp:322-326): the assertion. -/
def subL (s : List Nat) (n : Nat) : Res (List Nat) := do
  assertThat (n ≤ s.length)
  pure (s.drop n)

/-- `first_non_empty_span()` (/repo/src/c4/substr.hpp:1117-1126); `first(npos)` is the whole view. -/
def firstNonEmptySpanD (s : List Nat) : Res Rng := do
  match ← firstNotOfSet s blankChars 0 with
  | none => do
    let n ← firstL s 0
    .ok (0, n)
  | some pos => do
    let ret ← subL s pos
    match ← firstOfSet ret blankChars 0 with
    | none => .ok (pos, ret.length)
    | some q => do
      let n ← firstL ret q
      .ok (pos, n)

/-- See `digitLoop` (/repo/src/c4/substr.hpp:1161-1166, 1174-1179, 1185-1190, 1196-1201, 1206-1211). -/
def digitLoopD (s : List Nat) (isDig : Nat → Bool) (skip : Nat) : Res (Option Nat) :=
  forUp skip s.length fun i => do
    let c ← rd s i
    if !isDig c then do
      let k ← if decide (i > skip) && isDelimChar c then firstL s i else firstL s 0
      .ok (some k)
    else .ok none

/-- See `digitSpan`. -/
def digitSpanD (s : List Nat) (isDig : Nat → Bool) (skip : Nat) : Res Nat := do
  match ← digitLoopD s isDig skip with
  | some k => .ok k
  | none => .ok s.length

/-- `_first_integral_span(skip_start)` (/repo/src/c4/substr.hpp:1150-1213). -/
def firstIntegralSpanD (s : List Nat) (skip : Nat) : Res Nat := do
  assertThat (s.length ≠ 0)
  if skip = s.length then firstL s 0
  else do
    assertThat (skip < s.length)
    if s.length ≥ skip + 3 then do
      let c ← rd s skip
      if c ≠ 48 then do
        match ← digitLoopD s isDecC skip with
        | some k => .ok k
        | none => digitSpanD s isDecC skip
      else do
        let next ← rd s (skip + 1)
        if next = 120 ∨ next = 88 then digitSpanD s isHexC (skip + 2)
        else if next = 98 ∨ next = 66 then digitSpanD s isBinC (skip + 2)
        else if next = 111 ∨ next = 79 then digitSpanD s isOctC (skip + 2)
        else digitSpanD s isDecC skip
    else digitSpanD s isDecC skip

/-- `first_uint_span()` (/repo/src/c4/substr.hpp:1129-1138). -/
def firstUintSpanD (s : List Nat) : Res Rng := do
  let ne ← firstNonEmptySpanD s
  if ne.2 = 0 then .ok ne
  else do
    let c ← rd (Rng.of s ne) 0
    if c = 45 then do
      let n ← firstL s 0
      .ok (0, n)
    else do
      let n ← firstIntegralSpanD (Rng.of s ne) (if c = 43 then 1 else 0)
      .ok (ne.1, n)

/-- `first_int_span()` (/repo/src/c4/substr.hpp:1141-1148). -/
def firstIntSpanD (s : List Nat) : Res Rng := do
  let ne ← firstNonEmptySpanD s
  if ne.2 = 0 then .ok ne
  else do
    let c ← rd (Rng.of s ne) 0
    let n ← firstIntegralSpanD (Rng.of s ne) (if c = 43 ∨ c = 45 then 1 else 0)
    .ok (ne.1, n)

/-- `power_part_dec` (/repo/src/c4/substr.hpp:1358-1377). -/
def powDecD (s : List Nat) (pos : Nat) (digs : Bool) : Res Nat := do
  assertThat (pos > 0)
  let e ← rd s (pos - 1)
  assertThat (e = 101 ∨ e = 69)
  if s.length = pos ∨ digs = false then firstL s 0
  else do
    let c ← rd s pos
    let pos := if c = 45 ∨ c = 43 then pos + 1 else pos
    let r ← powDigits s (s.length - pos) pos false
    match r.1 with
    | some k => firstL s k
    | none => if r.2 then .ok s.length else firstL s 0

/-- `power_part_hex` and its copies for the radices 2 and 8 (/repo/src/c4/substr.hpp:1445-1467, 1535-1557, 1625-1647). -/
def powHexD (s : List Nat) (pos : Nat) (digs : Bool) : Res Nat := do
  assertThat (pos > 0)
  let e ← rd s (pos - 1)
  assertThat (e = 112 ∨ e = 80)
  if s.length ≤ pos + 1 then firstL s 0
  else do
    let c ← rd s pos
    if (c ≠ 43 ∧ c ≠ 45) ∨ digs = false then firstL s 0
    else do
      let r ← powDigits s (s.length - (pos + 1)) (pos + 1) false
      match r.1 with
      | some k => firstL s k
      | none => .ok s.length

/-- What follows the loop over the integral part at a point (/repo/src/c4/substr.hpp:1331-1357; 1418-1444, 1508-1534, 1598-1624). -/
def afterFracD (s : List Nat) (isDig isPow : Nat → Bool) (pow : Nat → Bool → Res Nat) (pos : Nat) (ints : Bool) : Res Nat := do
  assertThat (pos > 0)
  let d ← rd s (pos - 1)
  assertThat (d = 46)
  match ← fracPart s isDig isPow (s.length - pos) pos false with
  | .eos fracs => if ints || fracs then .ok s.length else firstL s 0
  | .delim p fracs => if ints || fracs then firstL s p else firstL s 0
  | .pow p fracs => pow p (ints || fracs)
  | .dot _ _ => firstL s 0
  | .bad => firstL s 0

/-- The common shape of `_first_real_span_dec/hex/bin/oct` (/repo/src/c4/substr.hpp:1294-1378, 1381-1468, 1471-1558, 1561-1648). -/
def realSpanGenD (s : List Nat) (isDig isPow : Nat → Bool) (pow : Nat → Bool → Res Nat) (pos : Nat) : Res Nat := do
  match ← intPart s isDig isPow (s.length - pos) pos false with
  | .eos ints => if ints then .ok s.length else firstL s 0
  | .delim p ints => if ints then firstL s p else firstL s 0
  | .dot p ints => afterFracD s isDig isPow pow p ints
  | .pow p ints => pow p ints
  | .bad => firstL s 0

/-- `_first_real_span_dec` (/repo/src/c4/substr.hpp:1294-1378). -/
def realSpanDecD (s : List Nat) (pos : Nat) : Res Nat := realSpanGenD s isDecC isEC (powDecD s) pos
/-- `_first_real_span_hex` (/repo/src/c4/substr.hpp:1381-1468). -/
def realSpanHexD (s : List Nat) (pos : Nat) : Res Nat := realSpanGenD s isHexC isPC (powHexD s) pos
/-- `_first_real_span_bin` (/repo/src/c4/substr.hpp:1471-1558). -/
def realSpanBinD (s : List Nat) (pos : Nat) : Res Nat := realSpanGenD s isBinC isPC (powHexD s) pos
/-- `_first_real_span_oct` (/repo/src/c4/substr.hpp:1561-1648). -/
def realSpanOctD (s : List Nat) (pos : Nat) : Res Nat := realSpanGenD s isOctC isPC (powHexD s) pos

/-- `_word_follows(pos, word)` (/repo/src/c4/substr.hpp:1284-1291): `sub(pos, word.len)` asserts three things. -/
def wordFollowsD (s : List Nat) (pos : Nat) (word : List Nat) : Res Nat :=
  if s.length ≥ pos + word.length then do
    assertThat (pos ≤ s.length)
    assertThat (word.length ≤ s.length)
    assertThat (pos + word.length ≤ s.length ∨ word.length = 0)
    if (s.drop pos).take word.length = word then
      if s.length = pos + word.length then firstL s (pos + word.length)
      else do
        let c ← rd s (pos + word.length)
        if isDelimChar c then firstL s (pos + word.length) else firstL s 0
    else firstL s 0
  else firstL s 0

/-- `first_real_span()` (/repo/src/c4/substr.hpp:1216-1268), on the non-empty span. -/
def realSpanNeD (ne : List Nat) : Res Nat := do
  let c0 ← rd ne 0
  let skip := if c0 = 43 ∨ c0 = 45 then 1 else 0
  assertThat (skip = 0 ∨ skip = 1)
  if ne.length ≥ skip + 3 then do
    let c ← rd ne skip
    if c ≠ 48 then
      if c = 105 then do
        let n ← wordFollowsD ne (skip + 1) (S "nfinity")
        if n ≠ 0 then .ok n else wordFollowsD ne (skip + 1) (S "nf")
      else if c = 110 then wordFollowsD ne (skip + 1) (S "an")
      else realSpanDecD ne skip
    else do
      let next ← rd ne (skip + 1)
      if next = 120 ∨ next = 88 then realSpanHexD ne (skip + 2)
      else if next = 98 ∨ next = 66 then realSpanBinD ne (skip + 2)
      else if next = 111 ∨ next = 79 then realSpanOctD ne (skip + 2)
      else realSpanDecD ne skip
  else realSpanDecD ne skip

/-- `first_real_span()` (/repo/src/c4/substr.hpp:1216-1268). -/
def firstRealSpanD (s : List Nat) : Res Rng := do
  let ne ← firstNonEmptySpanD s
  if ne.2 = 0 then .ok ne
  else do
    let n ← realSpanNeD (Rng.of s ne)
    .ok (ne.1, n)

end C4
