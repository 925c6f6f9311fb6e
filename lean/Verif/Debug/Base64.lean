import Verif.Base64
import Verif.SpanAssert
/-
Model of /repo/src/c4/base64.cpp in builds with assertions: as `Verif.Base64`, with `C4_ASSERT` and `C4_XASSERT`.
-/
namespace C4

/-- The macro `c4append_idx_` (/repo/src/c4/base64.cpp:117-121). -/
def bAppendIdxD (st : BufPos) (i : Nat) : Res BufPos := do
  assertThat (i < sextetToChar.length)
  let c ← rd sextetToChar i
  bAppend st c

/-- `base64_encode(buf, data)` (/repo/src/c4/base64.cpp:125-149): the loop and the final cases; `d` is what remains.  `rem < 3` (line 133) holds
when the loop ends. -/
def base64EncodeLoopD : List Nat → BufPos → Res BufPos
  | d0 :: d1 :: d2 :: d, st => do
    let val := (d0 <<< 16) ||| (d1 <<< 8) ||| d2
    let st ← bAppendIdxD st ((val >>> 18) &&& 63)
    let st ← bAppendIdxD st ((val >>> 12) &&& 63)
    let st ← bAppendIdxD st ((val >>> 6) &&& 63)
    let st ← bAppendIdxD st (val &&& 63)
    base64EncodeLoopD d st
  | d, st => do
    assertThat (d.length < 3)
    match d with
    | [d0, d1] => do
      let val := (d0 <<< 16) ||| (d1 <<< 8)
      let st ← bAppendIdxD st ((val >>> 18) &&& 63)
      let st ← bAppendIdxD st ((val >>> 12) &&& 63)
      let st ← bAppendIdxD st ((val >>> 6) &&& 63)
      bAppend st 61
    | [d0] => do
      let val := d0 <<< 16
      let st ← bAppendIdxD st ((val >>> 18) &&& 63)
      let st ← bAppendIdxD st ((val >>> 12) &&& 63)
      let st ← bAppend st 61
      bAppend st 61
    | _ => .ok st

/-- `base64_encode(buf, data)` (/repo/src/c4/base64.cpp:114-154). -/
def base64EncodeD (data buf : List Nat) : Res (Nat × List Nat) := do
  let (b, pos) ← base64EncodeLoopD data (buf, 0)
  .ok (pos, b)

/-- The macro `c4appendval_` (/repo/src/c4/base64.cpp:160-165). -/
def bValD (sgn : Bool) (val c shift : Nat) : Res Nat := do
  assertThat (¬ (sgn = true ∧ c ≥ 128))
  assertThat (c < charToSextet.length)
  bVal sgn val c shift

/-- The loop of `base64_decode` (/repo/src/c4/base64.cpp:172-187). -/
def base64DecodeLoopD (sgn : Bool) : List Nat → BufPos → Res (List Nat × BufPos)
  | d0 :: d1 :: d2 :: d3 :: d, st =>
    if d2 = 61 ∨ d3 = 61 then do
      assertThat (d.length = 0)
      .ok (d0 :: d1 :: d2 :: d3 :: d, st)
    else do
      let val ← bValD sgn 0 d3 0
      let val ← bValD sgn val d2 1
      let val ← bValD sgn val d1 2
      let val ← bValD sgn val d0 3
      let st ← bAppend st ((val >>> 16) &&& 255)
      let st ← bAppend st ((val >>> 8) &&& 255)
      let st ← bAppend st (val &&& 255)
      base64DecodeLoopD sgn d st
  | d, st => .ok (d, st)

/-- The last quartet if padded (/repo/src/c4/base64.cpp:189-210). -/
def base64DecodeTailD (sgn : Bool) (d : List Nat) (st : BufPos) : Res BufPos :=
  if d.length = 0 then .ok st
  else do
    let d2 ← rd d 2
    let d3 ← rd d 3
    let d1 ← rd d 1
    let d0 ← rd d 0
    if d2 = 61 then do
      assertThat (d.length = 4)
      assertThat (d3 = 61)
      let val ← bValD sgn 0 d1 2
      let val ← bValD sgn val d0 3
      bAppend st ((val >>> 16) &&& 255)
    else if d3 = 61 then do
      assertThat (d.length = 4)
      let val ← bValD sgn 0 d2 1
      let val ← bValD sgn val d1 2
      let val ← bValD sgn val d0 3
      let st ← bAppend st ((val >>> 16) &&& 255)
      bAppend st ((val >>> 8) &&& 255)
    else .ok st

/-- `base64_decode(encoded, data)` (/repo/src/c4/base64.cpp:157-213). -/
def base64DecodeD (sgn : Bool) (s buf : List Nat) : Res (Nat × List Nat) := do
  let valid ← base64Valid sgn s
  assertThat (valid = true)
  if s.length &&& 3 = 0 then do
    let (d, st) ← base64DecodeLoopD sgn s (buf, 0)
    let (b, pos) ← base64DecodeTailD sgn d st
    .ok (pos, b)
  else .abort

end C4
