import Verif.Basic
/-
Model of /repo/src/c4/base64.cpp.
-/
namespace C4

/-- `base64_sextet_to_char_` (/repo/src/c4/base64.cpp:18-35). -/
def sextetToChar : List Nat := S "ABCDEFGHIJKLMNOPQRSTUVWXYZabcdefghijklmnopqrstuvwxyz0123456789+/"

/-- `base64_char_to_sextet_` (/repo/src/c4/base64.cpp:38-73), as bytes: 255 is `char(-1)`. -/
def charToSextet : List Nat :=
  [255, 255, 255, 255, 255, 255, 255, 255, 255, 255, 255, 255, 255, 255, 255, 255,
   255, 255, 255, 255, 255, 255, 255, 255, 255, 255, 255, 255, 255, 255, 255, 255,
   255, 255, 255, 255, 255, 255, 255, 255, 255, 255, 255, 62, 255, 255, 255, 63,
   52, 53, 54, 55, 56, 57, 58, 59, 60, 61, 255, 255, 255, 255, 255, 255,
   255, 0, 1, 2, 3, 4, 5, 6, 7, 8, 9, 10, 11, 12, 13, 14,
   15, 16, 17, 18, 19, 20, 21, 22, 23, 24, 25, 255, 255, 255, 255, 255,
   255, 26, 27, 28, 29, 30, 31, 32, 33, 34, 35, 36, 37, 38, 39, 40,
   41, 42, 43, 44, 45, 46, 47, 48, 49, 50, 51, 255, 255, 255, 255, 255]

/-- `base64_valid(encoded)` (/repo/src/c4/base64.cpp:97-111), the loop.  `sgn` tells if `char` is signed: then bytes from 128 on are
negative. -/
def base64ValidLoop (sgn : Bool) : List Nat → Res Bool
  | [] => .ok true
  | c :: s =>
    if sgn = true ∧ c ≥ 128 then .ok false
    else if c = 61 then base64ValidLoop sgn s
    else do
      let x ← rd charToSextet c
      if x = 255 then .ok false else base64ValidLoop sgn s

/-- `base64_valid(encoded)` (/repo/src/c4/base64.cpp:97-111). -/
def base64Valid (sgn : Bool) (s : List Nat) : Res Bool :=
  if s.length &&& 3 ≠ 0 then .ok false else base64ValidLoop sgn s

/-- Output buffer and write position. -/
abbrev BufPos := List Nat × Nat

/-- The macro `c4append_` (/repo/src/c4/base64.cpp:116, 159). -/
def bAppend (st : BufPos) (c : Nat) : Res BufPos :=
  if st.2 < st.1.length then do
    let b ← wr st.1 st.2 c
    .ok (b, st.2 + 1)
  else .ok (st.1, st.2 + 1)

/-- The macro `c4append_idx_` (/repo/src/c4/base64.cpp:117-121). -/
def bAppendIdx (st : BufPos) (i : Nat) : Res BufPos := do
  let c ← rd sextetToChar i
  bAppend st c

/-- `base64_encode(buf, data)` (/repo/src/c4/base64.cpp:125-149): the loop and the final cases; `d` is what remains. -/
def base64EncodeLoop : List Nat → BufPos → Res BufPos
  | d0 :: d1 :: d2 :: d, st => do
    let val := (d0 <<< 16) ||| (d1 <<< 8) ||| d2
    let st ← bAppendIdx st ((val >>> 18) &&& 63)
    let st ← bAppendIdx st ((val >>> 12) &&& 63)
    let st ← bAppendIdx st ((val >>> 6) &&& 63)
    let st ← bAppendIdx st (val &&& 63)
    base64EncodeLoop d st
  | [d0, d1], st => do
    let val := (d0 <<< 16) ||| (d1 <<< 8)
    let st ← bAppendIdx st ((val >>> 18) &&& 63)
    let st ← bAppendIdx st ((val >>> 12) &&& 63)
    let st ← bAppendIdx st ((val >>> 6) &&& 63)
    bAppend st 61
  | [d0], st => do
    let val := d0 <<< 16
    let st ← bAppendIdx st ((val >>> 18) &&& 63)
    let st ← bAppendIdx st ((val >>> 12) &&& 63)
    let st ← bAppend st 61
    bAppend st 61
  | [], st => .ok st

/-- `base64_encode(buf, data)` (/repo/src/c4/base64.cpp:114-154): needed size and buffer. -/
def base64Encode (data buf : List Nat) : Res (Nat × List Nat) := do
  let (b, pos) ← base64EncodeLoop data (buf, 0)
  .ok (pos, b)

/-- The macro `c4appendval_` (/repo/src/c4/base64.cpp:160-165) without its assertions: table lookup with a `char` index (a
negative one is out of bounds), conversion to `uint32_t`, shift. -/
def bVal (sgn : Bool) (val c shift : Nat) : Res Nat := do
  let x ← rd charToSextet c
  let x := if sgn = true ∧ x ≥ 128 then x + (2 ^ 32 - 256) else x
  .ok (val ||| ((x <<< (shift * 6)) % 2 ^ 32))

/-- The loop of `base64_decode` (/repo/src/c4/base64.cpp:172-187), until the end or a padded quartet: what remains, and the
output. -/
def base64DecodeLoop (sgn : Bool) : List Nat → BufPos → Res (List Nat × BufPos)
  | d0 :: d1 :: d2 :: d3 :: d, st =>
    if d2 = 61 ∨ d3 = 61 then .ok (d0 :: d1 :: d2 :: d3 :: d, st)
    else do
      let val ← bVal sgn 0 d3 0
      let val ← bVal sgn val d2 1
      let val ← bVal sgn val d1 2
      let val ← bVal sgn val d0 3
      let st ← bAppend st ((val >>> 16) &&& 255)
      let st ← bAppend st ((val >>> 8) &&& 255)
      let st ← bAppend st (val &&& 255)
      base64DecodeLoop sgn d st
  | d, st => .ok (d, st)

/-- The last quartet if padded (/repo/src/c4/base64.cpp:189-210). -/
def base64DecodeTail (sgn : Bool) (d : List Nat) (st : BufPos) : Res BufPos :=
  if d.length = 0 then .ok st
  else do
    let d2 ← rd d 2
    let d3 ← rd d 3
    let d1 ← rd d 1
    let d0 ← rd d 0
    if d2 = 61 then do
      let val ← bVal sgn 0 d1 2
      let val ← bVal sgn val d0 3
      bAppend st ((val >>> 16) &&& 255)
    else if d3 = 61 then do
      let val ← bVal sgn 0 d2 1
      let val ← bVal sgn val d1 2
      let val ← bVal sgn val d0 3
      let st ← bAppend st ((val >>> 16) &&& 255)
      bAppend st ((val >>> 8) &&& 255)
    else .ok st

/-- `base64_decode(encoded, data)` (/repo/src/c4/base64.cpp:157-213): needed size and buffer. -/
def base64Decode (sgn : Bool) (s buf : List Nat) : Res (Nat × List Nat) :=
  if s.length &&& 3 = 0 then do
    let (d, st) ← base64DecodeLoop sgn s (buf, 0)
    let (b, pos) ← base64DecodeTail sgn d st
    .ok (pos, b)
  else .abort

end C4
