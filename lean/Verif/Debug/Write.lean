import Verif.Charconv.Xtoa
import Verif.SpanAssert
/-
Model of the writers of integers in builds with assertions (/repo/src/c4/charconv.hpp:438-684, 707-833, 985-1419): the functions of `Charconv/Write.lean` with
their assertions and those of `sub`.  Values that an assertion compares with 0 are `Int`.
-/
namespace C4

/-- `buf.sub(pos)` given to a writer: `sub` asserts its position (/repo/src/c4/substr.hpp:320-326). -/
def onSubD (buf : List Nat) (pos : Nat) (f : List Nat → Res (β × List Nat)) : Res (β × List Nat) := do
  assertThat (pos ≤ buf.length)
  onSub buf pos f

/-- `digits_dec` (/repo/src/c4/charconv.hpp:438-519). -/
def digitsDecD (w : W) (v : Int) : Res Nat := do
  assertThat (v ≥ 0)
  .ok (digitsDec w v.toNat)
/-- `digits_hex` (/repo/src/c4/charconv.hpp:522-529). -/
def digitsHexD (w : W) (v : Int) : Res Nat := do
  assertThat (v ≥ 0)
  .ok (digitsHex w v.toNat)
/-- `digits_bin` (/repo/src/c4/charconv.hpp:531-538). -/
def digitsBinD (w : W) (v : Int) : Res Nat := do
  assertThat (v ≥ 0)
  .ok (digitsBin w v.toNat)
/-- `digits_oct` (/repo/src/c4/charconv.hpp:540-569). -/
def digitsOctD (v : Int) : Res Nat := do
  assertThat (v ≥ 0)
  digitsOct v.toNat

/-- The loop of `write_dec_unchecked` and what follows it (/repo/src/c4/charconv.hpp:614-635). -/
def writeDecLoopD : Nat → List Nat → Nat → Nat → Res (List Nat)
  | 0, _, _, _ => .loop
  | f+1, buf, v, d =>
    if v ≥ 100 then do
      let quo := v / 100
      let num := (v - quo * 100) <<< 1
      let d := dec32 d
      let c ← rd digits0099 (num + 1)
      let buf ← wr buf d c
      let d := dec32 d
      let c ← rd digits0099 num
      let buf ← wr buf d c
      writeDecLoopD f buf quo d
    else if v ≥ 10 then do
      assertThat (d = 2)
      let num := v <<< 1
      let c ← rd digits0099 (num + 1)
      let buf ← wr buf 1 c
      let c ← rd digits0099 num
      wr buf 0 c
    else do
      assertThat (d = 1)
      wr buf 0 (48 + v)

/-- `write_dec_unchecked(buf, v, digits_v)` (/repo/src/c4/charconv.hpp:606-636). -/
def writeDecUncheckedD (w : W) (v : Int) (digits : Nat) (buf : List Nat) : Res (List Nat) := do
  assertThat (v ≥ 0)
  assertThat (buf.length ≥ digits)
  let n ← digitsDecD w v
  assertThat (digits = n)
  writeDecLoopD (v.toNat + 1) buf v.toNat digits

/-- The loop of `write_hex_unchecked` (/repo/src/c4/charconv.hpp:647-651). -/
def writeHexLoopD : Nat → List Nat → Nat → Nat → Res (List Nat)
  | 0, _, _, _ => .loop
  | f+1, buf, v, d => do
    let d := dec32 d
    let c ← rd hexchars (v &&& 15)
    let buf ← wr buf d c
    let v := v >>> 4
    if v ≠ 0 then writeHexLoopD f buf v d else do
      assertThat (d = 0)
      .ok buf

/-- `write_hex_unchecked` (/repo/src/c4/charconv.hpp:639-652). -/
def writeHexUncheckedD (w : W) (v : Int) (digits : Nat) (buf : List Nat) : Res (List Nat) := do
  assertThat (v ≥ 0)
  assertThat (buf.length ≥ digits)
  let n ← digitsHexD w v
  assertThat (digits = n)
  writeHexLoopD (v.toNat + 1) buf v.toNat digits

/-- The loop of `write_oct_unchecked` (/repo/src/c4/charconv.hpp:663-667). -/
def writeOctLoopD : Nat → List Nat → Nat → Nat → Res (List Nat)
  | 0, _, _, _ => .loop
  | f+1, buf, v, d => do
    let d := dec32 d
    let buf ← wr buf d (48 + (v &&& 7))
    let v := v >>> 3
    if v ≠ 0 then writeOctLoopD f buf v d else do
      assertThat (d = 0)
      .ok buf

/-- `write_oct_unchecked` (/repo/src/c4/charconv.hpp:655-668). -/
def writeOctUncheckedD (v : Int) (digits : Nat) (buf : List Nat) : Res (List Nat) := do
  assertThat (v ≥ 0)
  assertThat (buf.length ≥ digits)
  let n ← digitsOctD v
  assertThat (digits = n)
  writeOctLoopD (v.toNat + 1) buf v.toNat digits

/-- The loop of `write_bin_unchecked` (/repo/src/c4/charconv.hpp:679-683). -/
def writeBinLoopD : Nat → List Nat → Nat → Nat → Res (List Nat)
  | 0, _, _, _ => .loop
  | f+1, buf, v, d => do
    let d := dec32 d
    let buf ← wr buf d (48 + (v &&& 1))
    let v := v >>> 1
    if v ≠ 0 then writeBinLoopD f buf v d else do
      assertThat (d = 0)
      .ok buf

/-- `write_bin_unchecked` (/repo/src/c4/charconv.hpp:671-684). -/
def writeBinUncheckedD (w : W) (v : Int) (digits : Nat) (buf : List Nat) : Res (List Nat) := do
  assertThat (v ≥ 0)
  assertThat (buf.length ≥ digits)
  let n ← digitsBinD w v
  assertThat (digits = n)
  writeBinLoopD (v.toNat + 1) buf v.toNat digits

/-- `write_dec(buf, v)` (/repo/src/c4/charconv.hpp:707-716). -/
def writeDecD (w : W) (v : Int) (buf : List Nat) : Res (Nat × List Nat) := do
  assertThat (v ≥ 0)
  let digits ← digitsDecD w v
  if buf.length ≥ digits then
    let buf ← writeDecUncheckedD w v digits buf
    .ok (digits, buf)
  else .ok (digits, buf)

/-- `write_hex(buf, v)` (/repo/src/c4/charconv.hpp:726-735). -/
def writeHexD (w : W) (v : Int) (buf : List Nat) : Res (Nat × List Nat) := do
  assertThat (v ≥ 0)
  let digits ← digitsHexD w v
  if buf.length ≥ digits then
    let buf ← writeHexUncheckedD w v digits buf
    .ok (digits, buf)
  else .ok (digits, buf)

/-- `write_oct(buf, v)` (/repo/src/c4/charconv.hpp:745-754). -/
def writeOctD (_w : W) (v : Int) (buf : List Nat) : Res (Nat × List Nat) := do
  assertThat (v ≥ 0)
  let digits ← digitsOctD v
  if buf.length ≥ digits then
    let buf ← writeOctUncheckedD v digits buf
    .ok (digits, buf)
  else .ok (digits, buf)

/-- `write_bin(buf, v)` (/repo/src/c4/charconv.hpp:764-774). -/
def writeBinD (w : W) (v : Int) (buf : List Nat) : Res (Nat × List Nat) := do
  assertThat (v ≥ 0)
  let digits ← digitsBinD w v
  assertThat (digits > 0)
  if buf.length ≥ digits then
    let buf ← writeBinUncheckedD w v digits buf
    .ok (digits, buf)
  else .ok (digits, buf)

/-- `detail::write_num_digits<T,writer>(buf, v, num_digits)` (/repo/src/c4/charconv.hpp:779-794). -/
def writeNumDigitsD (writer : List Nat → Res (Nat × List Nat)) (numDigits : Nat) (buf : List Nat) : Res (Nat × List Nat) := do
  let (ret, buf) ← writer buf
  if ret ≥ numDigits then .ok (ret, buf)
  else if ret ≥ buf.length ∨ numDigits > buf.length then .ok (numDigits, buf)
  else do
    assertThat (numDigits ≥ ret)
    let delta := numDigits - ret
    let buf ← memmove buf delta 0 ret
    let buf ← memset buf 0 48 delta
    .ok (numDigits, buf)

/-- `write_dec(buf, val, num_digits)` (/repo/src/c4/charconv.hpp:802-806). -/
def writeDecPadD (w : W) (v : Int) (nd : Nat) : List Nat → Res (Nat × List Nat) := writeNumDigitsD (writeDecD w v) nd
/-- `write_hex(buf, val, num_digits)` (/repo/src/c4/charconv.hpp:811-815). -/
def writeHexPadD (w : W) (v : Int) (nd : Nat) : List Nat → Res (Nat × List Nat) := writeNumDigitsD (writeHexD w v) nd
/-- `write_bin(buf, val, num_digits)` (/repo/src/c4/charconv.hpp:820-824). -/
def writeBinPadD (w : W) (v : Int) (nd : Nat) : List Nat → Res (Nat × List Nat) := writeNumDigitsD (writeBinD w v) nd
/-- `write_oct(buf, val, num_digits)` (/repo/src/c4/charconv.hpp:829-833). -/
def writeOctPadD (w : W) (v : Int) (nd : Nat) : List Nat → Res (Nat × List Nat) := writeNumDigitsD (writeOctD w v) nd

/-- `_itoa2buf(buf, pos, val)` (/repo/src/c4/charconv.hpp:985-990). -/
def itoa2bufD (buf : List Nat) (pos : Nat) (val : List Nat) : Res (Nat × List Nat) := do
  assertThat (addSz pos val.length ≤ buf.length)
  let buf ← memcpyTo buf pos val
  .ok (pos + val.length, buf)

/-- `_itoa2bufwithdigits` (/repo/src/c4/charconv.hpp:991-998). -/
def itoa2bufWithDigitsD (buf : List Nat) (pos numDigits : Nat) (val : List Nat) : Res (Nat × List Nat) := do
  let nd := if numDigits > val.length then numDigits - val.length else 0
  assertThat (addSz nd val.length ≤ buf.length)
  let (pos, buf) ← appendZeros nd buf pos
  itoa2bufD buf pos val

/-- `_itoadec2buf<I>(buf)` (/repo/src/c4/charconv.hpp:999-1007). -/
def itoadec2bufD (w : W) (buf : List Nat) : Res (Nat × List Nat) :=
  if buf.length < maxdigitsDec w then .ok (maxdigitsDec w, buf)
  else do
    let buf ← wr buf 0 45
    itoa2bufD buf 1 (minValueDec w)

/-- Body of the non-decimal cases of `_itoa2buf<I>(buf, radix)` (/repo/src/c4/charconv.hpp:1022-1042). -/
def itoa2bufPfxD (buf : List Nat) (pos c needed : Nat) (val : List Nat) : Res (Nat × List Nat) :=
  if buf.length < needed then .ok (needed, buf)
  else do
    let buf ← wr buf pos 48
    let buf ← wr buf (pos + 1) c
    itoa2bufD buf (pos + 2) val

/-- `_itoa2buf<I>(buf, radix)` (/repo/src/c4/charconv.hpp:1008-1045). -/
def itoa2bufRadixD (w : W) (radix : Nat) (buf : List Nat) : Res (Nat × List Nat) := do
  let (pos, buf) ← if buf.length > 0 then (do let b ← wr buf 0 45; .ok (1, b)) else .ok (0, buf)
  match radix with
  | 10 => if buf.length < maxdigitsDec w then .ok (maxdigitsDec w, buf)
          else itoa2bufD buf pos (minValueDec w)
  | 16 => itoa2bufPfxD buf pos 120 (maxdigitsHex w) (minValueHex w)
  | 2 => itoa2bufPfxD buf pos 98 (maxdigitsBin w) (minValueBin w)
  | 8 => itoa2bufPfxD buf pos 111 (maxdigitsOct w) (minValueOct w)
  | _ => .ok (pos, buf)

/-- Body of the non-decimal cases of `_itoa2buf<I>(buf, radix, num_digits)` (/repo/src/c4/charconv.hpp:1063-1091); the cases 2 and 8 assert that
the buffer has `least` characters, the case 16 does not (`least = 0`). -/
def itoa2bufPfxDigitsD (buf : List Nat) (pos c maxd least numDigits : Nat) (val : List Nat) : Res (Nat × List Nat) :=
  let needed := if addSz numDigits 3 > maxd then addSz numDigits 3 else maxd
  if buf.length < needed then .ok (needed, buf)
  else do
    assertThat (buf.length ≥ least)
    let buf ← wr buf pos 48
    let buf ← wr buf (pos + 1) c
    itoa2bufWithDigitsD buf (pos + 2) numDigits val

/-- `_itoa2buf<I>(buf, radix, num_digits)` (/repo/src/c4/charconv.hpp:1046-1094). -/
def itoa2bufRadixDigitsD (w : W) (radix numDigits : Nat) (buf : List Nat) : Res (Nat × List Nat) := do
  let (pos, buf) ← if buf.length > 0 then (do let b ← wr buf 0 45; .ok (1, b)) else .ok (0, buf)
  match radix with
  | 10 =>
    let needed := if addSz numDigits 1 > maxdigitsDec w then addSz numDigits 1 else maxdigitsDec w
    if buf.length < needed then .ok (needed, buf)
    else itoa2bufWithDigitsD buf pos numDigits (minValueDec w)
  | 16 => itoa2bufPfxDigitsD buf pos 120 (maxdigitsHex w) 0 numDigits (minValueHex w)
  | 2 => itoa2bufPfxDigitsD buf pos 98 (maxdigitsBin w) (maxdigitsBin w) numDigits (minValueBin w)
  | 8 => itoa2bufPfxDigitsD buf pos 111 (maxdigitsOct w) (maxdigitsOct w) numDigits (minValueOct w)
  | _ => .ok (pos, buf)

/-- `itoa(buf, v)` (/repo/src/c4/charconv.hpp:1108-1131). -/
def itoaD (w : W) (v : Int) (buf : List Nat) : Res (Nat × List Nat) :=
  if v ≥ 0 then writeDecD w v buf
  else if v ≠ w.minI then do
    let v := -v
    let digits ← digitsDecD w v
    if buf.length ≥ digits + 1 then
      let buf ← wr buf 0 45
      let (_, buf) ← onSubD buf 1 (fun b => do let b ← writeDecUncheckedD w v digits b; .ok ((), b))
      .ok (digits + 1, buf)
    else .ok (digits + 1, buf)
  else itoadec2bufD w buf

/-- Body shared by the cases 16, 2, 8 of `itoa(buf,v,radix)` (/repo/src/c4/charconv.hpp:1169-1198) and of `utoa(buf,v,radix)` (lines 1331-1360). -/
def pfxUncheckedD (buf : List Nat) (pos c digits : Nat) (writer : List Nat → Res (List Nat)) : Res (Nat × List Nat) :=
  if buf.length ≥ pos + 2 + digits then do
    let buf ← wr buf pos 48
    let buf ← wr buf (pos + 1) c
    let (_, buf) ← onSubD buf (pos + 2) (fun b => do let b ← writer b; .ok ((), b))
    .ok (pos + (digits + 2), buf)
  else .ok (pos + (digits + 2), buf)

/-- The `switch(radix)` of `itoa(buf,v,radix)` (/repo/src/c4/charconv.hpp:1161-1200) and `utoa(buf,v,radix)` (1323-1362). -/
def radixSwitchD (w : W) (v : Int) (radix pos : Nat) (buf : List Nat) : Res (Nat × List Nat) :=
  match radix with
  | 10 => do
    let digits ← digitsDecD w v
    if buf.length ≥ pos + digits then
      let (_, buf) ← onSubD buf pos (fun b => do let b ← writeDecUncheckedD w v digits b; .ok ((), b))
      .ok (pos + digits, buf)
    else .ok (pos + digits, buf)
  | 16 => do
    let digits ← digitsHexD w v
    pfxUncheckedD buf pos 120 digits (writeHexUncheckedD w v digits)
  | 2 => do
    let digits ← digitsBinD w v
    pfxUncheckedD buf pos 98 digits (writeBinUncheckedD w v digits)
  | 8 => do
    let digits ← digitsOctD v
    pfxUncheckedD buf pos 111 digits (writeOctUncheckedD v digits)
  | _ => .ok (pos, buf)

/-- `itoa(buf, v, radix)` (/repo/src/c4/charconv.hpp:1140-1206). -/
def itoaRadixD (w : W) (v : Int) (radix : Nat) (buf : List Nat) : Res (Nat × List Nat) := do
  assertThat (radix = 2 ∨ radix = 8 ∨ radix = 10 ∨ radix = 16)
  if v ≠ w.minI then do
    let (v, pos, buf) ← itoaSign v buf
    radixSwitchD w v radix pos buf
  else itoa2bufRadixD w radix buf

/-- Body shared by the cases 16, 2, 8 of `itoa(buf,v,radix,num_digits)` (/repo/src/c4/charconv.hpp:1247-1276) and
`utoa(buf,v,radix,num_digits)` (1387-1416). -/
def pfxPaddedD (buf : List Nat) (pos c digits numDigits : Nat) (writer : List Nat → Res (Nat × List Nat)) : Res (Nat × List Nat) :=
  let total := u32 (pos + 2 + u32 (if numDigits > digits then numDigits else digits))
  if buf.length ≥ total then do
    let buf ← wr buf pos 48
    let buf ← wr buf (pos + 1) c
    let (_, buf) ← onSubD buf (pos + 2) writer
    .ok (total, buf)
  else .ok (total, buf)

/-- The `switch(radix)` of `itoa(buf,v,radix,num_digits)` (/repo/src/c4/charconv.hpp:1238-1278) and of `utoa(buf,v,radix,num_digits)` (1378-1418). -/
def radixSwitchPadD (w : W) (v : Int) (radix numDigits pos : Nat) (buf : List Nat) : Res (Nat × List Nat) :=
  match radix with
  | 10 => do
    let digits ← digitsDecD w v
    let total := u32 (pos + u32 (if numDigits > digits then numDigits else digits))
    if buf.length ≥ total then
      let (_, buf) ← onSubD buf pos (writeDecPadD w v numDigits)
      .ok (total, buf)
    else .ok (total, buf)
  | 16 => do
    let digits ← digitsHexD w v
    pfxPaddedD buf pos 120 digits numDigits (writeHexPadD w v numDigits)
  | 2 => do
    let digits ← digitsBinD w v
    pfxPaddedD buf pos 98 digits numDigits (writeBinPadD w v numDigits)
  | 8 => do
    let digits ← digitsOctD v
    pfxPaddedD buf pos 111 digits numDigits (writeOctPadD w v numDigits)
  | _ => .ok (0, buf)

/-- `itoa(buf, v, radix, num_digits)` (/repo/src/c4/charconv.hpp:1217-1284). -/
def itoaRadixPadD (w : W) (v : Int) (radix numDigits : Nat) (buf : List Nat) : Res (Nat × List Nat) := do
  assertThat (radix = 2 ∨ radix = 8 ∨ radix = 10 ∨ radix = 16)
  if v ≠ w.minI then do
    let (v, pos, buf) ← itoaSign v buf
    radixSwitchPadD w v radix numDigits pos buf
  else itoa2bufRadixDigitsD w radix numDigits buf

/-- `utoa(buf, v)` (/repo/src/c4/charconv.hpp:1303-1309). -/
def utoaD (w : W) (v : Nat) (buf : List Nat) : Res (Nat × List Nat) := writeDecD w v buf

/-- `utoa(buf, v, radix)` (/repo/src/c4/charconv.hpp:1318-1363). -/
def utoaRadixD (w : W) (v radix : Nat) (buf : List Nat) : Res (Nat × List Nat) := do
  assertThat (radix = 10 ∨ radix = 16 ∨ radix = 2 ∨ radix = 8)
  radixSwitchD w v radix 0 buf

/-- `utoa(buf, v, radix, num_digits)` (/repo/src/c4/charconv.hpp:1373-1419). -/
def utoaRadixPadD (w : W) (v radix numDigits : Nat) (buf : List Nat) : Res (Nat × List Nat) := do
  assertThat (radix = 10 ∨ radix = 16 ∨ radix = 2 ∨ radix = 8)
  radixSwitchPadD w v radix numDigits 0 buf

end C4
