import Verif.MemUtil
/-
Model of the integer writing half of /repo/src/c4/charconv.hpp (lines 271-833 and 985-1419).

Values of an integer type that the code requires to be non-negative are natural numbers; the value of a
signed type is an `Int`.  `W` is the width of the type.  A writer takes the buffer and returns the returned
size together with the final buffer contents.
-/
namespace C4

/-- `digits_dec(T v)` (/repo/src/c4/charconv.hpp:438-519), one comparison tree per `sizeof(T)`. -/
def digitsDec : W → Nat → Nat
  | .w8, v => if v ≥ 100 then 3 else if v ≥ 10 then 2 else 1
  | .w16, v =>
    if v ≥ 10000 then 5 else if v ≥ 1000 then 4 else if v ≥ 100 then 3 else if v ≥ 10 then 2 else 1
  | .w32, v =>
    if v ≥ 1000000000 then 10 else if v ≥ 100000000 then 9 else if v ≥ 10000000 then 8
    else if v ≥ 1000000 then 7 else if v ≥ 100000 then 6 else if v ≥ 10000 then 5
    else if v ≥ 1000 then 4 else if v ≥ 100 then 3 else if v ≥ 10 then 2 else 1
  | .w64, v =>
    if v ≥ 1000000000 then
      if v ≥ 100000000000000 then
        if v ≥ 100000000000000000 then
          if v ≥ 10000000000000000000 then 20
          else if v ≥ 1000000000000000000 then 19 else 18
        else if v ≥ 10000000000000000 then 17
        else if v ≥ 1000000000000000 then 16 else 15
      else if v ≥ 1000000000000 then
        if v ≥ 10000000000000 then 14 else 13
      else if v ≥ 100000000000 then 12
      else if v ≥ 10000000000 then 11 else 10
    else if v ≥ 10000 then
      if v ≥ 10000000 then
        if v ≥ 100000000 then 9 else 8
      else if v ≥ 1000000 then 7
      else if v ≥ 100000 then 6 else 5
    else if v ≥ 100 then
      if v ≥ 1000 then 4 else 3
    else if v ≥ 10 then 2 else 1

/-- `digits_hex(T v)` (/repo/src/c4/charconv.hpp:522-529). -/
def digitsHex (w : W) (v : Nat) : Nat := if v ≠ 0 then 1 + (msb w v >>> 2) else 1

/-- `digits_bin(T v)` (/repo/src/c4/charconv.hpp:531-538). -/
def digitsBin (w : W) (v : Nat) : Nat := if v ≠ 0 then 1 + msb w v else 1

/-- The loop of `digits_oct` (/repo/src/c4/charconv.hpp:556-568). -/
def digitsOctLoop : Nat → Nat → Nat → Res Nat
  | 0, _, _ => .loop
  | f+1, v, n =>
    if v < 8 then .ok n
    else if v < 64 then .ok (n + 1)
    else if v < 512 then .ok (n + 2)
    else if v < 4096 then .ok (n + 3)
    else digitsOctLoop f (v / 4096) (n + 4)

/-- `digits_oct(T v_)` (/repo/src/c4/charconv.hpp:540-569). -/
def digitsOct (v : Nat) : Res Nat := digitsOctLoop (v + 1) v 1

/-- `detail::hexchars` (/repo/src/c4/charconv.hpp:580). -/
def hexchars : List Nat := S "0123456789abcdef"

/-- `detail::digits0099` (/repo/src/c4/charconv.hpp:581-586). -/
def digits0099 : List Nat := S ("0001020304050607080910111213141516171819" ++
    "2021222324252627282930313233343536373839" ++
    "4041424344454647484950515253545556575859" ++
    "6061626364656667686970717273747576777879" ++
    "8081828384858687888990919293949596979899")

/-- `write_dec_unchecked(buf, v, digits_v)` (/repo/src/c4/charconv.hpp:606-636): the while loop and what
follows it. The buffer is returned. -/
def writeDecUnchecked : Nat → List Nat → Nat → Nat → Res (List Nat)
  | 0, _, _, _ => .loop
  | f+1, buf, v, d =>
    if v ≥ 100 then do
      let quo := v / 100
      let num := (v - quo * 100) <<< 1
      let d := dec32 d
      let c ← rd digits0099 (num + 1)
      let buf ← wr buf d c
      let d := dec32 d
      let c ← rd digits0099 num
      let buf ← wr buf d c
      writeDecUnchecked f buf quo d
    else if v ≥ 10 then do
      let num := v <<< 1
      let c ← rd digits0099 (num + 1)
      let buf ← wr buf 1 c
      let c ← rd digits0099 num
      wr buf 0 c
    else
      wr buf 0 (48 + v)

/-- `write_hex_unchecked` (/repo/src/c4/charconv.hpp:639-652). -/
def writeHexUnchecked : Nat → List Nat → Nat → Nat → Res (List Nat)
  | 0, _, _, _ => .loop
  | f+1, buf, v, d => do
    let d := dec32 d
    let c ← rd hexchars (v &&& 15)
    let buf ← wr buf d c
    let v := v >>> 4
    if v ≠ 0 then writeHexUnchecked f buf v d else .ok buf

/-- `write_oct_unchecked` (/repo/src/c4/charconv.hpp:655-668). -/
def writeOctUnchecked : Nat → List Nat → Nat → Nat → Res (List Nat)
  | 0, _, _, _ => .loop
  | f+1, buf, v, d => do
    let d := dec32 d
    let buf ← wr buf d (48 + (v &&& 7))
    let v := v >>> 3
    if v ≠ 0 then writeOctUnchecked f buf v d else .ok buf

/-- `write_bin_unchecked` (/repo/src/c4/charconv.hpp:671-684). -/
def writeBinUnchecked : Nat → List Nat → Nat → Nat → Res (List Nat)
  | 0, _, _, _ => .loop
  | f+1, buf, v, d => do
    let d := dec32 d
    let buf ← wr buf d (48 + (v &&& 1))
    let v := v >>> 1
    if v ≠ 0 then writeBinUnchecked f buf v d else .ok buf

/-- `write_dec(buf, v)` (/repo/src/c4/charconv.hpp:707-716). -/
def writeDec (w : W) (v : Nat) (buf : List Nat) : Res (Nat × List Nat) := do
  let digits := digitsDec w v
  if buf.length ≥ digits then
    let buf ← writeDecUnchecked (v + 1) buf v digits
    .ok (digits, buf)
  else .ok (digits, buf)

/-- `write_hex(buf, v)` (/repo/src/c4/charconv.hpp:726-735). -/
def writeHex (w : W) (v : Nat) (buf : List Nat) : Res (Nat × List Nat) := do
  let digits := digitsHex w v
  if buf.length ≥ digits then
    let buf ← writeHexUnchecked (v + 1) buf v digits
    .ok (digits, buf)
  else .ok (digits, buf)

/-- `write_oct(buf, v)` (/repo/src/c4/charconv.hpp:745-754). -/
def writeOct (_w : W) (v : Nat) (buf : List Nat) : Res (Nat × List Nat) := do
  let digits ← digitsOct v
  if buf.length ≥ digits then
    let buf ← writeOctUnchecked (v + 1) buf v digits
    .ok (digits, buf)
  else .ok (digits, buf)

/-- `write_bin(buf, v)` (/repo/src/c4/charconv.hpp:764-774). -/
def writeBin (w : W) (v : Nat) (buf : List Nat) : Res (Nat × List Nat) := do
  let digits := digitsBin w v
  if buf.length ≥ digits then
    let buf ← writeBinUnchecked (v + 1) buf v digits
    .ok (digits, buf)
  else .ok (digits, buf)

/-- `detail::write_num_digits<T,writer>(buf, v, num_digits)` (/repo/src/c4/charconv.hpp:779-794);
`writer` is already applied to the value. -/
def writeNumDigits (writer : List Nat → Res (Nat × List Nat)) (numDigits : Nat) (buf : List Nat) :
    Res (Nat × List Nat) := do
  let (ret, buf) ← writer buf
  if ret ≥ numDigits then .ok (ret, buf)
  else if ret ≥ buf.length ∨ numDigits > buf.length then .ok (numDigits, buf)
  else
    let delta := numDigits - ret
    let buf ← memmove buf delta 0 ret
    let buf ← memset buf 0 48 delta
    .ok (numDigits, buf)

/-- `write_dec(buf, val, num_digits)` (/repo/src/c4/charconv.hpp:802-806). -/
def writeDecPad (w : W) (v nd : Nat) : List Nat → Res (Nat × List Nat) := writeNumDigits (writeDec w v) nd
/-- `write_hex(buf, val, num_digits)` (/repo/src/c4/charconv.hpp:811-815). -/
def writeHexPad (w : W) (v nd : Nat) : List Nat → Res (Nat × List Nat) := writeNumDigits (writeHex w v) nd
/-- `write_bin(buf, val, num_digits)` (/repo/src/c4/charconv.hpp:820-824). -/
def writeBinPad (w : W) (v nd : Nat) : List Nat → Res (Nat × List Nat) := writeNumDigits (writeBin w v) nd
/-- `write_oct(buf, val, num_digits)` (/repo/src/c4/charconv.hpp:829-833). -/
def writeOctPad (w : W) (v nd : Nat) : List Nat → Res (Nat × List Nat) := writeNumDigits (writeOct w v) nd

/-! ### Tables of minimum values of the signed types (/repo/src/c4/charconv.hpp:273-393) -/

/-- `charconv_digits<T>::min_value_dec()` for signed T (/repo/src/c4/charconv.hpp:287, 322, 357, 391). -/
def minValueDec : W → List Nat
  | .w8 => S "128" | .w16 => S "32768" | .w32 => S "2147483648" | .w64 => S "9223372036854775808"
/-- `min_value_hex()` (/repo/src/c4/charconv.hpp:288, 323, 358, 392). -/
def minValueHex : W → List Nat
  | .w8 => S "80" | .w16 => S "8000" | .w32 => S "80000000" | .w64 => S "8000000000000000"
/-- `min_value_oct()` (/repo/src/c4/charconv.hpp:289, 324, 359, 393). -/
def minValueOct : W → List Nat
  | .w8 => S "200" | .w16 => S "100000" | .w32 => S "20000000000" | .w64 => S "1000000000000000000000"
/-- `min_value_bin()` (/repo/src/c4/charconv.hpp:290, 325, 360, 394). -/
def minValueBin : W → List Nat
  | .w8 => S "10000000" | .w16 => S "1000000000000000" | .w32 => S "10000000000000000000000000000000"
  | .w64 => S "1000000000000000000000000000000000000000000000000000000000000000"
/-- `maxdigits_dec` of the signed types (/repo/src/c4/charconv.hpp:279, 314, 349, 384). -/
def maxdigitsDec : W → Nat
  | .w8 => 1 + 3 | .w16 => 1 + 5 | .w32 => 1 + 10 | .w64 => 1 + 19
/-- `maxdigits_hex` of the signed types (/repo/src/c4/charconv.hpp:280, 315, 350, 385). -/
def maxdigitsHex : W → Nat
  | .w8 => 1 + 2 + 2 | .w16 => 1 + 2 + 4 | .w32 => 1 + 2 + 8 | .w64 => 1 + 2 + 16
/-- `maxdigits_oct` of the signed types (/repo/src/c4/charconv.hpp:278, 313, 348, 383). -/
def maxdigitsOct : W → Nat
  | .w8 => 1 + 2 + 3 | .w16 => 1 + 2 + 6 | .w32 => 1 + 2 + 11 | .w64 => 1 + 2 + 22
/-- `maxdigits_bin` of the signed types (/repo/src/c4/charconv.hpp:277, 312, 347, 382). -/
def maxdigitsBin : W → Nat
  | .w8 => 1 + 2 + 8 | .w16 => 1 + 2 + 16 | .w32 => 1 + 2 + 32 | .w64 => 1 + 2 + 64

/-- `_c4append(c)` (/repo/src/c4/charconv.hpp:416): bounded append, the position always advances. -/
def c4append (buf : List Nat) (pos : Nat) (c : Nat) : Res (Nat × List Nat) :=
  if pos < buf.length then do
    let buf ← wr buf pos c
    .ok (pos + 1, buf)
  else .ok (pos + 1, buf)

/-- `_itoa2buf(buf, pos, val)` (/repo/src/c4/charconv.hpp:985-990). -/
def itoa2buf (buf : List Nat) (pos : Nat) (val : List Nat) : Res (Nat × List Nat) := do
  let buf ← memcpyTo buf pos val
  .ok (pos + val.length, buf)

/-- The loop `for(i = 0; i < num_digits; ++i) _c4append('0')` (/repo/src/c4/charconv.hpp:995-996). -/
def appendZeros : Nat → List Nat → Nat → Res (Nat × List Nat)
  | 0, buf, pos => .ok (pos, buf)
  | n+1, buf, pos => do
    let (pos, buf) ← c4append buf pos 48
    appendZeros n buf pos

/-- `_itoa2bufwithdigits` (/repo/src/c4/charconv.hpp:991-998). -/
def itoa2bufWithDigits (buf : List Nat) (pos numDigits : Nat) (val : List Nat) : Res (Nat × List Nat) := do
  let nd := if numDigits > val.length then numDigits - val.length else 0
  let (pos, buf) ← appendZeros nd buf pos
  itoa2buf buf pos val

/-- `_itoadec2buf<I>(buf)` (/repo/src/c4/charconv.hpp:999-1007). -/
def itoadec2buf (w : W) (buf : List Nat) : Res (Nat × List Nat) :=
  if buf.length < maxdigitsDec w then .ok (maxdigitsDec w, buf)
  else do
    let buf ← wr buf 0 45
    itoa2buf buf 1 (minValueDec w)

/-- Body of the non-decimal cases of `_itoa2buf<I>(buf, radix)` (/repo/src/c4/charconv.hpp:1022-1042),
which are the same up to the prefix letter `c`, the needed size and the literal. -/
def itoa2bufPfx (buf : List Nat) (pos c needed : Nat) (val : List Nat) : Res (Nat × List Nat) :=
  if buf.length < needed then .ok (needed, buf)
  else do
    let buf ← wr buf pos 48
    let buf ← wr buf (pos + 1) c
    itoa2buf buf (pos + 2) val

/-- `_itoa2buf<I>(buf, radix)`: the minimum value in a radix (/repo/src/c4/charconv.hpp:1008-1045). -/
def itoa2bufRadix (w : W) (radix : Nat) (buf : List Nat) : Res (Nat × List Nat) := do
  let (pos, buf) ← if buf.length > 0 then (do let b ← wr buf 0 45; .ok (1, b)) else .ok (0, buf)
  match radix with
  | 10 => if buf.length < maxdigitsDec w then .ok (maxdigitsDec w, buf)
          else itoa2buf buf pos (minValueDec w)
  | 16 => itoa2bufPfx buf pos 120 (maxdigitsHex w) (minValueHex w)
  | 2 => itoa2bufPfx buf pos 98 (maxdigitsBin w) (minValueBin w)
  | 8 => itoa2bufPfx buf pos 111 (maxdigitsOct w) (minValueOct w)
  | _ => .ok (pos, buf)

/-- `a + b` in `size_t`. -/
def addSz (a b : Nat) : Nat := (a + b) % 2 ^ 64

/-- Body of the non-decimal cases of `_itoa2buf<I>(buf, radix, num_digits)`
(/repo/src/c4/charconv.hpp:1063-1091). -/
def itoa2bufPfxDigits (buf : List Nat) (pos c maxd numDigits : Nat) (val : List Nat) :
    Res (Nat × List Nat) :=
  let needed := if addSz numDigits 3 > maxd then addSz numDigits 3 else maxd
  if buf.length < needed then .ok (needed, buf)
  else do
    let buf ← wr buf pos 48
    let buf ← wr buf (pos + 1) c
    itoa2bufWithDigits buf (pos + 2) numDigits val

/-- `_itoa2buf<I>(buf, radix, num_digits)` (/repo/src/c4/charconv.hpp:1046-1094). -/
def itoa2bufRadixDigits (w : W) (radix numDigits : Nat) (buf : List Nat) : Res (Nat × List Nat) := do
  let (pos, buf) ← if buf.length > 0 then (do let b ← wr buf 0 45; .ok (1, b)) else .ok (0, buf)
  match radix with
  | 10 =>
    let needed := if addSz numDigits 1 > maxdigitsDec w then addSz numDigits 1 else maxdigitsDec w
    if buf.length < needed then .ok (needed, buf)
    else itoa2bufWithDigits buf pos numDigits (minValueDec w)
  | 16 => itoa2bufPfxDigits buf pos 120 (maxdigitsHex w) numDigits (minValueHex w)
  | 2 => itoa2bufPfxDigits buf pos 98 (maxdigitsBin w) numDigits (minValueBin w)
  | 8 => itoa2bufPfxDigits buf pos 111 (maxdigitsOct w) numDigits (minValueOct w)
  | _ => .ok (pos, buf)

/-- `std::numeric_limits<T>::min()` for a signed type. -/
def W.minI (w : W) : Int := -(2 ^ (w.bits - 1) : Nat)

/-- `itoa(buf, v)` (/repo/src/c4/charconv.hpp:1108-1131). -/
def itoa (w : W) (v : Int) (buf : List Nat) : Res (Nat × List Nat) :=
  if v ≥ 0 then writeDec w v.toNat buf
  else if v ≠ w.minI then do
    let v := (-v).toNat
    let digits := digitsDec w v
    if buf.length ≥ digits + 1 then
      let buf ← wr buf 0 45
      let (_, buf) ← onSub buf 1 (fun b => do let b ← writeDecUnchecked (v + 1) b v digits; .ok ((), b))
      .ok (digits + 1, buf)
    else .ok (digits + 1, buf)
  else itoadec2buf w buf

/-- Body shared by the cases 16, 2, 8 of `itoa(buf,v,radix)` (/repo/src/c4/charconv.hpp:1169-1198) and of
`utoa(buf,v,radix)` (lines 1331-1360, with `pos = 0`): prefix '0',`c` at `pos`, then the digits. -/
def pfxUnchecked (buf : List Nat) (pos c digits : Nat) (writer : List Nat → Res (List Nat)) :
    Res (Nat × List Nat) :=
  if buf.length ≥ pos + 2 + digits then do
    let buf ← wr buf pos 48
    let buf ← wr buf (pos + 1) c
    let (_, buf) ← onSub buf (pos + 2) (fun b => do let b ← writer b; .ok ((), b))
    .ok (pos + (digits + 2), buf)
  else .ok (pos + (digits + 2), buf)

/-- The `switch(radix)` of `itoa(buf,v,radix)` (/repo/src/c4/charconv.hpp:1161-1200) and
`utoa(buf,v,radix)` (1323-1362, `pos = 0`). -/
def radixSwitch (w : W) (v radix pos : Nat) (buf : List Nat) : Res (Nat × List Nat) :=
  match radix with
  | 10 => do
    let digits := digitsDec w v
    if buf.length ≥ pos + digits then
      let (_, buf) ← onSub buf pos (fun b => do let b ← writeDecUnchecked (v + 1) b v digits; .ok ((), b))
      .ok (pos + digits, buf)
    else .ok (pos + digits, buf)
  | 16 => do
    let digits := digitsHex w v
    pfxUnchecked buf pos 120 digits (fun b => writeHexUnchecked (v + 1) b v digits)
  | 2 => do
    let digits := digitsBin w v
    pfxUnchecked buf pos 98 digits (fun b => writeBinUnchecked (v + 1) b v digits)
  | 8 => do
    let digits ← digitsOct v
    pfxUnchecked buf pos 111 digits (fun b => writeOctUnchecked (v + 1) b v digits)
  | _ => .ok (pos, buf)

/-- Lines `if(v < 0) { v = -v; if(buf.len > 0) buf.str[pos] = '-'; ++pos; }`
(/repo/src/c4/charconv.hpp:1153-1160 and 1230-1237). Returns (v, pos, buf). -/
def itoaSign (v : Int) (buf : List Nat) : Res (Nat × Nat × List Nat) :=
  if v < 0 then do
    let buf ← if buf.length > 0 then wr buf 0 45 else .ok buf
    .ok ((-v).toNat, 1, buf)
  else .ok (v.toNat, 0, buf)

/-- `itoa(buf, v, radix)` (/repo/src/c4/charconv.hpp:1140-1206). -/
def itoaRadix (w : W) (v : Int) (radix : Nat) (buf : List Nat) : Res (Nat × List Nat) :=
  if v ≠ w.minI then do
    let (v, pos, buf) ← itoaSign v buf
    radixSwitch w v radix pos buf
  else itoa2bufRadix w radix buf

/-- `a` truncated to `unsigned`. -/
def u32 (a : Nat) : Nat := a % 2 ^ 32

/-- Body shared by the cases 16, 2, 8 of `itoa(buf,v,radix,num_digits)`
(/repo/src/c4/charconv.hpp:1247-1276) and `utoa(buf,v,radix,num_digits)` (1387-1416, `pos = 0`). -/
def pfxPadded (buf : List Nat) (pos c digits numDigits : Nat)
    (writer : List Nat → Res (Nat × List Nat)) : Res (Nat × List Nat) :=
  let total := u32 (pos + 2 + u32 (if numDigits > digits then numDigits else digits))
  if buf.length ≥ total then do
    let buf ← wr buf pos 48
    let buf ← wr buf (pos + 1) c
    let (_, buf) ← onSub buf (pos + 2) writer
    .ok (total, buf)
  else .ok (total, buf)

/-- The `switch(radix)` of `itoa(buf,v,radix,num_digits)` (/repo/src/c4/charconv.hpp:1238-1278) and of
`utoa(buf,v,radix,num_digits)` (1378-1418, `pos = 0`). -/
def radixSwitchPad (w : W) (v radix numDigits pos : Nat) (buf : List Nat) : Res (Nat × List Nat) :=
  match radix with
  | 10 => do
    let digits := digitsDec w v
    let total := u32 (pos + u32 (if numDigits > digits then numDigits else digits))
    if buf.length ≥ total then
      let (_, buf) ← onSub buf pos (writeDecPad w v numDigits)
      .ok (total, buf)
    else .ok (total, buf)
  | 16 => do
    let digits := digitsHex w v
    pfxPadded buf pos 120 digits numDigits (writeHexPad w v numDigits)
  | 2 => do
    let digits := digitsBin w v
    pfxPadded buf pos 98 digits numDigits (writeBinPad w v numDigits)
  | 8 => do
    let digits ← digitsOct v
    pfxPadded buf pos 111 digits numDigits (writeOctPad w v numDigits)
  | _ => .ok (0, buf)

/-- `itoa(buf, v, radix, num_digits)` (/repo/src/c4/charconv.hpp:1217-1284). -/
def itoaRadixPad (w : W) (v : Int) (radix numDigits : Nat) (buf : List Nat) : Res (Nat × List Nat) :=
  if v ≠ w.minI then do
    let (v, pos, buf) ← itoaSign v buf
    radixSwitchPad w v radix numDigits pos buf
  else itoa2bufRadixDigits w radix numDigits buf

/-- `utoa(buf, v)` (/repo/src/c4/charconv.hpp:1303-1309). -/
def utoa (w : W) (v : Nat) (buf : List Nat) : Res (Nat × List Nat) := writeDec w v buf

/-- `utoa(buf, v, radix)` (/repo/src/c4/charconv.hpp:1318-1363). -/
def utoaRadix (w : W) (v radix : Nat) (buf : List Nat) : Res (Nat × List Nat) := radixSwitch w v radix 0 buf

/-- `utoa(buf, v, radix, num_digits)` (/repo/src/c4/charconv.hpp:1373-1419). -/
def utoaRadixPad (w : W) (v radix numDigits : Nat) (buf : List Nat) : Res (Nat × List Nat) :=
  radixSwitchPad w v radix numDigits 0 buf

example : itoaRadixPad .w8 (-128) 16 4 (S "________") = .ok (7, S "-0x0080_") := by decide +kernel
example : itoaRadix .w64 (-1234567890123) 10 (S "________________") = .ok (14, S "-1234567890123__") := by
  decide +kernel
example : utoaRadixPad .w8 255 2 0 (S "____________") = .ok (10, S "0b11111111__") := by decide +kernel

end C4
