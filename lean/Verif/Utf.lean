import Verif.Charconv.Read
/-
Model of /repo/src/c4/utf.cpp.
-/
namespace C4

/-- Consecutive stores `buf[i] = ..` from `i` on; the values are converted to `uint8_t`. -/
def storeBytes (i : Nat) : List Nat → List Nat → Res (List Nat)
  | [], buf => .ok buf
  | x :: xs, buf => do
    let b ← wr buf i (x % 256)
    storeBytes (i + 1) xs b

/-- `decode_code_point(buf, buflen, code)` (/repo/src/c4/utf.cpp:8-39); `buflen >= 4` is asserted, the stores are checked here. -/
def decodeCodePoint (code : Nat) (buf : List Nat) : Res (Nat × List Nat) :=
  if code ≤ 0x7f then do
    .ok (1, ← storeBytes 0 [code] buf)
  else if code ≤ 0x7ff then do
    .ok (2, ← storeBytes 0 [0xc0 ||| (code >>> 6), 0x80 ||| (code &&& 0x3f)] buf)
  else if code ≤ 0xffff then do
    .ok (3, ← storeBytes 0 [0xe0 ||| (code >>> 12), 0x80 ||| ((code >>> 6) &&& 0x3f), 0x80 ||| (code &&& 0x3f)] buf)
  else if code ≤ 0x10ffff then do
    .ok (4, ← storeBytes 0 [0xf0 ||| (code >>> 18), 0x80 ||| ((code >>> 12) &&& 0x3f), 0x80 ||| ((code >>> 6) &&& 0x3f),
      0x80 ||| (code &&& 0x3f)] buf)
  else .ok (0, buf)

/-- `decode_code_point(out, code_point)` (/repo/src/c4/utf.cpp:41-56): length of the returned view (which starts at `out`) and the
buffer. -/
def decodeCodePointS (s buf : List Nat) : Res (Nat × List Nat) :=
  match readHex ⟨.w32, false⟩ s with
  | (true, v, _) => decodeCodePoint v.toNat buf
  | _ => .abort

end C4
