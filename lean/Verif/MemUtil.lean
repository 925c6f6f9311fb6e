import Verif.Basic
/-
Model of /repo/src/c4/memory_util.hpp and memory_util.cpp.
-/
namespace C4

/-- Integer widths of the C++ types handled by the library (`sizeof(T)` in 1,2,4,8). -/
inductive W where
  | w8 | w16 | w32 | w64
  deriving Repr, DecidableEq

/-- Number of bits of a width. -/
def W.bits : W → Nat
  | w8 => 8 | w16 => 16 | w32 => 32 | w64 => 64

/-- Number of bytes (`sizeof(T)`). -/
def W.bytes (w : W) : Nat := w.bits / 8

/-- The loop of `_c4_lsb_fallback`: `for(; v; ++c) v >>= 1;`
(/repo/src/c4/memory_util.hpp:85-86). Fuel bounds the iterations. -/
def lsbLoop : Nat → Nat → Nat → Res Nat
  | 0, _, _ => .loop
  | f+1, v, c => if v = 0 then .ok c else lsbLoop f (v >>> 1) (c + 1)

/-- `lsb(v)` (/repo/src/c4/memory_util.hpp:82-215), the portable fallback that every overload uses when
no intrinsic is available (lines 82-87); see `lsbBuiltin` for the others. `v != 0` is asserted by the code. -/
def lsb (v : Nat) : Res Nat :=
  let v1 := (v ^^^ (v - 1)) >>> 1
  lsbLoop (v1 + 1) v1 0

/-- The number of zero bits below the lowest set bit among the first `n`: the documented result of `__builtin_ctz` and the like (trusted). -/
def ctz (n v : Nat) : Nat := ((List.range n).takeWhile fun i => !v.testBit i).length

/-- The number of zero bits above the highest set bit among the first `n`: the documented result of `__builtin_clz` and the like (trusted). -/
def clz (n v : Nat) : Nat := ((List.range n).reverse.takeWhile fun i => !v.testBit i).length

/-- `lsb(v)` with the intrinsics of gcc and clang (/repo/src/c4/memory_util.hpp:108, 135, 160, 185, 210): the argument is converted to `unsigned` of
32 bits, or `unsigned long` or `unsigned long long` of 64 bits.  (`_BitScanForward` of MSVC gives the same index.) -/
def lsbBuiltin : W → Nat → Nat
  | .w64, v => ctz 64 v
  | _, v => ctz 32 v

/-- Template recursion `_lsb11` (/repo/src/c4/memory_util.hpp:222-234): `finished` is tested first. -/
def lsb11Aux : Nat → Nat → Nat → Bool → Res Nat
  | 0, _, _, _ => .loop
  | _+1, _, num, true => .ok num
  | f+1, val, num, false => lsb11Aux f (val >>> 1) (num + 1) (((val >>> 1) &&& 1) != 0)

/-- `lsb11<I,number>::value` (/repo/src/c4/memory_util.hpp:241-246). -/
def lsb11 (number : Nat) : Res Nat := lsb11Aux (number + 1) number 0 ((number &&& 1) != 0)

/-- One line `if(v & mask) v >>= sh, n |= sh;` of the msb fallbacks
(/repo/src/c4/memory_util.hpp:262-294). -/
def msbStep (mask sh : Nat) (s : Nat × Nat) : Nat × Nat :=
  if s.1 &&& mask ≠ 0 then (s.1 >>> sh, s.2 ||| sh) else s

/-- `_c4_msb8_fallback` (/repo/src/c4/memory_util.hpp:262-267). -/
def msb8 (v : Nat) : Nat :=
  (msbStep 0x02 1 (msbStep 0x0c 2 (msbStep 0xf0 4 (v, 0)))).2

/-- `_c4_msb16_fallback` (/repo/src/c4/memory_util.hpp:269-275). -/
def msb16 (v : Nat) : Nat :=
  (msbStep 0x0002 1 (msbStep 0x000c 2 (msbStep 0x00f0 4 (msbStep 0xff00 8 (v, 0))))).2

/-- `_c4_msb32_fallback` (/repo/src/c4/memory_util.hpp:277-284). -/
def msb32 (v : Nat) : Nat :=
  (msbStep 0x00000002 1 (msbStep 0x0000000c 2 (msbStep 0x000000f0 4 (msbStep 0x0000ff00 8
    (msbStep 0xffff0000 16 (v, 0)))))).2

/-- `_c4_msb64_fallback` (/repo/src/c4/memory_util.hpp:286-294). -/
def msb64 (v : Nat) : Nat :=
  (msbStep 0x0000000000000002 1 (msbStep 0x000000000000000c 2 (msbStep 0x00000000000000f0 4
    (msbStep 0x000000000000ff00 8 (msbStep 0x00000000ffff0000 16
      (msbStep 0xffffffff00000000 32 (v, 0))))))).2

/-- `msb(v)` dispatch on `sizeof(I)` (/repo/src/c4/memory_util.hpp:297-424) with the fallbacks. -/
def msb : W → Nat → Nat
  | .w8 => msb8 | .w16 => msb16 | .w32 => msb32 | .w64 => msb64

/-- `msb(v)` with the intrinsics of gcc and clang (/repo/src/c4/memory_util.hpp:317, 344, 369, 394, 419).  (`_BitScanReverse` of MSVC gives the index
directly.) -/
def msbBuiltin : W → Nat → Nat
  | .w64, v => 63 - clz 64 v
  | _, v => 31 - clz 32 v

/-- Template recursion `_msb11` (/repo/src/c4/memory_util.hpp:434-447). `num_bits-1` is evaluated in `I`
and cast to unsigned; only `num_bits ≥ 1` is reached for a nonzero number. -/
def msb11Aux : Nat → Nat → Nat → Bool → Res Nat
  | 0, _, _, _ => .loop
  | _+1, _, num, true => .ok (num - 1)
  | f+1, val, num, false => msb11Aux f (val >>> 1) (num + 1) ((val >>> 1) == 0)

/-- `msb11<I,number>::value` (/repo/src/c4/memory_util.hpp:454-458). -/
def msb11 (number : Nat) : Res Nat := msb11Aux (number + 2) number 0 (number == 0)

/-- The loop of `contiguous_mask` (/repo/src/c4/memory_util.hpp:586-591) in an unsigned type with `bits`
bits: `n` iterations left, current bit `i`. Shifting by the width or more is undefined. (For 8/16-bit
types the shift is done in `int`, and the bits above the width are dropped by the assignment: for bit
indices below the width there is no difference.) -/
def cmaskLoop (bits : Nat) : Nat → Nat → Nat → Res Nat
  | 0, _, r => .ok r
  | n+1, i, r => if i < bits then cmaskLoop bits n (i + 1) (r ||| (1 <<< i)) else .ub

/-- `contiguous_mask(first_bit, last_bit)` (/repo/src/c4/memory_util.hpp:583-592). -/
def contiguousMask (bits first last : Nat) : Res Nat := cmaskLoop bits (last - first) first 0

/-- Template recursion `_ctgmsk11` (/repo/src/c4/memory_util.hpp:597-610); the flag named `finished`
there is true while there is work left. Fuel bounds the instantiation depth. -/
def cmask11Aux (bits : Nat) : Nat → Nat → Nat → Nat → Bool → Res Nat
  | 0, _, _, _, _ => .loop
  | _+1, val, _, _, false => .ok val
  | f+1, val, first, last, true =>
    if first < bits then cmask11Aux bits f (val ||| (1 <<< first)) (first + 1) last (first + 1 != last)
    else .ub

/-- `contiguous_mask11<I,first,last>::value` (/repo/src/c4/memory_util.hpp:619-623). -/
def contiguousMask11 (bits first last : Nat) : Res Nat :=
  cmask11Aux bits (last - first + 1) 0 first last (first != last)

/-- `mem_overlaps(a,b,sza,szb)` on addresses (/repo/src/c4/memory_util.hpp:50-54). -/
def memOverlaps (a b sza szb : Nat) : Bool := decide (b + szb > a) && decide (b < a + sza)

/-- `is_aligned(ptr, alignment)` (/repo/src/c4/memory_util.hpp:63-67). -/
def isAligned (ptr alignment : Nat) : Bool := (ptr &&& (alignment - 1)) == 0

/-- `memcpy(begin + dst, begin + src, n)` inside one buffer: overlapping ranges are undefined. -/
def memcpyIn (buf : List α) (dst src n : Nat) : Res (List α) :=
  if n = 0 then .ok buf
  else if (dst + n ≤ src ∨ src + n ≤ dst) then memmove buf dst src n else .ub

/-- Doubling loop of `mem_repeat` (/repo/src/c4/memory_util.cpp:19-23), `begin` at index 0 and `end` at
index `e`. Returns the final `n` too. -/
def memRepeatLoop : Nat → List α → Nat → Nat → Res (Nat × List α)
  | 0, _, _, _ => .loop
  | f+1, buf, n, e =>
    if 2 * n < e then do
      let buf ← memcpyIn buf n 0 n
      memRepeatLoop f buf (n <<< 1) e
    else .ok (n, buf)

/-- `mem_repeat(dest, pattern, pattern_size, num_times)` (/repo/src/c4/memory_util.cpp:8-29).
`buf` is the memory starting at `dest`. The pattern is outside `buf` (asserted by the code).
Fuel is the destination size: enough unless the loop does not terminate. -/
def memRepeat (buf pattern : List α) (numTimes : Nat) : Res (List α) :=
  if numTimes = 0 then .ok buf
  else do
    let e := numTimes * pattern.length
    let buf ← memcpyTo buf 0 pattern
    let (n, buf) ← memRepeatLoop (e + 1) buf pattern.length e
    if n < e then memcpyIn buf n 0 (e - n) else .ok buf

end C4
