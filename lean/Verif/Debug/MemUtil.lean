import Verif.MemUtil
import Verif.SpanAssert
import Verif.Format
/-
Model of the assertions of the memory helpers (/repo/src/c4/memory_util.hpp, memory_util.cpp), of raw data (/repo/src/c4/format.hpp:404-412) and of blobs
(/repo/src/c4/blob.hpp:50), and of what the helpers do without them.
-/
namespace C4

/-- The part of `mem_repeat` after the first copy (/repo/src/c4/memory_util.cpp:15-28), in the memory `buf` that begins with it; `e` bytes are to be filled. -/
def memRepeatRest {α : Type} (buf : List α) (psz e : Nat) : Res (Unit × List α) := do
  let (n, buf) ← memRepeatLoop (e + 1) buf psz e
  let buf ← (if n < e then memcpyIn buf n 0 (e - n) else .ok buf)
  .ok ((), buf)

/-- `mem_repeat(dest, pattern, pattern_size, num_times)` (/repo/src/c4/memory_util.cpp:8-29) with destination and pattern in the same memory, which begins at address `base`;
`dest` and `pat` are offsets.  `dbg` tells whether assertions are enabled. -/
def memRepeatAt {α : Type} (dbg : Bool) (base : Nat) (mem : List α) (dest pat psz times : Nat) : Res (List α) :=
  if times = 0 then .ok mem
  else do
    let _ ← (if dbg then assertThat (memOverlaps (base + dest) (base + pat) (times * psz % 2 ^ 64) psz = false) else .ok ())
    let mem ← memcpyIn mem dest pat psz
    let (_, mem) ← onSub mem dest (fun buf => memRepeatRest buf psz (times * psz % 2 ^ 64))
    .ok mem

/-- The constructor of `fmt::raw_wrapper_` (/repo/src/c4/format.hpp:404-412) for a blob of `n` bytes at `data`: address, size and alignment. -/
def rawWrapperD (data n al : Nat) : Res (Nat × Nat × Nat) := do
  assertThat (al > 0 ∧ al &&& (al - 1) = 0)
  .ok (data, n, al)

/-- The constructor of `blob_` from a pointer to `n` objects of `size` bytes with alignment `al` (/repo/src/c4/blob.hpp:50): address and size. -/
def blobPtrD (ptr size al n : Nat) : Res (Nat × Nat) := do
  assertThat (isAligned ptr al = true)
  .ok (ptr, size * n % 2 ^ 64)

/-- `_c4_lsb_fallback` (/repo/src/c4/memory_util.hpp:82-87) for an unsigned type: types narrower than `int` are promoted to it, so that `v ^ (v - 1)` of zero is -1, and shifting it gives -1 again (implementation
defined before C++20, what all supported compilers do), which is stored in the narrow type. -/
def lsbFallback (w : W) (v : Nat) : Res Nat :=
  let v1 := if w.bits < 32 then (if v = 0 then 2 ^ w.bits - 1 else ((v ^^^ (v - 1)) >>> 1) % 2 ^ w.bits)
    else (v ^^^ ((v + 2 ^ w.bits - 1) % 2 ^ w.bits)) >>> 1
  lsbLoop (v1 + 1) v1 0

/-- `lsb(v)` with assertions, without intrinsics (/repo/src/c4/memory_util.hpp:96, 122, 149, 174, 199). -/
def lsbD (w : W) (v : Nat) : Res Nat := do
  assertThat (v ≠ 0)
  lsbFallback w v

/-- `msb(v)` with assertions (/repo/src/c4/memory_util.hpp:304, 331, 358, 383, 408). -/
def msbD (w : W) (v : Nat) : Res Nat := do
  assertThat (v ≠ 0)
  .ok (msb w v)

end C4
