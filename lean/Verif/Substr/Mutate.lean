import Verif.Substr.Search
import Verif.Substr.View
import Verif.Substr.Trim
/-
Model of the content-modification methods of `basic_substring`, /repo/src/c4/substr.hpp:36-45, 1970-2163.
The memory of the view is the list `buf`, with `buf.length = len`.
-/
namespace C4

/-- `detail::_do_reverse` (/repo/src/c4/substr.hpp:36-45).  `lastP` is `last + 1`, so that the position before the
buffer is representable; `fuel` bounds the iterations. -/
def doReverse : Nat → List Nat → Nat → Nat → Res (List Nat)
  | 0, buf, first, lastP => if first + 1 < lastP then .loop else .ok buf
  | f+1, buf, first, lastP =>
    if first + 1 < lastP then do
      let tmp ← rd buf (lastP - 1)
      let x ← rd buf first
      let buf ← wr buf (lastP - 1) x
      let buf ← wr buf first tmp
      doReverse f buf (first + 1) (lastP - 1)
    else .ok buf

/-- `reverse()` (/repo/src/c4/substr.hpp:2029-2033). -/
def reverse (fuel : Nat) (buf : List Nat) : Res (List Nat) :=
  if buf.length = 0 then .ok buf else doReverse fuel buf 0 buf.length

/-- `reverse_sub(ifirst, num)` (/repo/src/c4/substr.hpp:2037-2043). -/
def reverseSub (fuel : Nat) (buf : List Nat) (ifirst num : Nat) : Res (List Nat) :=
  if num = 0 then .ok buf else doReverse fuel buf ifirst (ifirst + num)

/-- `reverse_range(ifirst, ilast)` (/repo/src/c4/substr.hpp:2047-2053). -/
def reverseRange (fuel : Nat) (buf : List Nat) (ifirst ilast : Nat) : Res (List Nat) :=
  if ifirst = ilast then .ok buf else doReverse fuel buf ifirst ilast

/-- `erase(pos, num)` (/repo/src/c4/substr.hpp:2060-2066): the buffer and the length of the returned view. -/
def erase (buf : List Nat) (pos num : Nat) : Res (List Nat × Nat) := do
  let numToMove := szSub (szSub buf.length pos) num
  let b ← memmove buf pos (pos + num) numToMove
  .ok (b, szSub buf.length num)

/-- `erase_range(first, last)` (/repo/src/c4/substr.hpp:2069-2073). -/
def eraseRange (buf : List Nat) (first last : Nat) : Res (List Nat × Nat) := erase buf first (szSub last first)

/-- `erase(sub)` for a sub-view of this string at offset `r.1` (/repo/src/c4/substr.hpp:2078-2083). -/
def eraseSub (buf : List Nat) (r : Rng) : Res (List Nat × Nat) := erase buf r.1 r.2

/-- `replace(C value, C repl, size_t pos)` (/repo/src/c4/substr.hpp:2090-2100). -/
def replaceC (value repl : Nat) : Nat → List Nat → Nat → Nat → Res (List Nat × Nat)
  | 0, _, _, _ => .loop
  | f+1, buf, pos, did => do
    match ← findC buf value pos with
    | none => .ok (buf, did)
    | some p => do
      let buf ← wr buf p repl
      replaceC value repl f buf (p + 1) (did + 1)

/-- `replace(ro_substr chars, C repl, size_t pos)` (/repo/src/c4/substr.hpp:2106-2116); `chars` outside the
buffer. -/
def replaceSet (chars : List Nat) (repl : Nat) : Nat → List Nat → Nat → Nat → Res (List Nat × Nat)
  | 0, _, _, _ => .loop
  | f+1, buf, pos, did => do
    match ← firstOfSet buf chars pos with
    | none => .ok (buf, did)
    | some p => do
      let buf ← wr buf p repl
      replaceSet chars repl f buf (p + 1) (did + 1)

/-- The macro `_c4append(first, last)` of `replace_all` (/repo/src/c4/substr.hpp:2136-2144) for pointers into `src`
at offsets `first`, `last`; the state is `(sz, dst)`.  Offsets and sizes are `size_t`. -/
def appendChunk (src : List Nat) (first last : Nat) (st : Nat × List Nat) : Res (Nat × List Nat) := do
  let num := szSub last first
  let dst ←
    if num > 0 ∧ (st.1 + num) % 2^64 ≤ st.2.length then
      if first + num ≤ src.length then memcpyTo st.2 st.1 ((src.drop first).take num) else .ub
    else .ok st.2
  .ok ((st.1 + num) % 2^64, dst)

/-- The do-while loop of `replace_all` (/repo/src/c4/substr.hpp:2148-2158). -/
def replaceAllLoop (s pattern repl : List Nat) : Nat → Nat → Nat × List Nat → Res (Nat × List Nat)
  | 0, _, _ => .loop
  | f+1, b, st => do
    match ← findS s pattern b with
    | none => appendChunk s b s.length st
    | some e => do
      let st ← appendChunk s b e st
      let st ← appendChunk repl 0 repl.length st
      let b' := e + pattern.length
      if b' < s.length then replaceAllLoop s pattern repl f b' st else .ok st

/-- `replace_all(dst, pattern, repl, pos)` (/repo/src/c4/substr.hpp:2124-2163); the assertions that nothing overlaps
`dst` are built in.  Result: the returned size and the contents of `dst`. -/
def replaceAll (fuel : Nat) (s dst pattern repl : List Nat) (pos : Nat) : Res (Nat × List Nat) := do
  let st ← appendChunk s 0 pos (0, dst)
  replaceAllLoop s pattern repl fuel pos st

/-- `::toupper(c)` for a `char` converted to `int`, in the "C" locale.  The C standard leaves it undefined unless the
argument is a value of `unsigned char` or `EOF` (-1); so with a signed `char` the bytes 128..254 are undefined
and the byte 255 is `EOF`, returned unchanged. -/
def cToupper (signedChar : Bool) (c : Nat) : Res Nat :=
  if signedChar && decide (128 ≤ c) && decide (c < 255) then .ub
  else .ok (if 97 ≤ c ∧ c ≤ 122 then c - 32 else c)

/-- `::tolower(c)`, see `cToupper`. -/
def cTolower (signedChar : Bool) (c : Nat) : Res Nat :=
  if signedChar && decide (128 ≤ c) && decide (c < 255) then .ub
  else .ok (if 65 ≤ c ∧ c ≤ 90 then c + 32 else c)

/-- `for(size_t i = 0; i < len; ++i) str[i] = f(str[i]);`, `n` iterations from `i`. -/
def mapInPlace (f : Nat → Res Nat) : Nat → Nat → List Nat → Res (List Nat)
  | 0, _, buf => .ok buf
  | n+1, i, buf => do
    let c ← rd buf i
    let c' ← f c
    let buf ← wr buf i c'
    mapInPlace f n (i + 1) buf

/-- `toupper()` (/repo/src/c4/substr.hpp:1978-1984). -/
def toupper (signedChar : Bool) (buf : List Nat) : Res (List Nat) :=
  mapInPlace (cToupper signedChar) buf.length 0 buf

/-- `tolower()` (/repo/src/c4/substr.hpp:1988-1994). -/
def tolower (signedChar : Bool) (buf : List Nat) : Res (List Nat) :=
  mapInPlace (cTolower signedChar) buf.length 0 buf

/-- The loop of `fill(val)` (/repo/src/c4/substr.hpp:2002-2005), `n` iterations from `i`. -/
def fillLoop (val : Nat) : Nat → Nat → List Nat → Res (List Nat)
  | 0, _, buf => .ok buf
  | n+1, i, buf => do
    let buf ← wr buf i val
    fillLoop val n (i + 1) buf

/-- `fill(val)` (/repo/src/c4/substr.hpp:2000-2006). -/
def fill (buf : List Nat) (val : Nat) : Res (List Nat) := fillLoop val buf.length 0 buf

/-- `copy_from(that, ifirst, num)` (/repo/src/c4/substr.hpp:2012-2023); `none` is `npos`; `that` outside the
buffer. -/
def copyFrom (buf that : List Nat) (ifirst : Nat) (num : Option Nat) : Res (List Nat) :=
  let num := match num with
    | some n => n
    | none => szSub buf.length ifirst
  let num := if num < that.length then num else that.length
  if num ≠ 0 then memcpyTo buf ifirst (that.take num) else .ok buf

end C4
