import Verif.Charconv.Read
import Verif.Charconv.Write
import Verif.Substr.Spans
import Verif.Substr.Compare
/-
Model of the conversions built on atoi/atou/itoa in /repo/src/c4/charconv.hpp (lines 1507-1598 and 2342-2654) and of the string conversions in /repo/src/c4/std/string.hpp, std/vector.hpp and
std/string_view.hpp.
-/
namespace C4

/-- `atoi_first(str, v)` (/repo/src/c4/charconv.hpp:1508-1518): `none` for `npos`, else the number of characters read
and the stored value.  (On failure `*v` may have been written; its value is meaningless.) -/
def atoiFirst (t : ITy) (s : List Nat) : Res (Option (Nat × Int)) := do
  let r ← firstIntSpan s
  if r.2 = 0 then .ok none
  else do
    let (ok, v, _) ← atoi t (Rng.of s r)
    .ok (if ok then some (r.1 + r.2, v) else none)

/-- `atou_first(str, v)` (/repo/src/c4/charconv.hpp:1589-1598). -/
def atouFirst (t : ITy) (s : List Nat) : Res (Option (Nat × Int)) := do
  let r ← firstUintSpan s
  if r.2 = 0 then .ok none
  else do
    let (ok, v, _) ← atou t (Rng.of s r)
    .ok (if ok then some (r.1 + r.2, v) else none)

/-- `to_chars(substr, T*)` (/repo/src/c4/charconv.hpp:2342); `a` is the address as an `intptr_t`. -/
def toCharsPtr (a : Int) (buf : List Nat) : Res (Nat × List Nat) := itoaRadix .w64 a 16 buf

/-- `from_chars(csubstr, T**)` (/repo/src/c4/charconv.hpp:2377). -/
def fromCharsPtr (s : List Nat) : Res (Option Int) := do
  let (ok, v, _) ← atoi ⟨.w64, true⟩ s
  .ok (if ok then some v else none)

/-- `from_chars_first(csubstr, T**)` (/repo/src/c4/charconv.hpp:2405): the result of the inner call is stored in a `bool`
(`npos` becomes `true`), the pointer is assigned if it is true, and the `bool` is returned as a size.  Reading
`tmp` when nothing was stored in it is undefined behaviour. -/
def fromCharsFirstPtr (s : List Nat) : Res (Nat × Option Int) := do
  match ← atoiFirst ⟨.w64, true⟩ s with
  | none => .ub
  | some (n, v) => .ok (if n ≠ 0 then (1, some v) else (0, none))

/-- `to_chars_sub(buf, v)` (/repo/src/c4/charconv.hpp:2426-2431) around a writer: length of the returned view (which
starts at the buffer) and the buffer. -/
def toCharsSub (f : List Nat → Res (Nat × List Nat)) (buf : List Nat) : Res (Nat × List Nat) := do
  let (sz, b) ← f buf
  .ok (if sz ≤ buf.length then sz else buf.length, b)

/-- `to_chars(substr, bool)` (/repo/src/c4/charconv.hpp:2438-2442). -/
def toCharsBool (v : Bool) (buf : List Nat) : Res (Nat × List Nat) := itoa .w32 (if v then 1 else 0) buf

/-- The comparisons `buf == "..."` of `from_chars(bool)`, in order (/repo/src/c4/charconv.hpp:2456-2479). -/
def boolWords : List (List Nat × Bool) :=
  [(S "false", false), (S "true", true), (S "False", false), (S "True", true), (S "FALSE", false), (S "TRUE", true)]

/-- The chain of `else if(buf == word)`; the rest of the chain is a continuation. -/
def matchWords (sgn : Bool) (s : CView) (rest : Res (Option Bool)) : List (List Nat × Bool) → Res (Option Bool)
  | [] => rest
  | (w, v) :: ws => do
    let r ← compareS sgn s ⟨false, w⟩
    if opEq r then .ok (some v) else matchWords sgn s rest ws

/-- `from_chars(csubstr, bool*)` (/repo/src/c4/charconv.hpp:2445-2488); `none` if it returns false.  `sgn` tells if `char` is
signed. -/
def fromCharsBool (sgn : Bool) (s : CView) : Res (Option Bool) := do
  let r0 ← compareC sgn s 48
  if opEq r0 then .ok (some false)
  else do
    let r1 ← compareC sgn s 49
    if opEq r1 then .ok (some true)
    else matchWords sgn s (do
      let (ok, v, _) ← atoi ⟨.w32, true⟩ s.chars
      .ok (if ok then some (v != 0) else none)) boolWords

/-- `from_chars_first(csubstr, bool*)` (/repo/src/c4/charconv.hpp:2490-2497): size and value, `none` for `npos`. -/
def fromCharsFirstBool (sgn : Bool) (s : CView) : Res (Option (Nat × Bool)) := do
  let r ← firstNonEmptySpan s.chars
  if r.2 = 0 then .ok none
  else do
    match ← fromCharsBool sgn s with
    | none => .ok none
    | some b => .ok (some (r.2, b))

/-- `to_chars(substr, char)` (/repo/src/c4/charconv.hpp:2503-2511). -/
def toCharsChar (v : Nat) (buf : List Nat) : Res (Nat × List Nat) :=
  if buf.length > 0 then do
    let b ← wr buf 0 v
    .ok (1, b)
  else .ok (1, buf)

/-- `from_chars(csubstr, char*)` (/repo/src/c4/charconv.hpp:2517-2524). -/
def fromCharsChar (s : List Nat) : Res (Option Nat) :=
  if s.length ≠ 1 then .ok none
  else do
    let c ← rd s 0
    .ok (some c)

/-- `from_chars_first(csubstr, char*)` (/repo/src/c4/charconv.hpp:2527-2533). -/
def fromCharsFirstChar (s : List Nat) : Res (Option (Nat × Nat)) :=
  if s.length < 1 then .ok none
  else do
    let c ← rd s 0
    .ok (some (1, c))

/-- Copy to the start of `buf` as much of `v` as fits: `if(len) memcpy(buf.str, v.str, len)` with `len` the smaller of both
lengths (/repo/src/c4/charconv.hpp:2544-2552, 2582-2591, 2623-2632).  The source is outside the buffer (asserted by
the code). -/
def copyMin (v buf : List Nat) : Res (List Nat) :=
  let len := if buf.length < v.length then buf.length else v.length
  if len ≠ 0 then memcpyTo buf 0 (v.take len) else .ok buf

/-- `to_chars(substr, csubstr)`, `to_chars(substr, substr)` (/repo/src/c4/charconv.hpp:2540-2554, 2578-2593), the overloads for string
literals (2643-2654), and the overloads for `std::string` (std/string.hpp:62-77), `std::vector<char>`
(std/vector.hpp:54-68) and `std::string_view` (std/string_view.hpp:49-66): the same statements. -/
def toCharsStr (v : List Nat) (buf : List Nat) : Res (Nat × List Nat) := do
  let b ← copyMin v buf
  .ok (v.length, b)

/-- `from_chars(csubstr, substr*)` (/repo/src/c4/charconv.hpp:2595-2614): returned bool, contents of the destination memory,
new length of the destination view. -/
def fromCharsSubstr (s dst : List Nat) : Res (Bool × List Nat × Nat) :=
  if dst.length ≥ s.length then do
    let d ← if s.length ≠ 0 then memcpyTo dst 0 s else .ok dst
    .ok (true, d, s.length)
  else .ok (false, dst, dst.length)

/-- `from_chars_first(csubstr, csubstr*)` (/repo/src/c4/charconv.hpp:2564-2571): size read and the selected view. -/
def fromCharsFirstCsubstr (s : List Nat) : Res (Option (Nat × Rng)) := do
  let r ← firstNonEmptySpan s
  .ok (if r.2 = 0 then none else some (r.1 + r.2, r))

/-- `from_chars_first(csubstr, substr*)` (/repo/src/c4/charconv.hpp:2617-2637): size read (`none` for `npos`) and the contents of
the destination memory. -/
def fromCharsFirstSubstr (s dst : List Nat) : Res (Option Nat × List Nat) := do
  let r ← firstNonEmptySpan s
  if r.2 = 0 then .ok (none, dst)
  else do
    let d ← copyMin (Rng.of s r) dst
    .ok (if r.2 > dst.length then none else some (r.1 + r.2), d)

/-- `from_chars(csubstr, std::string*)` and `from_chars(csubstr, std::vector<char>*)` (/repo/src/c4/std/string.hpp:79-93,
std/vector.hpp:70-84): resize the container (new elements are zero) and copy. -/
def fromCharsContainer (s old : List Nat) : Res (List Nat) :=
  let c := old.take s.length ++ List.replicate (s.length - old.length) 0
  if s.length ≠ 0 then memcpyTo c 0 s else .ok c

end C4
