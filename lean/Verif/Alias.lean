import Verif.MemUtil
import Verif.Substr.View
import Verif.Substr.Spans
import Verif.SpanAssert
/-
Conversions of text whose source and destination are views of the same memory: to_chars and from_chars of views, from_chars to a container from a view of
that container, and catrs and catrs_append of views of the container itself.  `dbg` tells if the assertions are enabled.

A view (`View`) has here the index of its first character in the memory; the null pointer of an empty view is index 0.
-/
namespace C4.Alias

/-- `C4_ASSERT(c)`: nothing if assertions are disabled (/repo/src/c4/error.hpp:262-272). -/
def check (dbg : Bool) (c : Prop) [Decidable c] : Res Unit := if dbg then assertThat c else .ok ()

/-- `to_chars(substr, csubstr)` and `to_chars(substr, substr)` (/repo/src/c4/charconv.hpp:2541-2556, 2579-2594), and those of `std::string` and
`std::vector<char>` with the characters of the container (std/string.hpp:63-77, std/vector.hpp:55-68): the number returned and the memory. -/
def toChars (dbg : Bool) (m : List Nat) (buf v : View) : Res (Nat × List Nat) := do
  check dbg (!buf.overlaps v)
  let len := if buf.len < v.len then buf.len else v.len
  let m ← memcpyIn m buf.str v.str len
  .ok (v.len, m)

/-- `from_chars(csubstr, substr*)` (/repo/src/c4/charconv.hpp:2597-2615): what it returns, the view and the memory afterwards. -/
def fromChars (dbg : Bool) (m : List Nat) (buf v : View) : Res (Bool × View × List Nat) := do
  check dbg (!buf.overlaps v)
  if v.len ≥ buf.len then do
    let m ← memcpyIn m v.str buf.str buf.len
    .ok (true, ⟨v.str, buf.len⟩, m)
  else .ok (false, v, m)

/-- `from_chars_first(csubstr, substr*)` (/repo/src/c4/charconv.hpp:2618-2637): what it returns (`none` for `npos`) and the memory afterwards. -/
def fromCharsFirst (dbg : Bool) (m : List Nat) (buf v : View) : Res (Option Nat × List Nat) := do
  let r ← firstNonEmptySpan ((m.drop buf.str).take buf.len)
  let trimmed : View := ⟨buf.str + r.1, r.2⟩
  check dbg (!trimmed.overlaps v)
  if trimmed.len = 0 then .ok (none, m)
  else do
    let len := if trimmed.len > v.len then v.len else trimmed.len
    let m ← memcpyIn m v.str trimmed.str len
    if trimmed.len > v.len then .ok (none, m) else .ok (some (trimmed.str + trimmed.len - buf.str), m)

/-! ### Containers -/

/-- A `std::string` (`term`: with a terminator after its characters) or `std::vector<char>`: the block of memory it has, named by a number, and its size. -/
structure Cont where
  term : Bool
  blk : Nat
  mem : List Nat
  size : Nat
  deriving DecidableEq, Repr

/-- `capacity()`. -/
def Cont.cap (s : Cont) : Nat := s.mem.length - s.term.toNat

/-- `resize(n)` of the container (C++ standard, [string.capacity] and [vector.capacity]; trusted): in place if the capacity suffices, with zeros for new characters and
the terminator of a string after the last; otherwise in a new block, the old one being released.  `grow n` is the capacity asked for then.
Simplifications: the rest of a new block is zero; nothing else is written when the size shrinks. -/
def Cont.resize (grow : Nat → Nat) (s : Cont) (n : Nat) : Cont :=
  if n ≤ s.cap then
    let m := if n > s.size then s.mem.take s.size ++ List.replicate (n - s.size) 0 ++ s.mem.drop n else s.mem
    { s with mem := if s.term then m.set n 0 else m, size := n }
  else { s with blk := s.blk + 1, mem := s.mem.take s.size ++ List.replicate (max n (grow n) - s.size + s.term.toNat) 0, size := n }

/-- `from_chars(csubstr, std::string*)` and `from_chars(csubstr, std::vector<char>*)` (/repo/src/c4/std/string.hpp:80-93, std/vector.hpp:72-84) with a view of the
container itself, which is resized first.  Simplification: what is in the block after the last character can be read. -/
def fromCharsCont (dbg : Bool) (grow : Nat → Nat) (s : Cont) (buf : View) : Res Cont := do
  let s := s.resize grow buf.len
  check dbg (!buf.overlaps ⟨0, s.size⟩)
  let m ← memcpyIn s.mem 0 buf.str buf.len
  .ok { s with mem := m }

/-- An argument of catrs: a text elsewhere, or a view of block `b`. -/
inductive Arg where
  | ext (t : List Nat)
  | own (b : Nat) (v : View)
  deriving DecidableEq, Repr

/-- `to_chars(buf, arg)` with the destination in the container (/repo/src/c4/charconv.hpp:2541-2556).  Copying from a block that was released is undefined. -/
def argToChars (dbg : Bool) (s : Cont) (buf : View) : Arg → Res (Nat × Cont)
  | .ext t => do
    let m ← memcpyTo s.mem buf.str (t.take (if buf.len < t.length then buf.len else t.length))
    .ok (t.length, { s with mem := m })
  | .own b v =>
    if b = s.blk then do
      let (n, m) ← toChars dbg s.mem buf v
      .ok (n, { s with mem := m })
    else if (if buf.len < v.len then buf.len else v.len) ≠ 0 then .ub
    else .ok (v.len, s)

/-- `cat(buf, args...)` (/repo/src/c4/format.hpp:578-599) with the destination in the container.  Simplification: the sum of the lengths is not taken modulo 2^64. -/
def cat (dbg : Bool) (s : Cont) (buf : View) : List Arg → Res (Nat × Cont)
  | [] => .ok (0, s)
  | a :: as => do
    let (num, s) ← argToChars dbg s buf a
    let buf : View := if buf.len ≥ num then ⟨buf.str + num, buf.len - num⟩ else ⟨0, 0⟩
    let (n, s) ← cat dbg s buf as
    .ok (num + n, s)

/-- `catrs(&cont, args...)` (/repo/src/c4/format.hpp:896-905). -/
def catrs (dbg : Bool) (grow : Nat → Nat) (args : List Arg) : Nat → Cont → Res Cont
  | 0, _ => .loop
  | f + 1, s => do
    let len := s.size
    let (ret, s) ← cat dbg s ⟨0, len⟩ args
    let s := s.resize grow ret
    if ret > len then catrs dbg grow args f s else .ok s

/-- The loop of `catrs_append(&cont, args...)` (/repo/src/c4/format.hpp:930-936), `pos` being the size at the beginning. -/
def catrsAppendLoop (dbg : Bool) (grow : Nat → Nat) (args : List Arg) (pos : Nat) : Nat → Cont → Res Cont
  | 0, _ => .loop
  | f + 1, s => do
    let len := s.size - pos
    let (ret, s) ← cat dbg s ⟨pos, len⟩ args
    let s := s.resize grow (pos + ret)
    if ret > len then catrsAppendLoop dbg grow args pos f s else .ok s

/-- `catrs_append(&cont, args...)` (/repo/src/c4/format.hpp:927-938): the container and the view returned. -/
def catrsAppend (dbg : Bool) (grow : Nat → Nat) (args : List Arg) (f : Nat) (s : Cont) : Res (View × Cont) := do
  let pos := s.size
  let s ← catrsAppendLoop dbg grow args pos f s
  .ok (⟨pos, s.size - pos⟩, s)

end C4.Alias
