import Verif.Alias
import Verif.Substr.Search
/-
catsep and format with views of the container that gets the result among the arguments, and the functions that resize the container: catseprs, catseprs_append, formatrs
and formatrs_append.  Blocks of memory, views and arguments are those of Verif/Alias.lean.
-/
namespace C4.Alias

/-- `buf.len >= num ? buf.sub(num) : substr{}` (/repo/src/c4/format.hpp:672, 675, 730, 823, 826). -/
def restOf (buf : View) (num : Nat) : View := if buf.len ≥ num then ⟨buf.str + num, buf.len - num⟩ else ⟨0, 0⟩

/-- `detail::catsep_more(buf, sep, args...)` (/repo/src/c4/format.hpp:659-678).  Simplification: the sum of the lengths is not taken modulo 2^64. -/
def catsepMore (dbg : Bool) (sep : Arg) (s : Cont) (buf : View) : List Arg → Res (Nat × Cont)
  | [] => .ok (0, s)
  | a :: as => do
    let (n1, s) ← argToChars dbg s buf sep
    let buf := restOf buf n1
    let (n2, s) ← argToChars dbg s buf a
    let buf := restOf buf n2
    let (n3, s) ← catsepMore dbg sep s buf as
    .ok (n1 + n2 + n3, s)

/-- `catsep(buf, sep, args...)` (/repo/src/c4/format.hpp:709-732). -/
def catsep (dbg : Bool) (sep : Arg) (s : Cont) (buf : View) : List Arg → Res (Nat × Cont)
  | [] => .ok (0, s)
  | a :: as => do
    let (num, s) ← argToChars dbg s buf a
    let buf := restOf buf num
    let (n, s) ← catsepMore dbg sep s buf as
    .ok (num + n, s)

/-- `sub(first, num)` of an argument that is a text or a view (/repo/src/c4/substr.hpp:322-336). -/
def Arg.sub (first num : Nat) : Arg → Arg
  | .ext t => .ext ((t.drop first).take num)
  | .own b v => .own b ⟨v.str + first, num⟩

/-- The number of characters of an argument. -/
def Arg.len : Arg → Nat
  | .ext t => t.length
  | .own _ v => v.len

/-- `fmt.find("{}")` (/repo/src/c4/substr.hpp:537-559): no character is read if there are less than two; reading a block that was released is undefined. -/
def findMark (s : Cont) : Arg → Res (Option Nat)
  | .ext t => findS t [123, 125] 0
  | .own b v => if v.len < 2 then .ok none else if b = s.blk then findS ((s.mem.drop v.str).take v.len) [123, 125] 0 else .ub

/-- `format(buf, fmt, args...)` (/repo/src/c4/format.hpp:788-829): the format text is searched again, after each argument, where it is. -/
def format (dbg : Bool) (s : Cont) (buf : View) (fmt : Arg) : List Arg → Res (Nat × Cont)
  | [] => argToChars dbg s buf fmt
  | a :: as => do
    match ← findMark s fmt with
    | none => argToChars dbg s buf fmt
    | some pos =>
      let (n1, s) ← argToChars dbg s buf (fmt.sub 0 pos)
      let buf := restOf buf n1
      let (n2, s) ← argToChars dbg s buf a
      let buf := restOf buf n2
      let (n3, s) ← format dbg s buf (fmt.sub (pos + 2) (fmt.len - (pos + 2))) as
      .ok (n1 + n2 + n3, s)

/-- The loop of `catseprs(&cont, sep, args...)` and `formatrs(&cont, fmt, args...)` (/repo/src/c4/format.hpp:949-958, 1003-1012), `w` being the call of catsep or format. -/
def overwriteWith (grow : Nat → Nat) (w : Cont → View → Res (Nat × Cont)) : Nat → Cont → Res Cont
  | 0, _ => .loop
  | f + 1, s => do
    let len := s.size
    let (ret, s) ← w s ⟨0, len⟩
    let s := s.resize grow ret
    if ret > len then overwriteWith grow w f s else .ok s

/-- The loop of `catseprs_append` and `formatrs_append` (/repo/src/c4/format.hpp:985-990, 1036-1041), `pos` being the size at the beginning. -/
def appendLoop (grow : Nat → Nat) (w : Cont → View → Res (Nat × Cont)) (pos : Nat) : Nat → Cont → Res Cont
  | 0, _ => .loop
  | f + 1, s => do
    let len := s.size - pos
    let (ret, s) ← w s ⟨pos, len⟩
    let s := s.resize grow (pos + ret)
    if ret > len then appendLoop grow w pos f s else .ok s

/-- `catseprs_append`, `formatrs_append` (/repo/src/c4/format.hpp:982-992, 1033-1044): the view returned and the container. -/
def appendWith (grow : Nat → Nat) (w : Cont → View → Res (Nat × Cont)) (f : Nat) (s : Cont) : Res (View × Cont) := do
  let pos := s.size
  let s ← appendLoop grow w pos f s
  .ok (⟨pos, s.size - pos⟩, s)

/-- `catseprs(&cont, sep, args...)` (/repo/src/c4/format.hpp:949-958). -/
def catseprs (dbg : Bool) (grow : Nat → Nat) (sep : Arg) (args : List Arg) : Nat → Cont → Res Cont := overwriteWith grow fun s buf => catsep dbg sep s buf args

/-- `catseprs_append(&cont, sep, args...)` (/repo/src/c4/format.hpp:981-992). -/
def catseprsAppend (dbg : Bool) (grow : Nat → Nat) (sep : Arg) (args : List Arg) : Nat → Cont → Res (View × Cont) := appendWith grow fun s buf => catsep dbg sep s buf args

/-- `formatrs(&cont, fmt, args...)` (/repo/src/c4/format.hpp:1003-1012). -/
def formatrs (dbg : Bool) (grow : Nat → Nat) (fmt : Arg) (args : List Arg) : Nat → Cont → Res Cont := overwriteWith grow fun s buf => format dbg s buf fmt args

/-- `formatrs_append(&cont, fmt, args...)` (/repo/src/c4/format.hpp:1033-1044). -/
def formatrsAppend (dbg : Bool) (grow : Nat → Nat) (fmt : Arg) (args : List Arg) : Nat → Cont → Res (View × Cont) := appendWith grow fun s buf => format dbg s buf fmt args

end C4.Alias
