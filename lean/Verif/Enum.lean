import Verif.Format
/-
Model of /repo/src/c4/enum.hpp and bitmask.hpp.

C strings are lists of non-zero characters; the terminator follows the last one.  Enum values and bitmasks are bit patterns of
the underlying type, i.e. numbers below 2^width.
-/
namespace C4

/-- `EnumOffsetType` (/repo/src/c4/enum.hpp:24-29). -/
inductive EOff where
  | none | cls | pfx
deriving DecidableEq, Repr

/-- A symbol: value and name (/repo/src/c4/enum.hpp:43-46). -/
structure ESym where
  value : Nat
  name : List Nat
deriving DecidableEq, Repr

/-- What is specialized for an enum type: `esyms`, `eoffs_cls`, `eoffs_pfx` (/repo/src/c4/enum.hpp:90-123). -/
structure ETab where
  syms : List ESym
  cls : Nat
  pfx : Nat
deriving DecidableEq, Repr

/-- `eoffs<Enum>(which)` (/repo/src/c4/enum.hpp:126-143). -/
def eoffs (t : ETab) : EOff → Nat
  | .none => 0
  | .cls => t.cls
  | .pfx => if t.pfx > 0 then t.pfx else t.cls

/-- `name + o` for a C string: beyond the terminator it is undefined. -/
def strAt (name : List Nat) (o : Nat) : Res (List Nat) := if o ≤ name.length then .ok (name.drop o) else .ub

/-- `strcmp(a, b) == 0` (trusted libc). -/
def strEq (a b : List Nat) : Bool := decide (a = b)

/-- `strncmp(a, s, n) == 0` (trusted libc) for a C string `a`, and a character array `s`: the first differing character or
terminator decides.  Reading beyond `s` is undefined. -/
def strnEq : List Nat → List Nat → Nat → Res Bool
  | _, _, 0 => .ok true
  | _, [], _ + 1 => .ub
  | [], c :: _, _ + 1 => .ok (decide (c = 0))
  | a :: as, c :: cs, n + 1 => if a = c then strnEq as cs n else .ok false

/-- The loop over the offsets in `Sym::cmp(s)` (/repo/src/c4/enum.hpp:229-235). -/
def cmpLoop (t : ETab) (name s : List Nat) : List EOff → Res Bool
  | [] => .ok false
  | e :: es =>
    let o := eoffs t e
    if o > 0 then do
      let n ← strAt name o
      if strEq n s then .ok true else cmpLoop t name s es
    else cmpLoop t name s es

/-- `Sym::cmp(s)` (/repo/src/c4/enum.hpp:223-238). -/
def symCmp (t : ETab) (name s : List Nat) : Res Bool :=
  if strEq name s then .ok true else cmpLoop t name s [.cls, .pfx]

/-- The loop over the offsets in `Sym::cmp(s, len)` (/repo/src/c4/enum.hpp:246-262); `s` has `len` characters. -/
def cmpLenLoop (t : ETab) (name s : List Nat) : List EOff → Res Bool
  | [] => .ok false
  | e :: es =>
    let o := eoffs t e
    if o > 0 then do
      let rem := name.length - o
      let m := if s.length > rem then s.length else rem
      let r ← if s.length ≥ m then (do let n ← strAt name o; strnEq n s m) else .ok false
      if r then .ok true else cmpLenLoop t name s es
    else cmpLenLoop t name s es

/-- `Sym::cmp(s, len)` (/repo/src/c4/enum.hpp:240-265). -/
def symCmpLen (t : ETab) (name s : List Nat) : Res Bool := do
  if ← strnEq name s s.length then .ok true else cmpLenLoop t name s [.cls, .pfx]

/-- `find(v)` (/repo/src/c4/enum.hpp:193-200). -/
def findVal (v : Nat) : List ESym → Option ESym
  | [] => none
  | p :: ps => if p.value = v then some p else findVal v ps

/-- The search loop of `find(s)` and `find(s, len)` (/repo/src/c4/enum.hpp:203-220). -/
def findSym (cmp : List Nat → Res Bool) : List ESym → Res (Option ESym)
  | [] => .ok none
  | p :: ps => do if ← cmp p.name then .ok (some p) else findSym cmp ps

/-- `find(s)` (/repo/src/c4/enum.hpp:203-210). -/
def findName (t : ETab) (s : List Nat) : Res (Option ESym) := findSym (fun n => symCmp t n s) t.syms

/-- `find(s, len)` (/repo/src/c4/enum.hpp:213-220). -/
def findNameLen (t : ETab) (s : List Nat) : Res (Option ESym) := findSym (fun n => symCmpLen t n s) t.syms

/-- `get(...)`: nothing found is an error (/repo/src/c4/enum.hpp:64-66). -/
def getSym (r : Option ESym) : Res ESym :=
  match r with
  | none => .abort
  | some p => .ok p

/-- `str2e(str)` (/repo/src/c4/enum.hpp:158-165). -/
def str2e (t : ETab) (s : List Nat) : Res Nat := do
  let p ← getSym (← findName t s)
  .ok p.value

/-- `e2str(e)` (/repo/src/c4/enum.hpp:168-175). -/
def e2str (t : ETab) (v : Nat) : Res (List Nat) := do
  let p ← getSym (findVal v t.syms)
  .ok p.name

/-- `e2stroffs(e, ot)` (/repo/src/c4/enum.hpp:178-183). -/
def e2stroffs (t : ETab) (v : Nat) (ot : EOff) : Res (List Nat) := do
  let s ← e2str t v
  strAt s (eoffs t ot)

/-! ### Bitmasks -/

/-- `~b` in the underlying type of `w` bits. -/
def bitNot (w b : Nat) : Nat := 2 ^ w - 1 - b

/-- `_c4prependchars` (/repo/src/c4/bitmask.hpp:101-114), writing `txt`.  `none` is the null pointer. -/
def prependChars (str : Option (List Nat)) (pos : Nat) (txt : List Nat) : Res (Option (List Nat) × Nat) :=
  match str with
  | none => .ok (none, pos + txt.length)
  | some b =>
    if pos + txt.length ≤ b.length then do
      let b ← memmove b txt.length 0 pos
      let b ← memcpyTo b 0 txt
      .ok (some b, pos + txt.length)
    else if b.length ≠ 0 then .abort
    else .ok (some b, pos + txt.length)

/-- `_c4appendchars(str[pos] = '\0', 1)` (/repo/src/c4/bitmask.hpp:118-128, 191). -/
def appendNul (str : Option (List Nat)) (pos : Nat) : Res (Option (List Nat) × Nat) :=
  match str with
  | none => .ok (none, pos + 1)
  | some b =>
    if pos + 1 ≤ b.length then do
      let b ← wr b pos 0
      .ok (some b, pos + 1)
    else if b.length ≠ 0 then .abort
    else .ok (some b, pos + 1)

/-- The loop of `bm2str` (/repo/src/c4/bitmask.hpp:154-175) over the symbols from the last to the first. -/
def bmLoop (t : ETab) (w : Nat) (ot : EOff) : List ESym → Nat → Option ESym → Option (List Nat) → Nat →
    Res (Nat × Option ESym × Option (List Nat) × Nat)
  | [], bits, zero, str, pos => .ok (bits, zero, str, pos)
  | p :: ps, bits, zero, str, pos =>
    if p.value = 0 then bmLoop t w ot ps bits (some p) str pos
    else if bits &&& p.value = p.value then do
      let bits := bits &&& bitNot w p.value
      let (str, pos) ← if pos > 0 then prependChars str pos [124] else .ok (str, pos)
      let n ← strAt p.name (eoffs t ot)
      let (str, pos) ← prependChars str pos n
      bmLoop t w ot ps bits zero str pos
    else bmLoop t w ot ps bits zero str pos

/-- `bm2str(bits, str, sz, offst)` (/repo/src/c4/bitmask.hpp:136-194): the returned size and the buffer. -/
def bm2str (t : ETab) (w : Nat) (ot : EOff) (bits : Nat) (str : Option (List Nat)) : Res (Nat × Option (List Nat)) := do
  let (bits, zero, str, pos) ← bmLoop t w ot t.syms.reverse bits none str 0
  if bits ≠ 0 then .abort
  else do
    let (str, pos) ← if pos = 0 then
        (match zero with
        | some z => do
          let n ← strAt z.name (eoffs t ot)
          prependChars str pos n
        | none => prependChars str pos [48])
      else .ok (str, pos)
    let (str, pos) ← appendNul str pos
    .ok (pos, str)

/-- The loop of `bm2stream` for a non-zero value (/repo/src/c4/bitmask.hpp:47-58): the characters sent, last symbol first. -/
def streamLoop (t : ETab) (w : Nat) (ot : EOff) : List ESym → Nat → Bool → Res (List Nat)
  | [], _, _ => .ok []
  | p :: ps, bits, written =>
    if p.value ≠ 0 ∧ bits &&& p.value = p.value then do
      let n ← strAt p.name (eoffs t ot)
      let more ← streamLoop t w ot ps (bits &&& bitNot w p.value) true
      .ok ((if written then [124] else []) ++ n ++ more)
    else streamLoop t w ot ps bits written

/-- The loop of `bm2stream` for zero (/repo/src/c4/bitmask.hpp:64-79). -/
def streamZero (t : ETab) (ot : EOff) : List ESym → Res (List Nat)
  | [] => .ok [48]
  | p :: ps => if p.value = 0 then strAt p.name (eoffs t ot) else streamZero t ot ps

/-- `bm2stream(s, bits, offst)` (/repo/src/c4/bitmask.hpp:34-81): the characters sent to the stream. -/
def bm2stream (t : ETab) (w : Nat) (ot : EOff) (bits : Nat) : Res (List Nat) :=
  if bits ≠ 0 then streamLoop t w ot t.syms.reverse bits false else streamZero t ot t.syms.reverse

/-- `detail::str2bm_read_one(str, sz, alnum)` (/repo/src/c4/bitmask.hpp:233-248), `ty` being the underlying type. -/
def str2bmReadOne (t : ETab) (ty : ITy) (s : List Nat) (alnum : Bool) : Res Nat :=
  if alnum then do
    let p ← getSym (← findNameLen t s)
    .ok p.value
  else do
    match ← uncat [ty] s with
    | some (_, [v]) => .ok (v % 2 ^ ty.w.bits).toNat
    | _ => .abort

/-- The state of the loop of `str2bm` (/repo/src/c4/bitmask.hpp:263-266). -/
structure BmState where
  val : Nat := 0
  started : Bool := false
  alnum : Bool := false
  num : Bool := false
  f : Option Nat := none
deriving DecidableEq, Repr

/-- `str2bm_read_one(f, pc - f, alnum)`: with `f` null the pointer difference is undefined. -/
def bmRead (t : ETab) (ty : ITy) (s : List Nat) (st : BmState) (pc : Nat) : Res Nat :=
  match st.f with
  | none => .ub
  | some f => str2bmReadOne t ty ((s.drop f).take (pc - f)) st.alnum

/-- `(pc - f) == 1`: with `f` null the difference is undefined (not reached: `num` implies that `f` is set). -/
def bmAtOne (st : BmState) (pc : Nat) : Bool :=
  match st.f with
  | none => false
  | some f => decide (pc - f = 1)

/-- The loop of `str2bm` (/repo/src/c4/bitmask.hpp:267-316): `rest` are the characters of `s` from position `pc` on. -/
def str2bmLoop (t : ETab) (ty : ITy) (s : List Nat) : List Nat → Nat → BmState → Res Nat
  | [], pc, st =>
    match st.f with
    | none => .ok st.val
    | some _ => do
      let v ← bmRead t ty s st pc
      .ok (st.val ||| v)
  | c :: rest, pc, st =>
    if (97 ≤ c ∧ c ≤ 122) ∨ (65 ≤ c ∧ c ≤ 90) ∨ c = 95 then
      if st.num = false ∨ (bmAtOne st pc = true ∧ (c = 120 ∨ c = 88)) then
        str2bmLoop t ty s rest (pc + 1)
          (if st.started then st else { st with f := some pc, alnum := true, started := true })
      else .abort
    else if 48 ≤ c ∧ c ≤ 57 then
      if st.alnum then .abort
      else str2bmLoop t ty s rest (pc + 1)
          (if st.started then st else { st with f := some pc, num := true, started := true })
    else if c = 58 ∨ c = 32 then str2bmLoop t ty s rest (pc + 1) st
    else if c = 124 ∨ c = 0 then do
      let v ← bmRead t ty s st pc
      let st := { st with val := st.val ||| v, started := false, num := false, alnum := false }
      if c = 0 then .ok st.val else str2bmLoop t ty s rest (pc + 1) st
    else .abort

/-- `str2bm(str, sz)` (/repo/src/c4/bitmask.hpp:258-317). -/
def str2bm (t : ETab) (ty : ITy) (s : List Nat) : Res Nat := str2bmLoop t ty s s 0 {}

end C4
