import Verif.Enum
import Verif.Debug.Read
/-
Model of enum symbols and bitmasks in builds with assertions (/repo/src/c4/enum.hpp:240-275, bitmask.hpp:34-317): the functions of `Enum.lean` with
the assertions of their own and of the reading of integers.
-/
namespace C4

/-- `name_offs(t)` (/repo/src/c4/enum.hpp:269-273). -/
def nameOffsD (t : ETab) (name : List Nat) (ot : EOff) : Res (List Nat) := do
  assertThat (eoffs t ot < name.length)
  strAt name (eoffs t ot)

/-- The loop over the offsets in `Sym::cmp(s, len)` (/repo/src/c4/enum.hpp:246-262). -/
def cmpLenLoopD (t : ETab) (name s : List Nat) : List EOff → Res Bool
  | [] => .ok false
  | e :: es =>
    let o := eoffs t e
    if o > 0 then do
      assertThat (o < name.length)
      let rem := name.length - o
      let m := if s.length > rem then s.length else rem
      let r ← if s.length ≥ m then (do let n ← strAt name o; strnEq n s m) else .ok false
      if r then .ok true else cmpLenLoopD t name s es
    else cmpLenLoopD t name s es

/-- `Sym::cmp(s, len)` (/repo/src/c4/enum.hpp:240-265). -/
def symCmpLenD (t : ETab) (name s : List Nat) : Res Bool := do
  if ← strnEq name s s.length then .ok true else cmpLenLoopD t name s [.cls, .pfx]

/-- `find(s, len)` (/repo/src/c4/enum.hpp:213-220). -/
def findNameLenD (t : ETab) (s : List Nat) : Res (Option ESym) := findSym (fun n => symCmpLenD t n s) t.syms

/-- The loop of `bm2str` (/repo/src/c4/bitmask.hpp:154-175). -/
def bmLoopD (t : ETab) (w : Nat) (ot : EOff) : List ESym → Nat → Option ESym → Option (List Nat) → Nat →
    Res (Nat × Option ESym × Option (List Nat) × Nat)
  | [], bits, zero, str, pos => .ok (bits, zero, str, pos)
  | p :: ps, bits, zero, str, pos =>
    if p.value = 0 then bmLoopD t w ot ps bits (some p) str pos
    else if bits &&& p.value = p.value then do
      let bits := bits &&& bitNot w p.value
      let (str, pos) ← if pos > 0 then prependChars str pos [124] else .ok (str, pos)
      let n ← nameOffsD t p.name ot
      let (str, pos) ← prependChars str pos n
      bmLoopD t w ot ps bits zero str pos
    else bmLoopD t w ot ps bits zero str pos

/-- `bm2str(bits, str, sz, offst)` (/repo/src/c4/bitmask.hpp:136-194). -/
def bm2strD (t : ETab) (w : Nat) (ot : EOff) (bits : Nat) (str : Option (List Nat)) : Res (Nat × Option (List Nat)) := do
  assertThat (str ≠ some [])
  let (bits, zero, str, pos) ← bmLoopD t w ot t.syms.reverse bits none str 0
  if bits ≠ 0 then .abort
  else do
    let (str, pos) ← if pos = 0 then
        (match zero with
        | some z => do
          let n ← nameOffsD t z.name ot
          prependChars str pos n
        | none => prependChars str pos [48])
      else .ok (str, pos)
    let (str, pos) ← appendNul str pos
    .ok (pos, str)

/-- `uncat(csubstr(str, sz), tmp)` for one integer (/repo/src/c4/format.hpp:621-644), with the assertions of `atoi_first` and `atou_first`. -/
def firstIntD (t : ITy) (s : List Nat) : Res (Option (Nat × Int)) :=
  if t.sgn then atoiFirstD t s else atouFirstD t s

/-- `detail::str2bm_read_one(str, sz, alnum)` (/repo/src/c4/bitmask.hpp:233-248). -/
def str2bmReadOneD (t : ETab) (ty : ITy) (s : List Nat) (alnum : Bool) : Res Nat :=
  if alnum then do
    let p ← getSym (← findNameLenD t s)
    .ok p.value
  else do
    match ← firstIntD ty s with
    | some (_, v) => .ok (v % 2 ^ ty.w.bits).toNat
    | none => .abort

/-- `C4_ASSERT(num != alnum); C4_ASSERT(pc >= f);` and `str2bm_read_one(f, pc - f, alnum)` (/repo/src/c4/bitmask.hpp:294-296, 311-313).  Comparing with
a null `f` is true. -/
def bmReadD (t : ETab) (ty : ITy) (s : List Nat) (st : BmState) (pc : Nat) : Res Nat := do
  assertThat (st.num ≠ st.alnum)
  match st.f with
  | none => .ub
  | some f => do
    assertThat (pc ≥ f)
    str2bmReadOneD t ty ((s.drop f).take (pc - f)) st.alnum

/-- The loop of `str2bm` (/repo/src/c4/bitmask.hpp:267-316). -/
def str2bmLoopD (t : ETab) (ty : ITy) (s : List Nat) : List Nat → Nat → BmState → Res Nat
  | [], pc, st =>
    match st.f with
    | none => .ok st.val
    | some _ => do
      let v ← bmReadD t ty s st pc
      .ok (st.val ||| v)
  | c :: rest, pc, st =>
    if (97 ≤ c ∧ c ≤ 122) ∨ (65 ≤ c ∧ c ≤ 90) ∨ c = 95 then
      if st.num = false ∨ (bmAtOne st pc = true ∧ (c = 120 ∨ c = 88)) then
        str2bmLoopD t ty s rest (pc + 1)
          (if st.started then st else { st with f := some pc, alnum := true, started := true })
      else .abort
    else if 48 ≤ c ∧ c ≤ 57 then
      if st.alnum then .abort
      else str2bmLoopD t ty s rest (pc + 1)
          (if st.started then st else { st with f := some pc, num := true, started := true })
    else if c = 58 ∨ c = 32 then str2bmLoopD t ty s rest (pc + 1) st
    else if c = 124 ∨ c = 0 then do
      let v ← bmReadD t ty s st pc
      let st := { st with val := st.val ||| v, started := false, num := false, alnum := false }
      if c = 0 then .ok st.val else str2bmLoopD t ty s rest (pc + 1) st
    else .abort

/-- `str2bm(str, sz)` (/repo/src/c4/bitmask.hpp:258-317). -/
def str2bmD (t : ETab) (ty : ITy) (s : List Nat) : Res Nat := str2bmLoopD t ty s s 0 {}

end C4
