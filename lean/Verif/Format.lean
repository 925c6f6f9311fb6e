import Verif.Charconv.Convert
import Verif.Substr.Search
/-
Model of cat, catsep, format, their inverses and resizing variants, alignment and raw wrappers
(/repo/src/c4/format.hpp, /repo/src/c4/format.cpp).

Simplification: sizes are unbounded naturals (a total text of 2^64 characters or more is not considered).
-/
namespace C4

/-- A call of `to_chars(buf, arg)` for a fixed argument: buffer in, needed size and buffer out. -/
abbrev Writer := List Nat → Res (Nat × List Nat)

/-- The arguments modelled, one constructor per overload of `to_chars`: integers (charconv.hpp:2328-2335), integers with
radix and with radix and padding (format.hpp:288-324), characters, strings, bools, `boolalpha` (format.hpp:86-90),
pointers. -/
inductive Arg where
  | uint (w : W) (v : Nat)
  | int (w : W) (v : Int)
  | uintR (w : W) (v r : Nat)
  | intR (w : W) (v : Int) (r : Nat)
  | uintP (w : W) (v r nd : Nat)
  | intP (w : W) (v : Int) (r nd : Nat)
  | chr (c : Nat)
  | str (s : List Nat)
  | bool (b : Bool)
  | boolalpha (b : Bool)
  | ptr (a : Int)

/-- Overload selection of `to_chars`. -/
def Arg.toChars : Arg → Writer
  | .uint w v => writeDec w v
  | .int w v => itoa w v
  | .uintR w v r => utoaRadix w v r
  | .intR w v r => itoaRadix w v r
  | .uintP w v r nd => utoaRadixPad w v r nd
  | .intP w v r nd => itoaRadixPad w v r nd
  | .chr c => toCharsChar c
  | .str s => toCharsStr s
  | .bool b => toCharsBool b
  | .boolalpha b => toCharsStr (if b then S "true" else S "false")
  | .ptr a => toCharsPtr a

/-- `buf = buf.len >= num ? buf.sub(num) : substr{};` followed by a call on the new `buf`
(/repo/src/c4/format.hpp:596-597, 671-675, 729-730, 822-826). -/
def writeRest (buf : List Nat) (num : Nat) (f : Writer) : Res (Nat × List Nat) :=
  if buf.length ≥ num then onSub buf num f
  else do
    let (n, _) ← f []
    .ok (n, buf)

/-- `cat(buf, args...)` (/repo/src/c4/format.hpp:576-599). -/
def cat : List Writer → Writer
  | [], buf => .ok (0, buf)
  | a :: more, buf => do
    let (num, b) ← a buf
    let (n, b) ← writeRest b num (cat more)
    .ok (num + n, b)

/-- `cat_sub`, `catsep_sub`, `format_sub` (/repo/src/c4/format.hpp:602-608, 736-742, 834-840): length of the returned view. -/
def viewOf (f : Writer) (buf : List Nat) : Res (Nat × List Nat) := do
  let (sz, b) ← f buf
  if sz ≤ buf.length then .ok (sz, b) else .abort

/-- `detail::catsep_more(buf, sep, args...)` (/repo/src/c4/format.hpp:659-678). -/
def catsepMore (sep : Writer) : List Writer → Writer
  | [], buf => .ok (0, buf)
  | a :: more, buf => do
    let (n1, b) ← sep buf
    let (n2, b) ← writeRest b n1 (fun b => do
      let (n, b) ← a b
      let (m, b) ← writeRest b n (catsepMore sep more)
      .ok (n + m, b))
    .ok (n1 + n2, b)

/-- `catsep(buf, sep, args...)` (/repo/src/c4/format.hpp:709-732). -/
def catsep (sep : Writer) : List Writer → Writer
  | [], buf => .ok (0, buf)
  | a :: more, buf => do
    let (num, b) ← a buf
    let (n, b) ← writeRest b num (catsepMore sep more)
    .ok (num + n, b)

/-- `format(buf, fmt, args...)` (/repo/src/c4/format.hpp:790-829). -/
def format (fmt : List Nat) : List Writer → Writer
  | [], buf => toCharsStr fmt buf
  | a :: more, buf => do
    match ← findS fmt [123, 125] 0 with
    | none => toCharsStr fmt buf
    | some pos => do
      let (n1, b) ← toCharsStr (fmt.take pos) buf
      let (n2, b) ← writeRest b n1 (fun b => do
        let (n, b) ← a b
        let (m, b) ← writeRest b n (format (fmt.drop (pos + 2)) more)
        .ok (n + m, b))
      .ok (n1 + n2, b)

/-- `cont->resize(n)`: new elements are zero. -/
def resize (cont : List Nat) (n : Nat) : List Nat := cont.take n ++ List.replicate (n - cont.length) 0

/-- The retry loop of `catrs`, `catseprs`, `formatrs` (/repo/src/c4/format.hpp:896-905, 949-958, 1003-1012), `f` being the
writer; fuel bounds the number of attempts. -/
def writeRs (f : Writer) : Nat → List Nat → Res (List Nat)
  | 0, _ => .loop
  | k+1, cont => do
    let (ret, b) ← f cont
    let c := resize b ret
    if ret > cont.length then writeRs f k c else .ok c

/-- The retry loop of the append variants (/repo/src/c4/format.hpp:927-938, 981-992, 1033-1044): the container afterwards, and
the offset and length of the returned view. -/
def writeRsAppend (f : Writer) (pos : Nat) : Nat → List Nat → Res (List Nat × Nat × Nat)
  | 0, _ => .loop
  | k+1, cont => do
    let (ret, b) ← onSub cont pos f
    let c := resize b (pos + ret)
    if ret > cont.length - pos then writeRsAppend f pos k c else .ok (c, pos, c.length - pos)

/-! ### Reading -/

/-- `from_chars_first` for an integral type (/repo/src/c4/charconv.hpp:2391-2403): unsigned types use `atou_first`, signed types
`atoi_first`. -/
def firstInt (t : ITy) (s : List Nat) : Res (Option (Nat × Int)) :=
  if t.sgn then atoiFirst t s else atouFirst t s

/-- `buf = buf.len >= ret ? buf.sub(ret) : substr{};` for reading. -/
def readRest (buf : List Nat) (n : Nat) : List Nat := if buf.length ≥ n then buf.drop n else []

/-- `uncat(buf, args...)` for integral arguments (/repo/src/c4/format.hpp:621-644): characters read (`none` for npos)
and the values stored. -/
def uncat : List ITy → List Nat → Res (Option (Nat × List Int))
  | [], _ => .ok (some (0, []))
  | t :: ts, buf => do
    match ← firstInt t buf with
    | none => .ok none
    | some (out, v) => do
      match ← uncat ts (readRest buf out) with
      | none => .ok none
      | some (num, vs) => .ok (some (out + num, v :: vs))

/-- `detail::uncatsep_more` with a `char` separator and integral arguments (/repo/src/c4/format.hpp:681-705). -/
def uncatsepMore : List ITy → List Nat → Res (Option (Nat × List Int))
  | [], _ => .ok (some (0, []))
  | t :: ts, buf => do
    match ← fromCharsFirstChar buf with
    | none => .ok none
    | some (n0, _) => do
      let buf := readRest buf n0
      match ← firstInt t buf with
      | none => .ok none
      | some (n1, v) => do
        match ← uncatsepMore ts (readRest buf n1) with
        | none => .ok none
        | some (n2, vs) => .ok (some (n0 + n1 + n2, v :: vs))

/-- `uncatsep(buf, sep, a, more...)` with a `char` separator and integral arguments (/repo/src/c4/format.hpp:766-778). -/
def uncatsep : List ITy → List Nat → Res (Option (Nat × List Int))
  | [], _ => .ok (some (0, []))
  | t :: ts, buf => do
    match ← firstInt t buf with
    | none => .ok none
    | some (n1, v) => do
      match ← uncatsepMore ts (readRest buf n1) with
      | none => .ok none
      | some (n2, vs) => .ok (some (n1 + n2, v :: vs))

/-- `unformat(buf, fmt, args...)` for integral arguments (/repo/src/c4/format.hpp:850-882); arguments without a `{}` are not
assigned. -/
def unformat : List ITy → List Nat → List Nat → Res (Option (Nat × List Int))
  | [], fmt, _ => .ok (some (fmt.length, []))
  | t :: ts, fmt, buf => do
    match ← findS fmt [123, 125] 0 with
    | none => .ok (some (fmt.length, []))
    | some pos => do
      let buf := readRest buf pos
      match ← firstInt t buf with
      | none => .ok none
      | some (num, v) => do
        match ← unformat ts (fmt.drop (pos + 2)) (readRest buf num) with
        | none => .ok none
        | some (n, vs) => .ok (some (pos + num + n, v :: vs))

/-! ### Alignment and raw data -/

/-- `to_chars(buf, fmt::left(v, width, pad))` (/repo/src/c4/format.hpp:544-553).  `first(width)`, whose argument is only checked
by an assertion, and `fill` are the memset. -/
def toCharsLeft (f : Writer) (width pad : Nat) (buf : List Nat) : Res (Nat × List Nat) := do
  let (ret, b) ← f buf
  if ret ≥ buf.length ∨ ret ≥ width then .ok (if ret > width then ret else width, b)
  else do
    let b ← memset b ret pad (width - ret)
    let (_, b) ← f b
    .ok (width, b)

/-- `to_chars(buf, fmt::right(v, width, pad))` (/repo/src/c4/format.hpp:556-566). -/
def toCharsRight (f : Writer) (width pad : Nat) (buf : List Nat) : Res (Nat × List Nat) := do
  let (ret, b) ← f buf
  if ret ≥ buf.length ∨ ret ≥ width then .ok (if ret > width then ret else width, b)
  else do
    let rem := width - ret
    let b ← memset b 0 pad rem
    let (_, b) ← onSub b rem f
    .ok (width, b)

/-- `std::align(alignment, size, ptr, space)` on addresses: the distance to the next multiple of the alignment, if `size`
bytes fit after it (C++ standard, [ptr.align]; trusted). -/
def stdAlign (addr al size space : Nat) : Option Nat :=
  let diff := (al - addr % al) % al
  if diff + size ≤ space then some diff else none

/-- `to_chars(buf, fmt::raw(data, alignment))` (/repo/src/c4/format.cpp:18-36); `addr` is the address of the buffer. -/
def toCharsRaw (addr al : Nat) (data buf : List Nat) : Res (Nat × List Nat) :=
  match stdAlign addr al data.length buf.length with
  | none => .ok (al + data.length, buf)
  | some diff => do
    if diff ≤ buf.length then do
      let sz := diff + data.length
      let b ← if sz ≤ buf.length then memcpyTo buf diff data else .ok buf
      .ok (sz, b)
    else .abort

/-- `from_chars(buf, fmt::raw(data, alignment))` (/repo/src/c4/format.cpp:39-55): the bytes stored in the `n`-byte object. -/
def fromCharsRaw (addr al n : Nat) (buf : List Nat) : Res (List Nat) :=
  match stdAlign addr al n buf.length with
  | none => .abort
  | some diff =>
    if diff ≤ buf.length then
      if diff + n ≤ buf.length then .ok ((buf.drop diff).take n) else .ub
    else .abort

/-- `from_chars_first(buf, fmt::raw(data, alignment))` (/repo/src/c4/format.hpp:479-488): the bool returned by `from_chars`,
converted to a size. -/
def fromCharsFirstRaw (addr al n : Nat) (buf : List Nat) : Res (Nat × List Nat) := do
  let d ← fromCharsRaw addr al n buf
  .ok (1, d)

end C4
