import Verif.Substr.Search
/-
Model of trimming, stripping, prefix/suffix tests and delimited ranges of `basic_substring`
(/repo/src/c4/substr.hpp:443-524, 667-781, 979-1057).
A result view is given as `(offset, length)` relative to the argument.
-/
namespace C4

/-- A sub-view of a string: offset and length. -/
abbrev Rng := Nat × Nat

/-- Contents of a sub-view. -/
def Rng.of (s : List Nat) (r : Rng) : List Nat := (s.drop r.1).take r.2

/-- `triml(C c)` (/repo/src/c4/substr.hpp:449-458). -/
def triml (s : List Nat) (c : Nat) : Res Rng :=
  if s.length ≠ 0 then do
    match ← firstNotOf s c 0 with
    | some pos => .ok (pos, s.length - pos)
    | none => .ok (0, 0)
  else .ok (0, 0)

/-- `triml(ro_substr chars)` (/repo/src/c4/substr.hpp:461-470). -/
def trimlSet (s chars : List Nat) : Res Rng :=
  if s.length ≠ 0 then do
    match ← firstNotOfSet s chars 0 with
    | some pos => .ok (pos, s.length - pos)
    | none => .ok (0, 0)
  else .ok (0, 0)

/-- `trimr(C c)` (/repo/src/c4/substr.hpp:473-482). -/
def trimr (s : List Nat) (c : Nat) : Res Rng :=
  if s.length ≠ 0 then do
    match ← lastNotOf s c none with
    | some pos => .ok (0, pos + 1)
    | none => .ok (0, 0)
  else .ok (0, 0)

/-- `trimr(ro_substr chars)` (/repo/src/c4/substr.hpp:485-494). -/
def trimrSet (s chars : List Nat) : Res Rng :=
  if s.length ≠ 0 then do
    match ← lastNotOfSet s chars none with
    | some pos => .ok (0, pos + 1)
    | none => .ok (0, 0)
  else .ok (0, 0)

/-- `trim(C c)` (/repo/src/c4/substr.hpp:497-500). -/
def trim (s : List Nat) (c : Nat) : Res Rng := do
  let r ← triml s c
  let q ← trimr (Rng.of s r) c
  .ok (r.1 + q.1, q.2)

/-- `trim(ro_substr chars)` (/repo/src/c4/substr.hpp:503-506). -/
def trimSet (s chars : List Nat) : Res Rng := do
  let r ← trimlSet s chars
  let q ← trimrSet (Rng.of s r) chars
  .ok (r.1 + q.1, q.2)

/-- `begins_with(C c)` (/repo/src/c4/substr.hpp:670-673). -/
def beginsWithC (s : List Nat) (c : Nat) : Res Bool :=
  if s.length > 0 then do
    let x ← rd s 0
    .ok (x == c)
  else .ok false

/-- `begins_with(C c, size_t num)` (/repo/src/c4/substr.hpp:676-690). -/
def beginsWithN (s : List Nat) (c num : Nat) : Res Bool :=
  if s.length < num then .ok false
  else do
    let r ← forUp 0 num fun i => do
      let x ← rd s i
      .ok (if x ≠ c then some () else none)
    .ok r.isNone

/-- `begins_with(ro_substr pattern)` (/repo/src/c4/substr.hpp:693-707). -/
def beginsWith (s p : List Nat) : Res Bool :=
  if s.length < p.length then .ok false
  else do
    let r ← forUp 0 p.length fun i => do
      let x ← rd s i
      let y ← rd p i
      .ok (if x ≠ y then some () else none)
    .ok r.isNone

/-- `begins_with_any(ro_substr chars)` (/repo/src/c4/substr.hpp:710-724). -/
def beginsWithAny (s chars : List Nat) : Res Bool :=
  if s.length = 0 then .ok false
  else do
    let r ← forUp 0 chars.length fun i => do
      let x ← rd s 0
      let y ← rd chars i
      .ok (if x = y then some () else none)
    .ok r.isSome

/-- `ends_with(C c)` (/repo/src/c4/substr.hpp:727-730). -/
def endsWithC (s : List Nat) (c : Nat) : Res Bool :=
  if s.length > 0 then do
    let x ← rd s (s.length - 1)
    .ok (x == c)
  else .ok false

/-- `ends_with(C c, size_t num)` (/repo/src/c4/substr.hpp:733-747). -/
def endsWithN (s : List Nat) (c num : Nat) : Res Bool :=
  if s.length < num then .ok false
  else do
    let r ← forUp (s.length - num) s.length fun i => do
      let x ← rd s i
      .ok (if x ≠ c then some () else none)
    .ok r.isNone

/-- `ends_with(ro_substr pattern)` (/repo/src/c4/substr.hpp:750-764). -/
def endsWith (s p : List Nat) : Res Bool :=
  if s.length < p.length then .ok false
  else do
    let r ← forUp 0 p.length fun i => do
      let x ← rd s (s.length - p.length + i)
      let y ← rd p i
      .ok (if x ≠ y then some () else none)
    .ok r.isNone

/-- `ends_with_any(ro_substr chars)` (/repo/src/c4/substr.hpp:767-781). -/
def endsWithAny (s chars : List Nat) : Res Bool :=
  if s.length = 0 then .ok false
  else do
    let r ← forUp 0 chars.length fun i => do
      let x ← rd s (s.length - 1)
      let y ← rd chars i
      .ok (if x = y then some () else none)
    .ok r.isSome

/-- `stripl(pattern)` (/repo/src/c4/substr.hpp:510-515). -/
def stripl (s p : List Nat) : Res Rng := do
  let b ← beginsWith s p
  if !b then .ok (0, s.length)
  else
    let n := if p.length < s.length then p.length else s.length
    .ok (n, s.length - n)

/-- `stripr(pattern)` (/repo/src/c4/substr.hpp:519-524). -/
def stripr (s p : List Nat) : Res Rng := do
  let b ← endsWith s p
  if !b then .ok (0, s.length)
  else .ok (0, s.length - (if p.length < s.length then p.length else s.length))

/-- `pair_range(open, close)` (/repo/src/c4/substr.hpp:987-998); `none` is the default (null) view.
The assertion `ret.sub(1).find(open) == npos` is not enforced. -/
def pairRange (s : List Nat) (opn close : Nat) : Res (Option Rng) := do
  match ← findC s opn 0 with
  | none => .ok none
  | some b =>
    match ← findC s close (b + 1) with
    | none => .ok none
    | some e => .ok (some (b, e + 1 - b))

/-- `pair_range_esc(open_close, escape)` (/repo/src/c4/substr.hpp:1002-1018). -/
def pairRangeEsc (s : List Nat) (oc escape : Nat) : Res (Option Rng) := do
  match ← findC s oc 0 with
  | none => .ok none
  | some b =>
    forUp (b + 1) s.length fun i => do
      let c ← rd s i
      if c = oc then do
        let p ← rd s (i - 1)
        .ok (if p ≠ escape then some (b, i + 1 - b) else none)
      else .ok none

/-- The loop of `pair_range_nested` (/repo/src/c4/substr.hpp:1029-1043). `first_of(both, curr)` converts
the NUL-terminated array `both` to a view by its array length minus one, i.e. two characters. -/
def pairNestedLoop (s : List Nat) (opn close b : Nat) : Nat → Nat → Nat → Res (Option Rng)
  | 0, _, _ => .loop
  | f+1, curr, count => do
    match ← firstOfSet s [opn, close] curr with
    | none => .ok none
    | some e => do
      let x ← rd s e
      if x = opn then pairNestedLoop s opn close b f (e + 1) (count + 1)
      else if x = close then
        if count = 0 then .ok (some (b, e + 1 - b))
        else pairNestedLoop s opn close b f (e + 1) (count - 1)
      else pairNestedLoop s opn close b f curr count

/-- `pair_range_nested(open, close)` (/repo/src/c4/substr.hpp:1023-1044). -/
def pairRangeNested (s : List Nat) (opn close : Nat) : Res (Option Rng) := do
  match ← findC s opn 0 with
  | none => .ok none
  | some b => pairNestedLoop s opn close b (s.length + 1) (b + 1) 0

/-- `unquoted()` (/repo/src/c4/substr.hpp:1046-1057). -/
def unquoted (s : List Nat) : Res Rng :=
  if s.length ≥ 2 then do
    let p ← rd s (s.length - 2)
    if p ≠ 92 then do
      let b1 ← beginsWithC s 39
      let e1 ← endsWithC s 39
      let b2 ← beginsWithC s 34
      let e2 ← endsWithC s 34
      if (b1 && e1) || (b2 && e2) then .ok (1, s.length - 1 - 1)
      else .ok (0, s.length)
    else .ok (0, s.length)
  else .ok (0, s.length)

end C4
