import Verif.Substr.Trim
/-
Model of the splitting methods of `basic_substring` (/repo/src/c4/substr.hpp:1661-1967).
-/
namespace C4

/-- `next_split(sep, &start_pos, &out)` (/repo/src/c4/substr.hpp:1661-1692): returned bool, new `*start_pos`,
`*out` as offset and length.  An out view one past the one-past-end address is offset `len+1`.  The test
`str &&` (line 1682) is true whenever `len > 0` and is not modelled. -/
def nextSplit (s : List Nat) (sep pos : Nat) : Res (Bool × Nat × Rng) :=
  if pos < s.length then do
    let r ← forUp pos s.length fun i => do
      let x ← rd s i
      .ok (if x = sep then some i else none)
    .ok (match r with
      | some i => (true, i + 1, (pos, i - pos))
      | none => (true, s.length + 1, (pos, s.length - pos)))
  else
    let valid := decide (s.length > 0) && decide (pos = s.length)
    if valid then do
      let x ← rd s (s.length - 1)
      .ok (valid, s.length + 1, if x = sep then (s.length, 0) else (s.length + 1, 0))
    else .ok (valid, s.length + 1, (s.length + 1, 0))

/-- The user's loop `while(str.next_split(sep, &pos, &out)) { use(out); }`: the list of `out`s, with at most
`fuel` iterations. -/
def nextSplitRun (s : List Nat) (sep : Nat) : Nat → Nat → Res (List Rng)
  | 0, _ => .loop
  | f+1, pos => do
    let r ← nextSplit s sep pos
    if r.1 then do
      let rest ← nextSplitRun s sep f r.2.1
      .ok (r.2.2 :: rest)
    else .ok []

/-- A `split_iterator_impl` is its `m_pos` and `m_str` (/repo/src/c4/substr.hpp:1700-1734); constructing it or
incrementing it calls `_tick`, i.e. `next_split` whose returned bool is ignored. -/
def splitTick (s : List Nat) (sep pos : Nat) : Res (Nat × Rng) := do
  let r ← nextSplit s sep pos
  .ok (r.2.1, r.2.2)

/-- The range-for loop from iterator `it` to iterator `endIt` (`operator!=` compares length, data and position,
/repo/src/c4/substr.hpp:1721-1733): the list of visited `*it`. -/
def splitRunFrom (s : List Nat) (sep : Nat) (endIt : Nat × Rng) : Nat → Nat × Rng → Res (List Rng)
  | 0, _ => .loop
  | f+1, it =>
    if it = endIt then .ok []
    else do
      let it' ← splitTick s sep it.1
      let rest ← splitRunFrom s sep endIt f it'
      .ok (it.2 :: rest)

/-- `for(auto piece : str.split(sep, start_pos))` (/repo/src/c4/substr.hpp:1736-1770). -/
def splitRun (fuel : Nat) (s : List Nat) (sep start : Nat) : Res (List Rng) := do
  let b ← splitTick s sep start
  let e ← splitTick s sep (s.length + 1)
  splitRunFrom s sep e fuel b

/-- `pop_right(sep, skip_empty)` (/repo/src/c4/substr.hpp:1777-1826).  The default view returned for an empty
string is the empty range here. -/
def popRight (s : List Nat) (sep : Nat) (skipEmpty : Bool) : Res Rng :=
  if s.length > 1 then do
    match ← lastOf s sep none with
    | some pos =>
      if pos + 1 < s.length then .ok (pos + 1, s.length - (pos + 1))
      else if !skipEmpty then .ok (pos + 1, 0)
      else
        match ← lastNotOf s sep none with
        | none => .ok (0, 0)
        | some ppos =>
          match ← lastOf s sep (some ppos) with
          | none => .ok (0, s.length)
          | some pos0 => .ok (pos0 + 1, s.length - (pos0 + 1))
    | none => .ok (0, s.length)
  else if s.length = 1 then do
    let b ← beginsWithC s sep
    if b then .ok (0, 0) else .ok (0, s.length)
  else .ok (0, 0)

/-- `pop_left(sep, skip_empty)` (/repo/src/c4/substr.hpp:1830-1880). -/
def popLeft (s : List Nat) (sep : Nat) (skipEmpty : Bool) : Res Rng :=
  if s.length > 1 then do
    match ← firstOf s sep 0 with
    | some pos =>
      if pos > 0 then .ok (0, pos)
      else if !skipEmpty then .ok (0, 0)
      else
        match ← firstNotOf s sep 0 with
        | none => .ok (0, 0)
        | some ppos =>
          match ← firstOf s sep ppos with
          | none => .ok (0, s.length)
          | some pos0 => .ok (0, pos0)
    | none => .ok (0, s.length)
  else if s.length = 1 then do
    let b ← beginsWithC s sep
    if b then .ok (0, 0) else .ok (0, s.length)
  else .ok (0, 0)

/-- `gpop_left(sep, skip_empty)` (/repo/src/c4/substr.hpp:1885-1904).  `left_of(ss)` for a sub-view at offset `o`
is the range `[0,o)`. -/
def gpopLeft (s : List Nat) (sep : Nat) (skipEmpty : Bool) : Res Rng := do
  let r ← popRight s sep skipEmpty
  let ss : Rng := (0, r.1)
  match ← findC (Rng.of s ss) sep 0 with
  | none => .ok ss
  | some _ => do
    let e ← endsWithC (Rng.of s ss) sep
    if e then
      if skipEmpty then do
        let q ← trimr (Rng.of s ss) sep
        .ok (ss.1 + q.1, q.2)
      else .ok (ss.1, ss.2 - 1)
    else .ok ss

/-- `gpop_right(sep, skip_empty)` (/repo/src/c4/substr.hpp:1907-1926).  `right_of(ss)` for the sub-view `[o,o+n)`
is the range `[o+n,len)`. -/
def gpopRight (s : List Nat) (sep : Nat) (skipEmpty : Bool) : Res Rng := do
  let r ← popLeft s sep skipEmpty
  let ss : Rng := (r.1 + r.2, s.length - (r.1 + r.2))
  match ← findC (Rng.of s ss) sep 0 with
  | none => .ok ss
  | some _ => do
    let e ← beginsWithC (Rng.of s ss) sep
    if e then
      if skipEmpty then do
        let q ← triml (Rng.of s ss) sep
        .ok (ss.1 + q.1, q.2)
      else .ok (ss.1 + 1, ss.2 - 1)
    else .ok ss

/-- `basename(sep)` (/repo/src/c4/substr.hpp:1935-1940). -/
def basename (s : List Nat) (sep : Nat) : Res Rng := do
  let r ← popRight s sep true
  let q ← trimr (Rng.of s r) sep
  .ok (r.1 + q.1, q.2)

/-- `dirname(sep)` (/repo/src/c4/substr.hpp:1942-1947). -/
def dirname (s : List Nat) (sep : Nat) : Res Rng := do
  let r ← basename s sep
  .ok (if r.2 = 0 then (0, s.length) else (0, r.1))

/-- `name_wo_extshort` (/repo/src/c4/substr.hpp:1949-1952). -/
def nameWoExtshort (s : List Nat) : Res Rng := gpopLeft s 46 false
/-- `name_wo_extlong` (/repo/src/c4/substr.hpp:1954-1957). -/
def nameWoExtlong (s : List Nat) : Res Rng := popLeft s 46 false
/-- `extshort` (/repo/src/c4/substr.hpp:1959-1962). -/
def extshort (s : List Nat) : Res Rng := popRight s 46 false
/-- `extlong` (/repo/src/c4/substr.hpp:1964-1967). -/
def extlong (s : List Nat) : Res Rng := gpopRight s 46 false

end C4
