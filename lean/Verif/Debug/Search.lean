import Verif.Debug.Spans
import Verif.Substr.Split
import Verif.Substr.Mutate
/-
Model of searching, trimming, delimited ranges, splitting, popping and replacing of `basic_substring` in builds with assertions
(/repo/src/c4/substr.hpp:449-1057, 1661-1967, 2090-2165): the functions of `Substr/Search.lean`, `Substr/Trim.lean`, `Substr/Split.lean` and
`Substr/Mutate.lean` with the assertions that they make of the positions that they compute and hand to one another.  Which arguments each of `sub`,
`range`, `first`, `left_of` and the searches asserts is in `Debug/Views.lean`; here a result is an offset and a length, as in the model without assertions.
-/
namespace C4

/-- `sub(first)` (/repo/src/c4/substr.hpp:322-326). -/
def sub1R (s : List Nat) (first : Nat) : Res Rng := do
  assertThat (first ≤ s.length)
  .ok (first, s.length - first)

/-- `sub(first, num)` with `num` a number (/repo/src/c4/substr.hpp:329-336). -/
def sub2R (s : List Nat) (first num : Nat) : Res Rng := do
  assertThat (first ≤ s.length)
  assertThat (num ≤ s.length)
  assertThat (first + num ≤ s.length ∨ num = 0)
  .ok (first, num)

/-- `range(first, last)` with `last` a number (/repo/src/c4/substr.hpp:339-346). -/
def rangeR (s : List Nat) (first last : Nat) : Res Rng := do
  assertThat (first ≤ s.length)
  assertThat (first ≤ last)
  assertThat (last ≤ s.length)
  .ok (first, last - first)

/-- `left_of(pos)` with `pos` a number (/repo/src/c4/substr.hpp:376-382). -/
def leftOfR (s : List Nat) (pos : Nat) : Res Rng := do
  assertThat (pos ≤ s.length)
  .ok (0, pos)

/-- `left_of(subs)` for a sub-view, or for an empty view at an offset of this one (/repo/src/c4/substr.hpp:415-425). -/
def leftOfSubR (s : List Nat) (r : Rng) : Res Rng := do
  assertThat (r.1 + r.2 ≤ s.length ∨ r.2 = 0)
  if r.1 ≤ s.length then sub2R s 0 r.1 else sub2R s 0 0

/-- `right_of(subs)` (/repo/src/c4/substr.hpp:429-439). -/
def rightOfSubR (s : List Nat) (r : Rng) : Res Rng := do
  assertThat (r.1 + r.2 ≤ s.length ∨ r.2 = 0)
  if r.1 + r.2 ≤ s.length then sub2R s (r.1 + r.2) (s.length - (r.1 + r.2)) else sub2R s 0 0

/-- `first_of(C c, size_t start)` and `find(C c, size_t start)` (/repo/src/c4/substr.hpp:533-536, 786-795). -/
def firstOfD (s : List Nat) (c start : Nat) : Res (Option Nat) := do
  assertThat (start ≤ s.length)
  firstOf s c start

/-- `last_of(C c, size_t start)` (/repo/src/c4/substr.hpp:798-809). -/
def lastOfD (s : List Nat) (c : Nat) (start : Option Nat) : Res (Option Nat) := do
  assertThat (startOr s start ≤ s.length)
  lastOf s c start

/-- `first_of(ro_substr chars, size_t start)` (/repo/src/c4/substr.hpp:812-824). -/
def firstOfSetD (s chars : List Nat) (start : Nat) : Res (Option Nat) := do
  assertThat (start ≤ s.length)
  firstOfSet s chars start

/-- The comparison loop of `find` and `first_of_any_iter`, with its assertion (/repo/src/c4/substr.hpp:543-552, 648-657). -/
def matchAtD (s p : List Nat) (i : Nat) : Res Bool := do
  let r ← forUp 0 p.length fun j => do
    assertThat (i + j < s.length)
    let x ← rd s (i + j)
    let y ← rd p j
    .ok (if x ≠ y then some () else none)
  .ok r.isNone

/-- `find(ro_substr pattern, size_t start_pos)` (/repo/src/c4/substr.hpp:537-559). -/
def findSD (s p : List Nat) (start : Nat) : Res (Option Nat) := do
  assertThat (start ≤ s.length)
  if s.length < p.length then .ok none
  else forUp start (s.length - p.length + 1) fun i => do
    let gotit ← matchAtD s p i
    .ok (if gotit then some i else none)

/-- The loop of `count(C c, size_t pos)` (/repo/src/c4/substr.hpp:569-573). -/
def countCLoopD (s : List Nat) (c : Nat) : Nat → Option Nat → Nat → Res Nat
  | _, none, num => .ok num
  | 0, some _, _ => .loop
  | f+1, some pos, num => do
    let next ← firstOfD s c (pos + 1)
    countCLoopD s c f next (num + 1)

/-- `count(C c, size_t pos)` (/repo/src/c4/substr.hpp:564-575). -/
def countCD (fuel : Nat) (s : List Nat) (c pos : Nat) : Res Nat := do
  assertThat (pos ≤ s.length)
  let p ← firstOfD s c pos
  countCLoopD s c fuel p 0

/-- The loop of `count(ro_substr c, size_t pos)` (/repo/src/c4/substr.hpp:583-587). -/
def countSLoopD (s p : List Nat) : Nat → Option Nat → Nat → Res Nat
  | _, none, num => .ok num
  | 0, some _, _ => .loop
  | f+1, some pos, num => do
    let next ← findSD s p (pos + p.length)
    countSLoopD s p f next (num + 1)

/-- `count(ro_substr c, size_t pos)` (/repo/src/c4/substr.hpp:578-589). -/
def countSD (fuel : Nat) (s p : List Nat) (pos : Nat) : Res Nat := do
  assertThat (pos ≤ s.length)
  let q ← findSD s p pos
  countSLoopD s p fuel q 0

/-- `select(C c, size_t pos)` (/repo/src/c4/substr.hpp:592-596). -/
def selectCD (s : List Nat) (c pos : Nat) : Res (Option Rng) := do
  match ← firstOfD s c pos with
  | some i => do
    let r ← sub2R s i 1
    .ok (some r)
  | none => .ok none

/-- `select(ro_substr pattern, size_t pos)` (/repo/src/c4/substr.hpp:599-603). -/
def selectSD (s pat : List Nat) (pos : Nat) : Res (Option Rng) := do
  match ← findSD s pat pos with
  | some i => do
    let r ← sub2R s i pat.length
    .ok (some r)
  | none => .ok none

/-- `first_of_any_iter` (/repo/src/c4/substr.hpp:638-665). -/
def firstOfAnyD (s : List Nat) (pats : List (List Nat)) : Res (Option (Nat × Nat)) :=
  forUp 0 s.length fun i =>
    forUp 0 pats.length fun k => do
      let chars ← rd pats k
      if i + chars.length > s.length then .ok none
      else do
        let gotit ← matchAtD s chars i
        .ok (if gotit then some (k, i) else none)

/-- `triml(C c)` and, with `first_not_of` for its set of characters, `triml(ro_substr chars)` (/repo/src/c4/substr.hpp:449-470); `pos` is what
`first_not_of` gives, which without a start asserts nothing. -/
def trimlWithD (s : List Nat) (pos : Res (Option Nat)) : Res Rng :=
  if s.length ≠ 0 then do
    match ← pos with
    | some pos => sub1R s pos
    | none => sub2R s 0 0
  else sub2R s 0 0

/-- `trimr(C c)` and `trimr(ro_substr chars)` (/repo/src/c4/substr.hpp:473-494). -/
def trimrWithD (s : List Nat) (pos : Res (Option Nat)) : Res Rng :=
  if s.length ≠ 0 then do
    match ← pos with
    | some pos => sub2R s 0 (pos + 1)
    | none => sub2R s 0 0
  else sub2R s 0 0

/-- `triml(C c)` (/repo/src/c4/substr.hpp:449-458). -/
def trimlD (s : List Nat) (c : Nat) : Res Rng := trimlWithD s (firstNotOf s c 0)
/-- `triml(ro_substr chars)` (/repo/src/c4/substr.hpp:461-470). -/
def trimlSetD (s chars : List Nat) : Res Rng := trimlWithD s (firstNotOfSet s chars 0)
/-- `trimr(C c)` (/repo/src/c4/substr.hpp:473-482); `last_not_of(c, npos)` asserts nothing. -/
def trimrD (s : List Nat) (c : Nat) : Res Rng := trimrWithD s (lastNotOf s c none)
/-- `trimr(ro_substr chars)` (/repo/src/c4/substr.hpp:485-494). -/
def trimrSetD (s chars : List Nat) : Res Rng := trimrWithD s (lastNotOfSet s chars none)

/-- `trim(C c)` (/repo/src/c4/substr.hpp:497-500). -/
def trimD (s : List Nat) (c : Nat) : Res Rng := do
  let r ← trimlD s c
  let q ← trimrD (Rng.of s r) c
  .ok (r.1 + q.1, q.2)

/-- `trim(ro_substr chars)` (/repo/src/c4/substr.hpp:503-506). -/
def trimSetD (s chars : List Nat) : Res Rng := do
  let r ← trimlSetD s chars
  let q ← trimrSetD (Rng.of s r) chars
  .ok (r.1 + q.1, q.2)

/-- `stripl(pattern)` (/repo/src/c4/substr.hpp:510-515). -/
def striplD (s p : List Nat) : Res Rng := do
  let b ← beginsWith s p
  if !b then .ok (0, s.length)
  else sub1R s (if p.length < s.length then p.length else s.length)

/-- `stripr(pattern)` (/repo/src/c4/substr.hpp:519-524). -/
def striprD (s p : List Nat) : Res Rng := do
  let b ← endsWith s p
  if !b then .ok (0, s.length)
  else leftOfR s (s.length - (if p.length < s.length then p.length else s.length))

/-- `pair_range(open, close)` (/repo/src/c4/substr.hpp:987-998). -/
def pairRangeD (s : List Nat) (opn close : Nat) : Res (Option Rng) := do
  match ← firstOfD s opn 0 with
  | none => .ok none
  | some b =>
    match ← firstOfD s close (b + 1) with
    | none => .ok none
    | some e => do
      let ret ← rangeR s b (e + 1)
      let tl ← subL (Rng.of s ret) 1
      let q ← firstOfD tl opn 0
      assertThat (q = none)
      .ok (some ret)

/-- `pair_range_esc(open_close, escape)` (/repo/src/c4/substr.hpp:1002-1018). -/
def pairRangeEscD (s : List Nat) (oc escape : Nat) : Res (Option Rng) := do
  match ← firstOfD s oc 0 with
  | none => .ok none
  | some b =>
    forUp (b + 1) s.length fun i => do
      let c ← rd s i
      if c = oc then do
        let p ← rd s (i - 1)
        if p ≠ escape then do
          let r ← rangeR s b (i + 1)
          .ok (some r)
        else .ok none
      else .ok none

/-- The loop of `pair_range_nested` (/repo/src/c4/substr.hpp:1029-1043). -/
def pairNestedLoopD (s : List Nat) (opn close b : Nat) : Nat → Nat → Nat → Res (Option Rng)
  | 0, _, _ => .loop
  | f+1, curr, count => do
    match ← firstOfSetD s [opn, close] curr with
    | none => .ok none
    | some e => do
      let x ← rd s e
      if x = opn then pairNestedLoopD s opn close b f (e + 1) (count + 1)
      else if x = close then
        if count = 0 then do
          let r ← rangeR s b (e + 1)
          .ok (some r)
        else pairNestedLoopD s opn close b f (e + 1) (count - 1)
      else pairNestedLoopD s opn close b f curr count

/-- `pair_range_nested(open, close)` (/repo/src/c4/substr.hpp:1023-1044). -/
def pairRangeNestedD (s : List Nat) (opn close : Nat) : Res (Option Rng) := do
  match ← firstOfD s opn 0 with
  | none => .ok none
  | some b => pairNestedLoopD s opn close b (s.length + 1) (b + 1) 0

/-- `unquoted()` (/repo/src/c4/substr.hpp:1046-1057). -/
def unquotedD (s : List Nat) : Res Rng :=
  if s.length ≥ 2 then do
    let p ← rd s (s.length - 2)
    if p ≠ 92 then do
      let b1 ← beginsWithC s 39
      let e1 ← endsWithC s 39
      let b2 ← beginsWithC s 34
      let e2 ← endsWithC s 34
      if (b1 && e1) || (b2 && e2) then rangeR s 1 (s.length - 1)
      else .ok (0, s.length)
    else .ok (0, s.length)
  else .ok (0, s.length)

/-- `for(auto piece : str.split(sep, start_pos))` (/repo/src/c4/substr.hpp:1764-1770): the assertion is that of `split`; `sub(0, len)` is the whole view, and
the iterators, which all have the separator of the call, assert nothing else. -/
def splitRunD (fuel : Nat) (s : List Nat) (sep start : Nat) : Res (List Rng) := do
  assertThat (start < s.length ∨ s.length = 0)
  let ss ← sub2R s 0 s.length
  splitRun fuel (Rng.of s ss) sep start

/-- `pop_right(sep, skip_empty)` (/repo/src/c4/substr.hpp:1777-1826). -/
def popRightD (s : List Nat) (sep : Nat) (skipEmpty : Bool) : Res Rng :=
  if s.length > 1 then do
    match ← lastOfD s sep none with
    | some pos =>
      if pos + 1 < s.length then sub1R s (pos + 1)
      else if !skipEmpty then sub2R s (pos + 1) 0
      else
        match ← lastNotOf s sep none with
        | none => sub2R s 0 0
        | some ppos =>
          match ← lastOfD s sep (some ppos) with
          | none => sub1R s 0
          | some pos0 => sub1R s (pos0 + 1)
    | none => .ok (0, s.length)
  else if s.length = 1 then do
    let b ← beginsWithC s sep
    if b then sub2R s 0 0 else .ok (0, s.length)
  else .ok (0, 0)

/-- `pop_left(sep, skip_empty)` (/repo/src/c4/substr.hpp:1830-1880). -/
def popLeftD (s : List Nat) (sep : Nat) (skipEmpty : Bool) : Res Rng :=
  if s.length > 1 then do
    match ← firstOfD s sep 0 with
    | some pos =>
      if pos > 0 then sub2R s 0 pos
      else if !skipEmpty then sub2R s 0 0
      else
        match ← firstNotOf s sep 0 with
        | none => sub2R s 0 0
        | some ppos =>
          match ← firstOfD s sep ppos with
          | none => sub1R s 0
          | some pos0 => do
            assertThat (pos0 > 0)
            sub2R s 0 pos0
    | none => sub1R s 0
  else if s.length = 1 then do
    let b ← beginsWithC s sep
    if b then sub2R s 0 0 else sub1R s 0
  else .ok (0, 0)

/-- `gpop_left(sep, skip_empty)` (/repo/src/c4/substr.hpp:1885-1904). -/
def gpopLeftD (s : List Nat) (sep : Nat) (skipEmpty : Bool) : Res Rng := do
  let r ← popRightD s sep skipEmpty
  let ss ← leftOfSubR s r
  match ← firstOfD (Rng.of s ss) sep 0 with
  | none => .ok ss
  | some _ => do
    let e ← endsWithC (Rng.of s ss) sep
    if e then
      if skipEmpty then do
        let q ← trimrD (Rng.of s ss) sep
        .ok (ss.1 + q.1, q.2)
      else do
        let q ← sub2R (Rng.of s ss) 0 (ss.2 - 1)
        .ok (ss.1 + q.1, q.2)
    else .ok ss

/-- `gpop_right(sep, skip_empty)` (/repo/src/c4/substr.hpp:1907-1926). -/
def gpopRightD (s : List Nat) (sep : Nat) (skipEmpty : Bool) : Res Rng := do
  let r ← popLeftD s sep skipEmpty
  let ss ← rightOfSubR s r
  match ← firstOfD (Rng.of s ss) sep 0 with
  | none => .ok ss
  | some _ => do
    let e ← beginsWithC (Rng.of s ss) sep
    if e then
      if skipEmpty then do
        let q ← trimlD (Rng.of s ss) sep
        .ok (ss.1 + q.1, q.2)
      else do
        let q ← sub1R (Rng.of s ss) 1
        .ok (ss.1 + q.1, q.2)
    else .ok ss

/-- `basename(sep)` (/repo/src/c4/substr.hpp:1935-1940). -/
def basenameD (s : List Nat) (sep : Nat) : Res Rng := do
  let r ← popRightD s sep true
  let q ← trimrD (Rng.of s r) sep
  .ok (r.1 + q.1, q.2)

/-- `dirname(sep)` (/repo/src/c4/substr.hpp:1942-1947). -/
def dirnameD (s : List Nat) (sep : Nat) : Res Rng := do
  let r ← basenameD s sep
  if r.2 = 0 then .ok (0, s.length) else leftOfSubR s r

/-- `replace(C value, C repl, size_t pos)` (/repo/src/c4/substr.hpp:2090-2100), the loop. -/
def replaceCLoopD (value repl : Nat) : Nat → List Nat → Nat → Nat → Res (List Nat × Nat)
  | 0, _, _, _ => .loop
  | f+1, buf, pos, did => do
    match ← firstOfD buf value pos with
    | none => .ok (buf, did)
    | some p => do
      let buf ← wr buf p repl
      replaceCLoopD value repl f buf (p + 1) (did + 1)

/-- `replace(C value, C repl, size_t pos)` with `pos` a number (/repo/src/c4/substr.hpp:2090-2100). -/
def replaceCD (value repl fuel : Nat) (buf : List Nat) (pos : Nat) : Res (List Nat × Nat) := do
  assertThat (pos ≤ buf.length)
  replaceCLoopD value repl fuel buf pos 0

/-- `replace(ro_substr chars, C repl, size_t pos)` (/repo/src/c4/substr.hpp:2106-2116), the loop. -/
def replaceSetLoopD (chars : List Nat) (repl : Nat) : Nat → List Nat → Nat → Nat → Res (List Nat × Nat)
  | 0, _, _, _ => .loop
  | f+1, buf, pos, did => do
    match ← firstOfSetD buf chars pos with
    | none => .ok (buf, did)
    | some p => do
      let buf ← wr buf p repl
      replaceSetLoopD chars repl f buf (p + 1) (did + 1)

/-- `replace(ro_substr chars, C repl, size_t pos)` with `pos` a number (/repo/src/c4/substr.hpp:2106-2116). -/
def replaceSetD (chars : List Nat) (repl fuel : Nat) (buf : List Nat) (pos : Nat) : Res (List Nat × Nat) := do
  assertThat (pos ≤ buf.length)
  replaceSetLoopD chars repl fuel buf pos 0

/-- The macro `_c4append(first, last)` of `replace_all` (/repo/src/c4/substr.hpp:2136-2144). -/
def appendChunkD (src : List Nat) (first last : Nat) (st : Nat × List Nat) : Res (Nat × List Nat) := do
  assertThat (last ≥ first)
  appendChunk src first last st

/-- The do-while loop of `replace_all` (/repo/src/c4/substr.hpp:2148-2158). -/
def replaceAllLoopD (s pattern repl : List Nat) : Nat → Nat → Nat × List Nat → Res (Nat × List Nat)
  | 0, _, _ => .loop
  | f+1, b, st => do
    match ← findSD s pattern b with
    | none => appendChunkD s b s.length st
    | some e => do
      let st ← appendChunkD s b e st
      let st ← appendChunkD repl 0 repl.length st
      let b' := e + pattern.length
      if b' < s.length then replaceAllLoopD s pattern repl f b' st else .ok st

/-- `replace_all(dst, pattern, repl, pos)` with `pos` a number (/repo/src/c4/substr.hpp:2124-2163).  That nothing overlaps `dst` is built in. -/
def replaceAllD (fuel : Nat) (s dst pattern repl : List Nat) (pos : Nat) : Res (Nat × List Nat) := do
  assertThat (pattern.length ≠ 0)
  assertThat (pos ≤ s.length)
  let st ← appendChunkD s 0 pos (0, dst)
  replaceAllLoopD s pattern repl fuel pos st

end C4
