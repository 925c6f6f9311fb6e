import Verif.Substr.Loops
/-
Model of the lookup methods of `basic_substring` (/repo/src/c4/substr.hpp:528-975).
Positions are `Option Nat`, `none` being `npos`.  A `start` argument that is used as a loop lower bound is a
`Nat` (passing `npos`, or anything not below `len`, makes the loop empty, as in the code).
-/
namespace C4

/-- `first_of(C c, size_t start)` (/repo/src/c4/substr.hpp:786-795). -/
def firstOf (s : List Nat) (c start : Nat) : Res (Option Nat) :=
  forUp start s.length fun i => do
    let x ← rd s i
    .ok (if x = c then some i else none)

/-- `find(C c, size_t start_pos)` (/repo/src/c4/substr.hpp:533-536). -/
def findC (s : List Nat) (c start : Nat) : Res (Option Nat) := firstOf s c start

/-- `if(start == npos) start = len;` (/repo/src/c4/substr.hpp:801-802, 830-831, 879-880, 956-957). -/
def startOr (s : List Nat) : Option Nat → Nat
  | none => s.length
  | some n => n

/-- `last_of(C c, size_t start)` (/repo/src/c4/substr.hpp:798-809). -/
def lastOf (s : List Nat) (c : Nat) (start : Option Nat) : Res (Option Nat) :=
  forDown (fun i => do
    let x ← rd s i
    .ok (if x = c then some i else none)) (startOr s start)

/-- The inner loop over `chars` used by the character-set searches
(/repo/src/c4/substr.hpp:817-821, 834-838, 893-901, 915-923, 936-944, 960-968). -/
def inChars (chars : List Nat) (x : Nat) : Res Bool := do
  let r ← forUp 0 chars.length fun j => do
    let y ← rd chars j
    .ok (if x = y then some () else none)
  .ok r.isSome

/-- `first_of(ro_substr chars, size_t start)` (/repo/src/c4/substr.hpp:812-824). -/
def firstOfSet (s chars : List Nat) (start : Nat) : Res (Option Nat) :=
  forUp start s.length fun i => do
    let x ← rd s i
    let hit ← inChars chars x
    .ok (if hit then some i else none)

/-- `last_of(ro_substr chars, size_t start)` (/repo/src/c4/substr.hpp:827-841). -/
def lastOfSet (s chars : List Nat) (start : Option Nat) : Res (Option Nat) :=
  forDown (fun i => do
    let x ← rd s i
    let hit ← inChars chars x
    .ok (if hit then some i else none)) (startOr s start)

/-- `first_not_of(C c)` (start 0) and `first_not_of(C c, size_t start)`
(/repo/src/c4/substr.hpp:845-853, 855-864). -/
def firstNotOf (s : List Nat) (c start : Nat) : Res (Option Nat) :=
  forUp start s.length fun i => do
    let x ← rd s i
    .ok (if x ≠ c then some i else none)

/-- `last_not_of(C c)` (start `npos`) and `last_not_of(C c, size_t start)`
(/repo/src/c4/substr.hpp:866-874, 876-887). -/
def lastNotOf (s : List Nat) (c : Nat) (start : Option Nat) : Res (Option Nat) :=
  forDown (fun i => do
    let x ← rd s i
    .ok (if x ≠ c then some i else none)) (startOr s start)

/-- `first_not_of(ro_substr chars)` (start 0) and `first_not_of(ro_substr chars, size_t start)`
(/repo/src/c4/substr.hpp:889-908, 910-930). -/
def firstNotOfSet (s chars : List Nat) (start : Nat) : Res (Option Nat) :=
  forUp start s.length fun i => do
    let x ← rd s i
    let hit ← inChars chars x
    .ok (if !hit then some i else none)

/-- `last_not_of(ro_substr chars)` (start `npos`) and `last_not_of(ro_substr chars, size_t start)`
(/repo/src/c4/substr.hpp:932-951, 953-975). -/
def lastNotOfSet (s chars : List Nat) (start : Option Nat) : Res (Option Nat) :=
  forDown (fun i => do
    let x ← rd s i
    let hit ← inChars chars x
    .ok (if !hit then some i else none)) (startOr s start)

/-- The comparison loop of `find` and `first_of_any_iter`
(/repo/src/c4/substr.hpp:543-552, 648-657): does `p` match `s` at `i`? -/
def matchAt (s p : List Nat) (i : Nat) : Res Bool := do
  let r ← forUp 0 p.length fun j => do
    let x ← rd s (i + j)
    let y ← rd p j
    .ok (if x ≠ y then some () else none)
  .ok r.isNone

/-- `find(ro_substr pattern, size_t start_pos)` (/repo/src/c4/substr.hpp:537-559). -/
def findS (s p : List Nat) (start : Nat) : Res (Option Nat) :=
  if s.length < p.length then .ok none
  else forUp start (s.length - p.length + 1) fun i => do
    let gotit ← matchAt s p i
    .ok (if gotit then some i else none)

/-- The loop of `count(C c, size_t pos)` (/repo/src/c4/substr.hpp:569-573); `fuel` bounds the iterations. -/
def countCLoop (s : List Nat) (c : Nat) : Nat → Option Nat → Nat → Res Nat
  | _, none, num => .ok num
  | 0, some _, _ => .loop
  | f+1, some pos, num => do
    let next ← findC s c (pos + 1)
    countCLoop s c f next (num + 1)

/-- `count(C c, size_t pos)` (/repo/src/c4/substr.hpp:564-575) run with at most `fuel` iterations. -/
def countC (fuel : Nat) (s : List Nat) (c pos : Nat) : Res Nat := do
  let p ← findC s c pos
  countCLoop s c fuel p 0

/-- The loop of `count(ro_substr c, size_t pos)` (/repo/src/c4/substr.hpp:583-587). -/
def countSLoop (s p : List Nat) : Nat → Option Nat → Nat → Res Nat
  | _, none, num => .ok num
  | 0, some _, _ => .loop
  | f+1, some pos, num => do
    let next ← findS s p (pos + p.length)
    countSLoop s p f next (num + 1)

/-- `count(ro_substr c, size_t pos)` (/repo/src/c4/substr.hpp:578-589) run with at most `fuel` iterations. -/
def countS (fuel : Nat) (s p : List Nat) (pos : Nat) : Res Nat := do
  let q ← findS s p pos
  countSLoop s p fuel q 0

/-- `select(C c, size_t pos)` (/repo/src/c4/substr.hpp:592-596): offset and length of the selected
sub-view, or `none` for the default (null) view. -/
def selectC (s : List Nat) (c pos : Nat) : Res (Option (Nat × Nat)) := do
  let p ← findC s c pos
  .ok (p.map fun i => (i, 1))

/-- `select(ro_substr pattern, size_t pos)` (/repo/src/c4/substr.hpp:599-603). -/
def selectS (s pat : List Nat) (pos : Nat) : Res (Option (Nat × Nat)) := do
  let p ← findS s pat pos
  .ok (p.map fun i => (i, pat.length))

/-- `first_of_any_iter` (/repo/src/c4/substr.hpp:638-665); the 2..5 argument overloads (614-636) call it
with their arguments in order.  Result: `(which, pos)`, `none` for `{NONE, npos}`. -/
def firstOfAny (s : List Nat) (pats : List (List Nat)) : Res (Option (Nat × Nat)) :=
  forUp 0 s.length fun i =>
    forUp 0 pats.length fun k => do
      let chars ← rd pats k
      if i + chars.length > s.length then .ok none
      else do
        let gotit ← matchAt s chars i
        .ok (if gotit then some (k, i) else none)

end C4
