import Verif.StdCompat
/-
Model of the construction of views from C strings and arrays (/repo/src/c4/substr.hpp:117-198, 2188-2213), and of their comparison with literals and
single characters (/repo/src/c4/substr.hpp:269-288, 2226-2238).
-/
namespace C4

/-- `strlen(p)`, on the memory from `p` to the end of its object: undefined without a zero. -/
def strlen : List Nat → Res Nat
  | [] => .ub
  | c :: m => if c = 0 then .ok 0 else do .ok ((← strlen m) + 1)

/-- The view with the first `len` characters of the object at a pointer; reading it beyond the object would be undefined, so the view is not given then. -/
def viewAt (m : List Nat) (len : Nat) : Res CView := if len ≤ m.length then .ok ⟨false, m.take len⟩ else .ub

/-- The constructor and the assignments from a pointer to characters, and `to_substr`, `to_csubstr` (/repo/src/c4/substr.hpp:155, 176, 189, 2206-2213):
`none` is the null pointer, otherwise the memory from there to the end of its object. -/
def viewOfPtr : Option (List Nat) → Res CView
  | none => .ok ⟨true, []⟩
  | some m => do viewAt m (← strlen m)

/-- The constructor and the assignments from an array, and `to_substr`, `to_csubstr` (/repo/src/c4/substr.hpp:140, 161, 181, 2194-2199); the length of the list is `N`.
`N-1` is computed for `N > 0`: there are no empty arrays. -/
def viewOfArray (arr : List Nat) : CView := ⟨false, arr.take (arr.length - 1)⟩

/-- The constructor and the assignment from two pointers into an object (/repo/src/c4/substr.hpp:147, 168), as indices. -/
def viewOfPtrs (m : List Nat) (b e : Nat) : CView := ⟨false, (m.drop b).take (e - b)⟩

/-- `csubstr op "literal"` (/repo/src/c4/substr.hpp:283-288), the array includes the zero at its end. -/
def viewOpArray (sgn : Bool) (rel : Rel) (ss : CView) (arr : List Nat) : Res Bool := do .ok (rel.of (← compareS sgn ss (viewOfArray arr)))

/-- `"literal" op csubstr` (/repo/src/c4/substr.hpp:2226-2231). -/
def arrayOpView (sgn : Bool) (rel : Rel) (arr : List Nat) (that : CView) : Res Bool := do
  let r ← compareS sgn that (viewOfArray arr)
  .ok (match rel with
    | .eq => r == 0
    | .ne => r != 0
    | .lt => r > 0
    | .gt => r < 0
    | .le => r ≥ 0
    | .ge => r ≤ 0)

/-- `csubstr op 'c'` (/repo/src/c4/substr.hpp:269-274). -/
def viewOpChar (sgn : Bool) (rel : Rel) (ss : CView) (c : Nat) : Res Bool := do .ok (rel.of (← compareC sgn ss c))

/-- `'c' op csubstr` (/repo/src/c4/substr.hpp:2233-2238). -/
def charOpView (sgn : Bool) (rel : Rel) (c : Nat) (that : CView) : Res Bool := do
  let r ← compareC sgn that c
  .ok (match rel with
    | .eq => r == 0
    | .ne => r != 0
    | .lt => r > 0
    | .gt => r < 0
    | .le => r ≥ 0
    | .ge => r ≤ 0)

/-- `has_str()`, `empty()` and `not_empty()` (/repo/src/c4/substr.hpp:198-200). -/
def CView.hasStr (v : CView) : Res Bool :=
  if v.chars.length = 0 ∨ v.null then .ok false else do .ok ((← rd v.chars 0) != 0)
@[inherit_doc CView.hasStr] def CView.empty (v : CView) : Bool := v.chars.length == 0 || v.null
@[inherit_doc CView.hasStr] def CView.notEmpty (v : CView) : Bool := v.chars.length != 0 && !v.null

end C4
