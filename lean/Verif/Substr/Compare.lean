import Verif.Substr.Loops
/-
Model of string comparison (/repo/src/c4/substr.hpp:228-288).
-/
namespace C4

/-- Value of a `char` in comparisons: `char` is signed on some platforms and unsigned on others. -/
def charVal (sgn : Bool) (c : Nat) : Int := if sgn ∧ c ≥ 128 then (c : Int) - 256 else c

/-- A view for comparison purposes: contents, and whether the pointer is null. -/
structure CView where
  null : Bool
  chars : List Nat

/-- `compare(const char *that, size_t sz)` (/repo/src/c4/substr.hpp:237-262); `sgn` tells if `char` is
signed. -/
def compareS (sgn : Bool) (s t : CView) : Res Int :=
  let len := s.chars.length
  let sz := t.chars.length
  if !s.null && !t.null then do
    let r ← forUp 0 (if len < sz then len else sz) fun i => do
      let a ← rd s.chars i
      let b ← rd t.chars i
      .ok (if a ≠ b then some (if charVal sgn a < charVal sgn b then (-1 : Int) else 1) else none)
    .ok (r.getD (if len < sz then -1 else if len = sz then 0 else 1))
  else if len = sz then .ok 0
  else .ok (if len < sz then -1 else 1)

/-- `static_cast<int>(len)` for a `size_t` (two's complement wrap). -/
def toInt32 (n : Nat) : Int := if n % 2 ^ 32 < 2 ^ 31 then (n % 2 ^ 32 : Nat) else (n % 2 ^ 32 : Nat) - 2 ^ 32

/-- `compare(C const c)` (/repo/src/c4/substr.hpp:228-235).  The subtraction `static_cast<int>(len) - 1`
overflows for `len % 2^32 == 2^31`, which is undefined behaviour. -/
def compareC (sgn : Bool) (s : CView) (c : Nat) : Res Int :=
  if !s.null && s.chars.length > 0 then do
    let a ← rd s.chars 0
    if a ≠ c then .ok (charVal sgn a - charVal sgn c)
    else if s.chars.length % 2 ^ 32 = 2 ^ 31 then .ub
    else .ok (toInt32 s.chars.length - 1)
  else .ok (-1)

/-- The six operators on two views (/repo/src/c4/substr.hpp:276-281), from the result of `compare`. -/
def opEq (r : Int) : Bool := r == 0
@[inherit_doc opEq] def opNe (r : Int) : Bool := r != 0
@[inherit_doc opEq] def opLt (r : Int) : Bool := r < 0
@[inherit_doc opEq] def opGt (r : Int) : Bool := r > 0
@[inherit_doc opEq] def opLe (r : Int) : Bool := r ≤ 0
@[inherit_doc opEq] def opGe (r : Int) : Bool := r ≥ 0

end C4
