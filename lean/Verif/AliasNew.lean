import Verif.AliasFormat
/-
The functions that return a new container, with views of other containers among the arguments, and assigning what they return to one of those.

The containers are numbered, and each of them has its own block of memory (C++ standard, [container.requirements]; trusted).
-/
namespace C4.Alias

/-- An argument: a text elsewhere, or `to_csubstr(x).sub(first, num)` for container `x` with number `i`. -/
inductive NewArg where
  | txt (t : List Nat)
  | of (i first num : Nat)
  deriving DecidableEq, Repr

/-- A call: `catrs<Cont>(args...)`, `catseprs<Cont>(sep, args...)`, `formatrs<Cont>(fmt, args...)`. -/
inductive Call where
  | cat (args : List NewArg)
  | catsep (sep : NewArg) (args : List NewArg)
  | format (fmt : NewArg) (args : List NewArg)
  deriving DecidableEq, Repr

/-- `to_csubstr(x).sub(first, num)` (/repo/src/c4/substr.hpp:322-336) as an argument: the new container has a block of its own, so that the text does not change
while the function works.  Simplification: a view beyond the end is undefined when it is made. -/
def NewArg.read (env : Nat → Cont) : NewArg → Res Arg
  | .txt t => .ok (.ext t)
  | .of i first num => if first + num ≤ (env i).size then .ok (.ext (((env i).mem.drop first).take num)) else .ub

/-- The arguments from left to right. -/
def readAll (env : Nat → Cont) : List NewArg → Res (List Arg)
  | [] => .ok []
  | a :: as => do
    let x ← a.read env
    let xs ← readAll env as
    .ok (x :: xs)

/-- `CharOwningContainer cont;` (/repo/src/c4/format.hpp:914, 968, 1022): no characters, and the capacity that the container has without an allocation. -/
def newCont (term : Bool) (cap : Nat) : Cont := ⟨term, 0, List.replicate (cap + term.toNat) 0, 0⟩

/-- The functions that return a new container (/repo/src/c4/format.hpp:911-917, 965-971, 1019-1025). -/
def callNew (dbg : Bool) (grow : Nat → Nat) (term : Bool) (cap f : Nat) (env : Nat → Cont) : Call → Res Cont
  | .cat args => do
    let args ← readAll env args
    catrs dbg grow args f (newCont term cap)
  | .catsep sep args => do
    let sep ← sep.read env
    let args ← readAll env args
    catseprs dbg grow sep args f (newCont term cap)
  | .format fmt args => do
    let fmt ← fmt.read env
    let args ← readAll env args
    formatrs dbg grow fmt args f (newCont term cap)

/-- `x = call;` for each of the statements, `x` being the container with the number given: it gets the block of the container returned
(C++ standard, [string.cons] and [vector]; trusted). -/
def runNew (dbg : Bool) (grow : Nat → Nat) (cap f : Nat) : List (Nat × Call) → (Nat → Cont) → Res (Nat → Cont)
  | [], env => .ok env
  | (i, c) :: r, env => do
    let s ← callNew dbg grow (env i).term cap f env c
    runNew dbg grow cap f r fun j => if j = i then s else env j

end C4.Alias
