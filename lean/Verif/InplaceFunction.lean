import Verif.Basic
/-
Model of /repo/src/c4/ext/sg14/inplace_function.h.

A program has variables that hold, or do not hold, an `inplace_function`; a step is one constructor, assignment, swap or destructor.
Targets (closures) have an identity, given when they are constructed, so that it can be said which of them were destroyed.
Simplified: arguments and results of calls are left out (a call tells which target runs, and with which value); a target constructed from
one that throws leaves that one unchanged.
-/
namespace C4

/-- A target: its identity, its type, and its value (`none` once it was moved from). -/
structure Target where
  id : Nat
  kind : Nat
  val : Option Nat
deriving DecidableEq, Repr

/-- `vtable_ptr_` (/repo/src/c4/ext/sg14/inplace_function.h:70-128): the empty vtable of a class (each instance of the template has its
own, line 159) or the one of a closure type (line 201). -/
inductive VT where
  | empty (cls : Nat)
  | fn (kind : Nat)
deriving DecidableEq, Repr

/-- An `inplace_function` (/repo/src/c4/ext/sg14/inplace_function.h:157-342): its class (signature, capacity and alignment),
`vtable_ptr_`, and the target in `storage_`. -/
structure IFn where
  cls : Nat
  vt : VT
  st : Option Target
deriving DecidableEq, Repr

/-- The variables of the program, the number of targets constructed so far, and the targets destroyed, last first. -/
structure World where
  objs : List (Option IFn)
  next : Nat
  destroyed : List Nat
deriving DecidableEq, Repr

/-- `vtable_ptr_->copy_ptr(dst, src)` (`mv` false) or `move_ptr` (`mv` true): lines 95-96 (empty) and 107-114.
Gives the storages `dst` and `src` and the number of targets. -/
def ifProcess (mv : Bool) (vt : VT) (dst src : Option Target) (next : Nat) : Res (Option Target × Option Target × Nat) :=
  match vt with
  | .empty _ => .ok (dst, src, next)
  | .fn k =>
    match src with
    | none => .ub
    | some t =>
      if t.kind = k then .ok (some ⟨next, k, t.val⟩, some (if mv then ⟨t.id, t.kind, none⟩ else t), next + 1) else .ub

/-- `vtable_ptr_->destructor_ptr(storage)`: lines 97 (empty) and 115-118. -/
def ifDestruct (vt : VT) (st : Option Target) (destroyed : List Nat) : Res (Option Target × List Nat) :=
  match vt with
  | .empty _ => .ok (st, destroyed)
  | .fn k =>
    match st with
    | none => .ub
    | some t => if t.kind = k then .ok (none, t.id :: destroyed) else .ub

/-- One operation.  `throws` tells whether the constructor of the target that is called throws an exception; for `swap` it is the number
of the call that throws (0: none). -/
inductive IOp where
  | create (i cls : Nat)
  | closure (i cls kind val : Nat) (throws : Bool)
  | clone (i j cls : Nat) (mv throws : Bool)
  | assignNull (i : Nat)
  | assign (i j : Nat) (mv throws : Bool)
  | swap (i j : Nat) (throws : Nat)
  | delete (i : Nat)
deriving DecidableEq, Repr

/-- The function in variable `i`; using a variable without one is an error of the program. -/
def World.get (w : World) (i : Nat) : Res IFn :=
  match w.objs[i]? with
  | some (some f) => .ok f
  | _ => .ub

/-- Variable `i` has no function: one can be constructed there. -/
def World.free (w : World) (i : Nat) : Res Unit :=
  match w.objs[i]? with
  | some none => .ok ()
  | _ => .ub

/-- Store the function of variable `i`. -/
def World.put (w : World) (i : Nat) (f : Option IFn) : World := { w with objs := w.objs.set i f }

/-- `inplace_function()` and `inplace_function(nullptr)` (lines 170-172, 207-209). -/
def ifCreate (w : World) (i cls : Nat) : Res World := do
  let _ ← w.free i
  .ok (w.put i (some ⟨cls, .empty cls, none⟩))

/-- `inplace_function(T&& closure)` (lines 174-205).  If the constructor of the closure throws there is no object. -/
def ifClosure (w : World) (i cls kind val : Nat) (throws : Bool) : Res World := do
  let _ ← w.free i
  if throws then .ok w
  else .ok { (w.put i (some ⟨cls, .fn kind, some ⟨w.next, kind, some val⟩⟩)) with next := w.next + 1 }

/-- Copy and move constructor (lines 211-227), and conversion to another class (lines 294-312, 344-351): the vtable pointer is taken
over as it is.  Empty functions call nothing that could throw. -/
def ifClone (w : World) (i j cls : Nat) (mv throws : Bool) : Res World := do
  let _ ← w.free i
  let o ← w.get j
  let (st, ost, next) ← ifProcess mv o.vt none o.st w.next
  if throws ∧ st ≠ none then .ok w
  else .ok { ((w.put j (some { o with st := ost })).put i (some ⟨cls, o.vt, st⟩)) with next := next }

/-- `operator= (std::nullptr_t)` (lines 229-234). -/
def ifAssignNull (w : World) (i : Nat) : Res World := do
  let f ← w.get i
  let (st, destroyed) ← ifDestruct f.vt f.st w.destroyed
  .ok { (w.put i (some ⟨f.cls, .empty f.cls, st⟩)) with destroyed := destroyed }

/-- Copy and move assignment (lines 236-264), of functions of the same class (others are converted first).  If the constructor of
the target throws, the old target is already destroyed and the vtable pointer already replaced. -/
def ifAssign (w : World) (i j : Nat) (mv throws : Bool) : Res World := do
  let f ← w.get i
  let o ← w.get j
  if f.cls ≠ o.cls then .ub
  else if i = j then .ok w
  else
    let (st, destroyed) ← ifDestruct f.vt f.st w.destroyed
    let (st', ost, next) ← ifProcess mv o.vt st o.st w.next
    if throws ∧ st' ≠ st then
      .ok { (w.put i (some ⟨f.cls, o.vt, st⟩)) with destroyed := destroyed }
    else
      .ok { ((w.put j (some { o with st := ost })).put i (some ⟨f.cls, o.vt, st'⟩)) with next := next, destroyed := destroyed }

/-- `swap` (lines 314-338).  An exception leaves `tmp` without a call of its target's destructor. -/
def ifSwap (w : World) (i j : Nat) (throws : Nat) : Res World := do
  let f ← w.get i
  let o ← w.get j
  if f.cls ≠ o.cls then .ub
  else if i = j then .ok w
  else
    let (tmp, fst, next) ← ifProcess true f.vt none f.st w.next
    if throws = 1 then .ok w
    else
      let (fst, destroyed) ← ifDestruct f.vt fst w.destroyed
      let (fst', ost, next') ← ifProcess true o.vt fst o.st next
      if throws = 2 then
        .ok { (w.put i (some { f with st := fst })) with next := next, destroyed := destroyed }
      else
        let (ost, destroyed) ← ifDestruct o.vt ost destroyed
        let (ost', tmp, next'') ← ifProcess true f.vt ost tmp next'
        if throws = 3 then
          .ok { ((w.put i (some { f with st := fst' })).put j (some { o with st := ost })) with next := next', destroyed := destroyed }
        else
          let (_, destroyed) ← ifDestruct f.vt tmp destroyed
          .ok { ((w.put i (some ⟨f.cls, o.vt, fst'⟩)).put j (some ⟨o.cls, f.vt, ost'⟩)) with next := next'', destroyed := destroyed }

/-- `~inplace_function()` (lines 266-269). -/
def ifDelete (w : World) (i : Nat) : Res World := do
  let f ← w.get i
  let (_, destroyed) ← ifDestruct f.vt f.st w.destroyed
  .ok { (w.put i none) with destroyed := destroyed }

/-- One operation of the program. -/
def ifStep (w : World) : IOp → Res World
  | .create i cls => ifCreate w i cls
  | .closure i cls kind val throws => ifClosure w i cls kind val throws
  | .clone i j cls mv throws => ifClone w i j cls mv throws
  | .assignNull i => ifAssignNull w i
  | .assign i j mv throws => ifAssign w i j mv throws
  | .swap i j throws => ifSwap w i j throws
  | .delete i => ifDelete w i

/-- A whole program. -/
def ifRun (w : World) : List IOp → Res World
  | [] => .ok w
  | op :: ops => do
    let w ← ifStep w op
    ifRun w ops

/-- `operator()` (lines 271-277): which target runs, by its type and value; `none` is the exception of the empty vtable
(line 89). -/
def ifInvoke (w : World) (i : Nat) : Res (Option (Nat × Option Nat)) := do
  let f ← w.get i
  match f.vt with
  | .empty _ => .ok none
  | .fn k =>
    match f.st with
    | none => .ub
    | some t => if t.kind = k then .ok (some (k, t.val)) else .ub

/-- `operator bool` (lines 289-292): comparison with the empty vtable of the own class. -/
def ifBool (w : World) (i : Nat) : Res Bool := do
  let f ← w.get i
  .ok (decide (f.vt ≠ .empty f.cls))

end C4
