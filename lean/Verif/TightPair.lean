/-
Model of `tight_pair` (/repo/src/c4/memory_util.hpp:626-772).

Simplified: the state of an object of a class that is not empty is one number, and the classes have no user-provided default
constructor, so that default-initialization leaves that number indeterminate.  Empty classes have no state: what is stored
for them is not observed, only which part of the pair they are.  Left out: pairs that do not compile because a base class is
not a class, is final or is ambiguous.
-/
namespace C4

namespace Tight

/-- `TightPairCase_e` (/repo/src/c4/memory_util.hpp:633-640). -/
inductive Case where
  | same | sameEmpty | bothEmpty | firstEmpty | secondEmpty | general
deriving DecidableEq, Repr

/-- `tpc_which_case` (/repo/src/c4/memory_util.hpp:642-662): whether the types are the same, and whether each is empty. -/
def whichCase (same empty1 empty2 : Bool) : Case :=
  if same then (if empty1 then .sameEmpty else .same)
  else if empty1 && empty2 then .bothEmpty
  else if empty1 then .firstEmpty
  else if empty2 then .secondEmpty
  else .general

/-- A part of a pair: a base class, or a member. -/
inductive Slot where
  | baseFirst | baseSecond | memFirst | memSecond
deriving DecidableEq, Repr

/-- What `first()` refers to (/repo/src/c4/memory_util.hpp:680-681, 697-698, 712-713, 729-730, 746-747, 763-764). -/
def firstSlot : Case → Slot
  | .general | .secondEmpty => .memFirst
  | _ => .baseFirst

/-- What `second()` refers to (/repo/src/c4/memory_util.hpp:682-683, 699-700, 714-715, 731-732, 748-749, 765-766). -/
def secondSlot : Case → Slot
  | .sameEmpty => .baseFirst
  | .bothEmpty | .secondEmpty => .baseSecond
  | _ => .memSecond

/-- The parts named in the initializer list of the default constructor (/repo/src/c4/memory_util.hpp:677, 694, 709, 726, 743, 760). -/
def defaultInit : Case → List Slot
  | .general => [.memFirst, .memSecond]
  | .sameEmpty => [.baseFirst]
  | .bothEmpty => [.baseFirst, .baseSecond]
  | .same => [.baseFirst]
  | .firstEmpty => [.baseFirst, .memSecond]
  | .secondEmpty => [.baseSecond, .memFirst]

/-- The parts initialized by the constructor from two values, `true` for the first (/repo/src/c4/memory_util.hpp:678, 695, 710, 727, 744, 761). -/
def valueInit : Case → List (Slot × Bool)
  | .general => [(.memFirst, true), (.memSecond, false)]
  | .sameEmpty => [(.baseFirst, true)]
  | .bothEmpty => [(.baseFirst, true), (.baseSecond, false)]
  | .same => [(.baseFirst, true), (.memSecond, false)]
  | .firstEmpty => [(.baseFirst, true), (.memSecond, false)]
  | .secondEmpty => [(.baseSecond, false), (.memFirst, true)]

/-- The values of the parts; `none` is an indeterminate value. -/
abbrev Pair := Slot → Option Nat

/-- Initialization of, or assignment to, one part. -/
def write (p : Pair) (s : Slot) (v : Option Nat) : Pair := fun t => if t = s then v else p t

/-- The default constructor: parts in the initializer list are value-initialized (0), the others default-initialized, which leaves numbers indeterminate (/repo/src/c4/memory_util.hpp:677, 694, 709, 726, 743, 760, see `defaultInit`). -/
def mkDefault (c : Case) : Pair := (defaultInit c).foldl (fun p s => write p s (some 0)) fun _ => none

/-- The constructor from two values (/repo/src/c4/memory_util.hpp:678, 695, 710, 727, 744, 761, see `valueInit`). -/
def mk (c : Case) (f s : Nat) : Pair := (valueInit c).foldl (fun p x => write p x.1 (some (if x.2 then f else s))) fun _ => none

/-- The values of `first()` and `second()` (/repo/src/c4/memory_util.hpp:680-683, see `firstSlot`). -/
def first (c : Case) (p : Pair) : Option Nat := p (firstSlot c)
@[inherit_doc first] def second (c : Case) (p : Pair) : Option Nat := p (secondSlot c)
/-- Assignment through `first()` and `second()`. -/
def setFirst (c : Case) (p : Pair) (v : Nat) : Pair := write p (firstSlot c) (some v)
@[inherit_doc setFirst] def setSecond (c : Case) (p : Pair) (v : Nat) : Pair := write p (secondSlot c) (some v)

end Tight

end C4
