import Verif.Debug.Views
/-
Specification of the arguments of functions of views: which characters of the view a call names, as numbers without overflow.
-/
namespace C4.Spec

/-- A view of real characters: null only if empty, smaller than half of the address space, and inside of it. -/
def Sane (v : View) : Prop := (v.str ≠ 0 ∨ v.len = 0) ∧ v.len < 2 ^ 63 ∧ v.str + v.len < 2 ^ 64

/-- The second view lies inside of the first. -/
def Within (v s : View) : Prop := v.str ≤ s.str ∧ s.str + s.len ≤ v.str + v.len

instance (v s : View) : Decidable (Within v s) := inferInstanceAs (Decidable (_ ∧ _))

/-- `npos` stands for the end of the view. -/
def posOr (p len : Nat) : Int := if p = NPOS then len else p

/-- The positions named by the call, first and past the last, as documented. -/
def ViewCall.positions (v : View) : ViewCall → Int × Int
  | .item i => (i, i + 1)
  | .front => (0, 1)
  | .back => ((v.len : Int) - 1, v.len)
  | .sub1 f => (f, v.len)
  | .sub2 f n => (f, if n = NPOS then v.len else (f : Int) + n)
  | .range f l => (f, posOr l v.len)
  | .first n => (0, posOr n v.len)
  | .last n => ((v.len : Int) - posOr n v.len, v.len)
  | .offs l r => (l, (v.len : Int) - r)
  | .leftOf p => (0, posOr p v.len)
  | .leftOfInc p inc => (0, if p = NPOS then v.len else if inc then (p : Int) + 1 else p)
  | .rightOf p => (if p = NPOS then v.len else (p : Int) + 1, v.len)
  | .rightOfInc p inc => (if p = NPOS then v.len else if inc then (p : Int) else (p : Int) + 1, v.len)
  | .leftOfSub s => (0, (s.str : Int) - v.str)
  | .rightOfSub s => ((s.str : Int) + s.len - v.str, v.len)
  | .searchFrom p => (posOr p v.len, v.len)
  | .countFrom p => (p, v.len)
  | .copyFrom n f num => (f, if num = NPOS then (f : Int) + min ((v.len : Int) - f) n else (f : Int) + min (num : Int) n)
  | .reverseSub f n => (f, (f : Int) + n)
  | .reverseRange f l => (f, l)
  | .erase f n => (f, (f : Int) + n)
  | .eraseRange f l => (f, l)
  | .eraseSub s => ((s.str : Int) - v.str, (s.str : Int) + s.len - v.str)

/-- The call is in range: the positions named are in order and in the view.  A view given as an argument is a part of the view, or, to the
functions that select what is left or right of it, empty. -/
def ViewCall.inRange (v : View) (c : ViewCall) : Prop :=
  match c with
  | .leftOfSub s => Within v s ∨ s.len = 0
  | .rightOfSub s => Within v s ∨ s.len = 0
  | .eraseSub s => Within v s
  | c => 0 ≤ (ViewCall.positions v c).1 ∧ (ViewCall.positions v c).1 ≤ (ViewCall.positions v c).2 ∧ (ViewCall.positions v c).2 ≤ v.len

/-- The arguments are values of `size_t`, and views of real characters. -/
def ViewCall.values : ViewCall → Prop
  | .item i => i < 2 ^ 64
  | .front => True
  | .back => True
  | .sub1 f => f < 2 ^ 64
  | .sub2 f n => f < 2 ^ 64 ∧ n < 2 ^ 64
  | .range f l => f < 2 ^ 64 ∧ l < 2 ^ 64
  | .first n => n < 2 ^ 64
  | .last n => n < 2 ^ 64
  | .offs l r => l < 2 ^ 64 ∧ r < 2 ^ 64
  | .leftOf p => p < 2 ^ 64
  | .leftOfInc p _ => p < 2 ^ 64
  | .rightOf p => p < 2 ^ 64
  | .rightOfInc p _ => p < 2 ^ 64
  | .leftOfSub s => Sane s
  | .rightOfSub s => Sane s
  | .searchFrom p => p < 2 ^ 64
  | .countFrom p => p < 2 ^ 64
  | .copyFrom n f num => n < 2 ^ 63 ∧ f < 2 ^ 64 ∧ num < 2 ^ 64
  | .reverseSub f n => f < 2 ^ 64 ∧ n < 2 ^ 64
  | .reverseRange f l => f < 2 ^ 64 ∧ l < 2 ^ 64
  | .erase f n => f < 2 ^ 64 ∧ n < 2 ^ 64
  | .eraseRange f l => f < 2 ^ 64 ∧ l < 2 ^ 64
  | .eraseSub s => Sane s

/-- The calls that return a part of the view: all that is at the positions. -/
def ViewCall.selects : ViewCall → Bool
  | .sub1 _ | .sub2 _ _ | .range _ _ | .first _ | .last _ | .offs _ _ | .leftOf _ | .leftOfInc _ _ | .rightOf _ | .rightOfInc _ _
  | .leftOfSub _ | .rightOfSub _ => true
  | _ => false

/-- The calls that remove characters. -/
def ViewCall.removes : ViewCall → Bool
  | .erase _ _ | .eraseRange _ _ | .eraseSub _ => true
  | _ => false

/-- The calls out of range that are accepted: `offs` by one character too many, `left_of` including the position of the end, `right_of` not
including the position of the end, a number of characters that makes the sum exceed `size_t`, a range to reverse with the ends exchanged. -/
def ViewCall.mistaken (v : View) : ViewCall → Prop
  | .offs l r => l ≤ v.len ∧ r ≤ v.len ∧ l + r = v.len + 1
  | .leftOfInc p inc => p = v.len ∧ inc = true ∧ v.str ≠ 0
  | .rightOf p => p = v.len
  | .rightOfInc p inc => p = v.len ∧ inc = false
  | .reverseSub f n => f ≤ v.len ∧ 2 ^ 64 ≤ f + n
  | .reverseRange f l => l < f ∧ f ≤ v.len
  | .erase f n => v.str ≠ 0 ∧ 2 ^ 64 ≤ f + n ∧ f + n ≤ v.len + 2 ^ 64
  | _ => False

/-- The calls in range that are rejected: a search from `npos` is in range, but `count` and `first_not_of` are not given one; nothing is
erased from a null view by giving a null view. -/
def ViewCall.refused (v : View) : ViewCall → Prop
  | .eraseSub _ => v.str = 0
  | _ => False

end C4.Spec
