import Verif.MemUtil
/-
Model of the span classes of /repo/src/c4/span.hpp: `span`, `spanrs` (resizable on the right), `spanrsl` (remembers where it
came from).

Addresses are integers counted in elements.  The index type `I` is an unsigned type of width `w` (the default is
`size_t`); sizes, capacities and offsets are stored modulo 2^w.  Signed index types are not modelled.
-/
namespace C4

/-- `a + b`, stored in an index of width `w`. -/
def iAdd (w : W) (a b : Nat) : Nat := (a + b) % 2 ^ w.bits
/-- `a - b`, stored in an index of width `w`. -/
def iSub (w : W) (a b : Nat) : Nat := (a + (2 ^ w.bits - b % 2 ^ w.bits)) % 2 ^ w.bits
/-- A pointer difference converted to an index (`static_cast<size_t>(p - q)`, `static_cast<I>(p - q)`). -/
def iDiff (w : W) (p q : Int) : Nat := ((p - q) % (2 ^ w.bits : Nat)).toNat

/-- `span`: members `m_ptr`, `m_size` (/repo/src/c4/span.hpp:276-284). -/
structure Span where
  ptr : Int
  size : Nat
  deriving DecidableEq, Repr

/-- `spanrs`: members `m_ptr`, `m_size`, `m_capacity` (/repo/src/c4/span.hpp:353-360). -/
structure SpanRS where
  ptr : Int
  size : Nat
  cap : Nat
  deriving DecidableEq, Repr

/-- `spanrsl`: members `m_ptr`, `m_size`, `m_capacity`, `m_offset` (/repo/src/c4/span.hpp:436-444). -/
structure SpanRSL where
  ptr : Int
  size : Nat
  cap : Nat
  offset : Nat
  deriving DecidableEq, Repr

/-- What the base class `span_crtp` and the common members need from an implementation class. -/
class SpanImpl (σ : Type) where
  /-- `m_ptr` -/
  ptr : σ → Int
  /-- `m_size` -/
  size : σ → Nat
  /-- `capacity()` -/
  capacity : σ → Nat
  /-- `_select(p, sz)` -/
  select : W → σ → Int → Nat → σ
  /-- `m_size = sz`, in `resize`, `rtrim` and `clear` -/
  setSize : σ → Nat → σ
  /-- `ltrim(n)` -/
  ltrim : W → σ → Nat → σ

/-- `span::_select` (/repo/src/c4/span.hpp:284), `capacity` (324), `ltrim` (328). -/
instance : SpanImpl Span where
  ptr := Span.ptr
  size := Span.size
  capacity := Span.size
  select _ _ p sz := ⟨p, sz⟩
  setSize s n := { s with size := n }
  ltrim w s n := ⟨s.ptr + n, iSub w s.size n⟩

/-- `spanrs::_select` (/repo/src/c4/span.hpp:362-368), `capacity` (416), `ltrim` (420). -/
instance : SpanImpl SpanRS where
  ptr := SpanRS.ptr
  size := SpanRS.size
  capacity := SpanRS.cap
  select w s p sz :=
    let delta := iDiff .w64 p s.ptr
    ⟨p, sz, iSub w s.cap delta⟩
  setSize s n := { s with size := n }
  ltrim w s n := ⟨s.ptr + n, iSub w s.size n, iSub w s.cap n⟩

/-- `spanrsl::_select` (/repo/src/c4/span.hpp:446-452), `capacity` (495), `ltrim` (499). -/
instance : SpanImpl SpanRSL where
  ptr := SpanRSL.ptr
  size := SpanRSL.size
  capacity := SpanRSL.cap
  select w s p sz :=
    let delta := iDiff w p s.ptr
    ⟨p, sz, iSub w s.cap delta, iAdd w s.offset delta⟩
  setSize s n := { s with size := n }
  ltrim w s n := ⟨s.ptr + n, iSub w s.size n, iSub w s.cap n, iAdd w s.offset n⟩

variable {σ : Type} [SpanImpl σ]
open SpanImpl

namespace Spn

/-- `subspan(first, num)` (/repo/src/c4/span.hpp:99-104). -/
def subspan (w : W) (s : σ) (first num : Nat) : σ := select w s (ptr s + first) num
/-- `subspan(first)` (/repo/src/c4/span.hpp:105-109). -/
def subspanFrom (w : W) (s : σ) (first : Nat) : σ := select w s (ptr s + first) (iSub w (size s) first)
/-- `range(first, last)` (/repo/src/c4/span.hpp:111-117). -/
def range (w : W) (s : σ) (first last : Nat) : σ := select w s (ptr s + first) (iSub w last first)
/-- `range(first)` (/repo/src/c4/span.hpp:118-122). -/
def rangeFrom (w : W) (s : σ) (first : Nat) : σ := select w s (ptr s + first) (iSub w (size s) first)
/-- `first(num)` (/repo/src/c4/span.hpp:124-128). -/
def first (w : W) (s : σ) (num : Nat) : σ := select w s (ptr s) num
/-- `last(num)` (/repo/src/c4/span.hpp:129-133). -/
def last (w : W) (s : σ) (num : Nat) : σ := select w s (ptr s + size s - num) num
/-- `is_subspan(ss)` (/repo/src/c4/span.hpp:135-148); address 0 is the null pointer. -/
def isSubspan (s ss : σ) : Bool :=
  if ptr s = 0 then false else decide (ptr ss ≥ ptr s) && decide (ptr ss + size ss ≤ ptr s + size s)
/-- `compll(ss)` (/repo/src/c4/span.hpp:152-165). -/
def compll (w : W) (s ss : σ) : σ :=
  if ptr ss ≥ ptr s ∧ ptr ss ≤ ptr s + size s then subspan w s 0 (iDiff w (ptr ss) (ptr s)) else subspan w s 0 0
/-- `complr(ss)` (/repo/src/c4/span.hpp:169-182). -/
def complr (w : W) (s ss : σ) : σ :=
  let sse := ptr ss + size ss
  if sse ≥ ptr s ∧ sse ≤ ptr s + size s then
    subspan w s (iDiff w sse (ptr s)) (iDiff w (ptr s + size s) sse)
  else subspan w s 0 0
/-- `same_span(that)` (/repo/src/c4/span.hpp:184-187). -/
def sameSpan (s that : σ) : Bool := size s == size that && decide (ptr s = ptr that)
/-- `resize(sz)` (/repo/src/c4/span.hpp:326, 418, 497). -/
def resize (s : σ) (sz : Nat) : σ := setSize s sz
/-- `rtrim(n)` (/repo/src/c4/span.hpp:327, 419, 498). -/
def rtrim (w : W) (s : σ) (n : Nat) : σ := setSize s (iSub w (size s) n)
/-- `clear()` (/repo/src/c4/span.hpp:69). -/
def clear (s : σ) : σ := setSize s 0

/-- The assertion of `subspan(first, num)` (/repo/src/c4/span.hpp:101-102): the sum is computed in the promoted type, which is
`int` (no wrap) for 8 and 16 bits and the type itself for 32 and 64 bits. -/
def subspanAssert (w : W) (s : σ) (first num : Nat) : Prop :=
  let sum := match w with
    | .w8 | .w16 => first + num
    | .w32 | .w64 => iAdd w first num
  (first < size s ∨ (first = size s ∧ num = 0)) ∧ sum ≤ size s

/-- The elements seen through a span, in a memory `m`. -/
def elems {α : Type} (m : Int → α) (s : σ) : List α := (List.range (size s)).map fun i : Nat => m (ptr s + (i : Int))

end Spn

/-- `original()` (/repo/src/c4/span.hpp:502-505). -/
def SpanRSL.original (w : W) (s : SpanRSL) : SpanRSL :=
  ⟨s.ptr - s.offset, iAdd w s.cap s.offset, iAdd w s.cap s.offset, 0⟩
/-- `original<spanrs>()` (/repo/src/c4/span.hpp:507-511; the constructor of `spanrs`, 399). -/
def SpanRSL.originalRS (w : W) (s : SpanRSL) : SpanRS :=
  ⟨s.ptr - s.offset, iAdd w s.cap s.offset, iAdd w s.cap s.offset⟩

/-! ### Comparison -/

/-- `std::equal(l.begin(), l.end(), r.begin(), r.end())`: different sizes, or the first difference. -/
def stdEqual4 {α : Type} [DecidableEq α] : List α → List α → Bool
  | [], [] => true
  | a :: l, b :: r => if a = b then stdEqual4 l r else false
  | _, _ => false

/-- `std::equal(l.begin(), l.end(), r.begin())`: reading `r` past its end is undefined behaviour. -/
def stdEqual3 {α : Type} [DecidableEq α] : List α → List α → Res Bool
  | [], _ => .ok true
  | _ :: _, [] => .ub
  | a :: l, b :: r => if a = b then stdEqual3 l r else .ok false

/-- `operator==` from C++14 on (/repo/src/c4/span.hpp:204-216). -/
def spanEq14 {α : Type} [DecidableEq α] (l r : List α) : Bool := stdEqual4 l r

/-- `operator==` in C++11 (/repo/src/c4/span.hpp:204-216); `same` is `l.same_span(r)`. -/
def spanEq11 {α : Type} [DecidableEq α] (same : Bool) (l r : List α) : Res Bool :=
  if same then .ok true else stdEqual3 l r

/-- `std::lexicographical_compare` with `operator<` of the elements. -/
def stdLexLess {α : Type} (lt : α → α → Bool) : List α → List α → Bool
  | _, [] => false
  | [], _ :: _ => true
  | a :: l, b :: r => if lt a b then true else if lt b a then false else stdLexLess lt l r

/-- `operator<` (/repo/src/c4/span.hpp:229-237). -/
def spanLt {α : Type} (lt : α → α → Bool) (l r : List α) : Bool := stdLexLess lt l r
/-- `operator>` (/repo/src/c4/span.hpp:250-258). -/
def spanGt {α : Type} (lt : α → α → Bool) (l r : List α) : Bool := spanLt lt r l
/-- `operator<=` (/repo/src/c4/span.hpp:239-247). -/
def spanLe {α : Type} (lt : α → α → Bool) (l r : List α) : Bool := !spanGt lt l r
/-- `operator>=` (/repo/src/c4/span.hpp:261-269). -/
def spanGe {α : Type} (lt : α → α → Bool) (l r : List α) : Bool := !spanLt lt l r
/-- `operator!=` (/repo/src/c4/span.hpp:218-226). -/
def spanNe14 {α : Type} [DecidableEq α] (l r : List α) : Bool := !spanEq14 l r

end C4
