import Verif.SpanSizes
import Verif.Span
/-
Model of the assertions of the functions of spans, for any index type (/repo/src/c4/span.hpp:96-133, 326-328, 418-420, 497-499), and of the
constructors and conversions of spans (/repo/src/c4/span.hpp:294-318, 378-409, 461-490).
-/
namespace C4

/-- A call of a function of a span that asserts its arguments. -/
inductive SpanCall where
  | item (i : Int)
  | subspan (first num : Int)
  | subspanFrom (first : Int)
  | range (first last : Int)
  | rangeFrom (first : Int)
  | first (num : Int)
  | last (num : Int)
  | resize (sz : Int)
  | rtrim (n : Int)
  | ltrim (n : Int)
  deriving DecidableEq, Repr

/-- `C4_ASSERT(c)` and `C4_XASSERT(c)`. -/
def assertThat (c : Prop) [Decidable c] : Res Unit := if c then .ok () else .abort

/-- The assertions of the call on a span with index type `t`, `size` elements and capacity `cap`: the sum in `subspan` is computed in the
promoted type, undefined if it is signed and overflows.
`operator[]` (/repo/src/c4/span.hpp:96), `subspan` (101-102, 107), `range` (113-115, 120), `first` (126), `last` (131),
`resize` (326, 418, 497), `rtrim` (327, 419, 498), `ltrim` (328, 420, 499).
The assertions of `_select` (364, 366, 448, 450) are about its own results, and are left out. -/
def SpanCall.asserts (t : ITy) (size cap : Int) : SpanCall → Res Unit
  | .item i => assertThat (i ≥ 0 ∧ i < size)
  | .subspan fst num =>
    (assertThat ((fst ≥ 0 ∧ fst < size) ∨ (fst = size ∧ num = 0))).bind fun _ =>
    if (t.arith (fst + num)).2 then .ub
    else assertThat ((t.arith (fst + num)).1 ≥ 0 ∧ (t.arith (fst + num)).1 ≤ size)
  | .subspanFrom fst => assertThat (fst ≥ 0 ∧ fst ≤ size)
  | .range fst lst =>
    (assertThat ((fst ≥ 0 ∧ fst < size) ∨ (fst = size ∧ fst = lst))).bind fun _ =>
    (assertThat (lst ≥ 0 ∧ lst ≤ size)).bind fun _ => assertThat (lst ≥ fst)
  | .rangeFrom fst => assertThat (fst ≥ 0 ∧ fst ≤ size)
  | .first num => assertThat (num ≥ 0 ∧ num ≤ size)
  | .last num => assertThat (num ≥ 0 ∧ num ≤ size)
  | .resize sz => assertThat (sz ≤ cap)
  | .rtrim n => assertThat (n ≥ 0 ∧ n < size)
  | .ltrim n => assertThat (n ≥ 0 ∧ n < size)

/-- The default constructors (/repo/src/c4/span.hpp:298, 386, 467). -/
def Span.null : Span := ⟨0, 0⟩
/-- See `Span.null`. -/
def SpanRS.null : SpanRS := ⟨0, 0, 0⟩
/-- See `Span.null`. -/
def SpanRSL.null : SpanRSL := ⟨0, 0, 0, 0⟩

/-- `spanrs(p, sz)` and `assign(p, sz)` (/repo/src/c4/span.hpp:399-401). -/
def SpanRS.of (p : Int) (sz : Nat) : SpanRS := ⟨p, sz, sz⟩
/-- `spanrs(p, sz, cap)` and `assign(p, sz, cap)` (/repo/src/c4/span.hpp:403-404). -/
def SpanRS.ofCap (p : Int) (sz cap : Nat) : SpanRS := ⟨p, sz, cap⟩
/-- `spanrsl(p, sz)` and `assign(p, sz)` (/repo/src/c4/span.hpp:477-478). -/
def SpanRSL.of (p : Int) (sz : Nat) : SpanRSL := ⟨p, sz, sz, 0⟩
/-- `spanrsl(p, sz, cap)` and `assign(p, sz, cap)` (/repo/src/c4/span.hpp:480-481). -/
def SpanRSL.ofCap (p : Int) (sz cap : Nat) : SpanRSL := ⟨p, sz, cap, 0⟩

/-- `operator span()` of `spanrs` (/repo/src/c4/span.hpp:378). -/
def SpanRS.toSpan (s : SpanRS) : Span := ⟨s.ptr, s.size⟩
/-- `operator span()` of `spanrsl` (/repo/src/c4/span.hpp:461). -/
def SpanRSL.toSpan (s : SpanRSL) : Span := ⟨s.ptr, s.size⟩
/-- `operator spanrs()` of `spanrsl` (/repo/src/c4/span.hpp:462). -/
def SpanRSL.toRS (s : SpanRSL) : SpanRS := SpanRS.ofCap s.ptr s.size s.cap

end C4
