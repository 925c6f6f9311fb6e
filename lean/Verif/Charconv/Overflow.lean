import Verif.Charconv.Read
import Verif.Charconv.Write
/-
Model of `overflows<T>` (/repo/src/c4/charconv.hpp:1616-1808), of the limit tables it uses (273-412), and of
`from_chars(csubstr, fmt::overflow_checked_<T>)` (/repo/src/c4/format.hpp:328-343).
-/
namespace C4

/-- The loop of `detail::check_overflow` (/repo/src/c4/charconv.hpp:1622-1628), entered with equal lengths, so
that reading `str[i]` and `limit[i]` for `i < limit.len` is walking both lists. -/
def checkOverflowLoop : List Nat → List Nat → Bool
  | c :: s, l :: ls => if c < l then false else if c > l then true else checkOverflowLoop s ls
  | _, _ => false

/-- `detail::check_overflow` (/repo/src/c4/charconv.hpp:1618-1633). -/
def checkOverflow (str limit : List Nat) : Bool :=
  if str.length = limit.length then checkOverflowLoop str limit
  else str.length > limit.length

/-- `charconv_digits<T>::max_value_dec()` (/repo/src/c4/charconv.hpp:291, 306, 326, 341, 361, 376, 395, 410). -/
def maxValueDec : ITy → List Nat
  | ⟨.w8, true⟩ => S "127"
  | ⟨.w8, false⟩ => S "255"
  | ⟨.w16, true⟩ => S "32767"
  | ⟨.w16, false⟩ => S "65535"
  | ⟨.w32, true⟩ => S "2147483647"
  | ⟨.w32, false⟩ => S "4294967295"
  | ⟨.w64, true⟩ => S "9223372036854775807"
  | ⟨.w64, false⟩ => S "18446744073709551615"

/-- `!((str.len < k) || (str.len == k && str[0] <= c))`. -/
def lenHeadOverflow (str : List Nat) (k c : Nat) : Res Bool :=
  if str.length < k then .ok false
  else if str.length = k then do
    let x ← rd str 0
    .ok (!decide (x ≤ c))
  else .ok true

/-- `charconv_digits<T>::is_oct_overflow` (/repo/src/c4/charconv.hpp:292, 307, 327, 342, 362, 377, 396, 411). -/
def isOctOverflow : ITy → List Nat → Res Bool
  | ⟨.w8, true⟩, s => lenHeadOverflow s 3 49
  | ⟨.w8, false⟩, s => lenHeadOverflow s 3 51
  | ⟨.w16, true⟩, s => .ok (!decide (s.length < 6))
  | ⟨.w16, false⟩, s => lenHeadOverflow s 6 49
  | ⟨.w32, true⟩, s => lenHeadOverflow s 11 49
  | ⟨.w32, false⟩, s => lenHeadOverflow s 11 51
  | ⟨.w64, true⟩, s => .ok (!decide (s.length < 22))
  | ⟨.w64, false⟩, s => lenHeadOverflow s 22 49

/-- The pattern `fno = str.first_not_of('0', start); if(fno == npos) return false; return f(fno)`. -/
def skipZeros (str : List Nat) (start : Nat) (f : Nat → Res Bool) : Res Bool := do
  match (← firstNotOf str 48 start) with
  | none => .ok false
  | some fno => f fno

/-- `overflows<T>(csubstr)` for unsigned `T` (/repo/src/c4/charconv.hpp:1648-1705). -/
def overflowsU (w : W) (str : List Nat) : Res Bool :=
  if str.length = 0 then .ok false
  else do
    let c0 ← rd str 0
    if c0 = 48 then
      if str.length = 1 then .ok false
      else do
        let c1 ← rd str 1
        if c1 = 120 ∨ c1 = 88 then
          skipZeros str 2 fun fno => .ok (!decide (str.length ≤ fno + w.bytes * 2))
        else if c1 = 98 ∨ c1 = 66 then
          skipZeros str 2 fun fno => .ok (!decide (str.length ≤ fno + w.bytes * 8))
        else if c1 = 111 ∨ c1 = 79 then
          skipZeros str 2 fun fno => isOctOverflow ⟨w, false⟩ (str.drop fno)
        else
          skipZeros str 1 fun fno => .ok (checkOverflow (str.drop fno) (maxValueDec ⟨w, false⟩))
    else if c0 = 45 then .ok true
    else .ok (checkOverflow str (maxValueDec ⟨w, false⟩))

/-- `overflows<T>(csubstr)` for signed `T` (/repo/src/c4/charconv.hpp:1715-1808).  `str.str[1]` is read as soon
as the first character is '-', also when it is the only one. -/
def overflowsI (w : W) (str : List Nat) : Res Bool :=
  if str.length = 0 then .ok false
  else do
    let c0 ← rd str 0
    if c0 = 45 then do
      let c1 ← rd str 1
      if c1 = 48 then
        if str.length = 2 then .ok false
        else do
          let c2 ← rd str 2
          if c2 = 120 ∨ c2 = 88 then
            skipZeros str 3 fun fno => .ok (checkOverflow (str.drop fno) (minValueHex w))
          else if c2 = 98 ∨ c2 = 66 then
            skipZeros str 3 fun fno => .ok (checkOverflow (str.drop fno) (minValueBin w))
          else if c2 = 111 ∨ c2 = 79 then
            skipZeros str 3 fun fno => .ok (checkOverflow (str.drop fno) (minValueOct w))
          else
            skipZeros str 2 fun fno => .ok (checkOverflow (str.drop fno) (minValueDec w))
      else .ok (checkOverflow (str.drop 1) (minValueDec w))
    else if c0 = 48 then
      if str.length = 1 then .ok false
      else do
        let c1 ← rd str 1
        if c1 = 120 ∨ c1 = 88 then
          skipZeros str 2 fun fno =>
            let len := str.length - fno
            if len < w.bytes * 2 then .ok false
            else if len = w.bytes * 2 then do
              let x ← rd str fno
              .ok (!decide (x ≤ 55))
            else .ok true
        else if c1 = 98 ∨ c1 = 66 then
          skipZeros str 2 fun fno => .ok (!decide (str.length ≤ fno + (w.bytes * 8 - 1)))
        else if c1 = 111 ∨ c1 = 79 then
          skipZeros str 2 fun fno => isOctOverflow ⟨w, true⟩ (str.drop fno)
        else
          skipZeros str 1 fun fno => .ok (checkOverflow (str.drop fno) (maxValueDec ⟨w, true⟩))
    else .ok (checkOverflow str (maxValueDec ⟨w, true⟩))

/-- `from_chars(csubstr, fmt::overflow_checked_<T>)` for unsigned `T` (/repo/src/c4/format.hpp:328-343; `atox` is
`atou`, /repo/src/c4/charconv.hpp:2242 ff.). -/
def overflowCheckedU (w : W) (str : List Nat) : Res (Bool × Int × Bool) := do
  let o ← overflowsU w str
  if !o then atou ⟨w, false⟩ str else .ok (false, 0, false)

/-- `from_chars(csubstr, fmt::overflow_checked_<T>)` for signed `T` (/repo/src/c4/format.hpp:328-343). -/
def overflowCheckedI (w : W) (str : List Nat) : Res (Bool × Int × Bool) := do
  let o ← overflowsI w str
  if !o then atoi ⟨w, true⟩ str else .ok (false, 0, false)

end C4
