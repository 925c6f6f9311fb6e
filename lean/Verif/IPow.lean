import Verif.Charconv.Read
/-
Model of `ipow` (/repo/src/c4/memory_util.hpp:469-574) for integral base types.
-/
namespace C4

/-- The loop `for(E e = 0; e < exponent; ++e) r *= base;` (/repo/src/c4/memory_util.hpp:483-484, 504-505, 526-527, 545-546,
557-558, 570-571) with `r` and `base` of type `t`, `n` iterations left.  The product is computed in the promoted type, where
a signed overflow is undefined; the assignment to `r` reduces it to the type. -/
def ipowMul (t : ITy) (base : Int) : Nat → Int → Res Int
  | 0, r => .ok r
  | n + 1, r => if (t.arith (r * base)).2 then .ub else ipowMul t base n (t.wrap (t.arith (r * base)).1)

/-- The loop `for(E e = 0; e < exponent; ++e) r /= base;` (/repo/src/c4/memory_util.hpp:489-490, 510-511, 532-533): truncating
division; division by zero is undefined. -/
def ipowDiv (t : ITy) (base : Int) : Nat → Int → Res Int
  | 0, r => .ok r
  | n + 1, r =>
    if base = 0 then .ub
    else if (t.arith (Int.tdiv r base)).2 then .ub
    else ipowDiv t base n (t.wrap (t.arith (Int.tdiv r base)).1)

/-- `ipow(B base, E exponent)` (/repo/src/c4/memory_util.hpp:476-493, 540-548), `t` being `B` and `te` being `E`.  The overloads with a
compile-time base (lines 497-536, 552-573) run the same statements.  The counter `e` does not overflow, as it stops at `exponent`.
`exponent *= E(-1)` is computed in the promoted type, and overflows for the smallest value. -/
def ipow (t te : ITy) (base exponent : Int) : Res Int :=
  if te.sgn then
    if exponent ≥ 0 then ipowMul t base exponent.toNat 1
    else if (te.arith (exponent * -1)).2 then .ub
    else ipowDiv t base (te.wrap (te.arith (exponent * -1)).1).toNat 1
  else ipowMul t base exponent.toNat 1

/-- `ipow<B, Base, base>(exponent)` (/repo/src/c4/memory_util.hpp:518-536, 563-573): the base is converted to `B` first. -/
def ipowBase (t te : ITy) (base exponent : Int) : Res Int := ipow t te (t.wrap base) exponent

end C4
