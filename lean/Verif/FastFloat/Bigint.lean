import Verif.FastFloat.Compute
/-
Model of `stackvec` and `bigint` (/repo/src/c4/ext/fast_float_all.h:2338-2932) with 64-bit limbs (for those of 32 bits see Bigint32.lean).  A `stackvec` is the list of its limbs, lowest
first; there is room for `bigintLimbs` of them.  An operation gives the limbs afterwards and its result, also when it fails halfway:
`FASTFLOAT_TRY(x)` (line 265) returns `false` when `x` is false, `FASTFLOAT_ASSERT(x)` (line 257) goes on in any case.
-/
namespace C4.FF

/-- `bigint_limbs` (/repo/src/c4/ext/fast_float_all.h:2354-2355). -/
def bigintLimbs : Nat := 4000 / 64

/-- `try_push(value)` (/repo/src/c4/ext/fast_float_all.h:2404-2417). -/
def tryPush (v : List Nat) (x : Nat) : List Nat × Bool := if v.length < bigintLimbs then (v ++ [x], true) else (v, false)

/-- `try_extend(s)` (/repo/src/c4/ext/fast_float_all.h:2418-2432). -/
def tryExtend (v s : List Nat) : List Nat × Bool := if v.length + s.length ≤ bigintLimbs then (v ++ s, true) else (v, false)

/-- `try_resize(new_len, value)` (/repo/src/c4/ext/fast_float_all.h:2433-2456). -/
def tryResize (v : List Nat) (n x : Nat) : List Nat × Bool :=
  if n > bigintLimbs then (v, false)
  else if n > v.length then (v ++ List.replicate (n - v.length) x, true)
  else (v.take n, true)

/-- `rindex(index)` (/repo/src/c4/ext/fast_float_all.h:2384-2389). -/
def rindex (v : List Nat) (i : Nat) : Nat := v.getD (v.length - i - 1) 0

/-- `nonzero(index)` (/repo/src/c4/ext/fast_float_all.h:2457-2468). -/
def nonzero (v : List Nat) (i : Nat) : Bool := if h : i < v.length then (if rindex v i ≠ 0 then true else nonzero v (i + 1)) else false
termination_by v.length - i

/-- `normalize()` (/repo/src/c4/ext/fast_float_all.h:2469-2474). -/
def normalize (v : List Nat) : List Nat := if _h : 0 < v.length ∧ rindex v 0 = 0 then normalize v.dropLast else v
termination_by v.length
decreasing_by rw [List.length_dropLast]; omega

/-- `uint64_hi64(r0, truncated)` (/repo/src/c4/ext/fast_float_all.h:2483-2488). -/
def hi64One (r0 : Nat) : Nat × Bool := ((r0 <<< leadingZeroes r0) % 2 ^ 64, false)

/-- `uint64_hi64(r0, r1, truncated)` (/repo/src/c4/ext/fast_float_all.h:2490-2501). -/
def hi64Two (r0 r1 : Nat) : Nat × Bool :=
  let shl := leadingZeroes r0
  if shl = 0 then (r0, decide (r1 ≠ 0))
  else
    let shr := 64 - shl
    ((r0 <<< shl) % 2 ^ 64 ||| (r1 >>> shr), decide ((r1 <<< shl) % 2 ^ 64 ≠ 0))

/-- `scalar_add(x, y, overflow)` (/repo/src/c4/ext/fast_float_all.h:2523-2544); the builtin gives the same. -/
def scalarAdd (x y : Nat) : Nat × Bool :=
  let z := (x + y) % 2 ^ 64
  (z, decide (z < x))

/-- `scalar_mul(x, y, carry)` (/repo/src/c4/ext/fast_float_all.h:2546-2571) with the 128-bit type of the compiler: the result and the new carry. -/
def scalarMul (x y carry : Nat) : Nat × Nat :=
  let z := (x * y + carry) % 2 ^ 128
  (z % 2 ^ 64, z / 2 ^ 64)

/-- `scalar_mul(x, y, carry)` without a 128-bit type (/repo/src/c4/ext/fast_float_all.h:2556-2563). -/
def scalarMulGeneric (x y carry : Nat) : Nat × Nat :=
  let (low, high) := umul128Generic x y
  let (low, overflow) := scalarAdd low carry
  (low, (high + (if overflow then 1 else 0)) % 2 ^ 64)

/-- The loop of `small_add_from` (/repo/src/c4/ext/fast_float_all.h:2580-2584) over the limbs from `index` on: the limbs and the carry. -/
def smallAddLoop : List Nat → Nat → List Nat × Nat
  | [], carry => ([], carry)
  | x :: v, carry =>
    if carry ≠ 0 then
      let (z, overflow) := scalarAdd x carry
      let (v, carry) := smallAddLoop v (if overflow then 1 else 0)
      (z :: v, carry)
    else (x :: v, carry)

/-- `small_add_from(vec, y, start)` (/repo/src/c4/ext/fast_float_all.h:2573-2589). -/
def smallAddFrom (v : List Nat) (y start : Nat) : List Nat × Bool :=
  let (s, carry) := smallAddLoop (v.drop start) y
  let v := v.take start ++ s
  if carry ≠ 0 then tryPush v carry else (v, true)

/-- The loop of `small_mul` (/repo/src/c4/ext/fast_float_all.h:2603-2605): the limbs and the carry. -/
def smallMulLoop (y : Nat) : List Nat → Nat → List Nat × Nat
  | [], carry => ([], carry)
  | x :: v, carry =>
    let (z, carry) := scalarMul x y carry
    let (v, carry) := smallMulLoop y v carry
    (z :: v, carry)

/-- `small_mul(vec, y)` (/repo/src/c4/ext/fast_float_all.h:2598-2610). -/
def smallMul (v : List Nat) (y : Nat) : List Nat × Bool :=
  let (v, carry) := smallMulLoop y v 0
  if carry ≠ 0 then tryPush v carry else (v, true)

/-- The loop of `large_add_from` (/repo/src/c4/ext/fast_float_all.h:2624-2636) over the limbs of `x` from `start` on: the limbs and the carry. -/
def largeAddLoop : List Nat → List Nat → Bool → List Nat × Bool
  | x :: v, y :: s, carry =>
    let (z, c1) := scalarAdd x y
    let (z, c2) := if carry then scalarAdd z 1 else (z, false)
    let (v, carry) := largeAddLoop v s (c1 || c2)
    (z :: v, carry)
  | v, _, carry => (v, carry)

/-- `large_add_from(x, y, start)` (/repo/src/c4/ext/fast_float_all.h:2612-2643). -/
def largeAddFrom (x y : List Nat) (start : Nat) : List Nat × Bool :=
  let (x, ok) := if x.length < start ∨ y.length > x.length - start then tryResize x (y.length + start) 0 else (x, true)
  if !ok then (x, false)
  else
    let (s, carry) := largeAddLoop (x.drop start) y false
    let x := x.take start ++ s
    if carry then smallAddFrom x 1 (y.length + start) else (x, true)

/-- The loop of `long_mul` (/repo/src/c4/ext/fast_float_all.h:2662-2674) over the limbs of `y` from `index` on. -/
def longMulLoop (z : List Nat) : List Nat → Nat → List Nat → List Nat × Bool
  | [], _, x => (x, true)
  | yi :: y, index, x =>
    if yi ≠ 0 then
      let (zi, ok) := tryExtend [] z
      if !ok then (x, false)
      else
        let (zi, ok) := smallMul zi yi
        if !ok then (x, false)
        else
          let (x, ok) := largeAddFrom x zi index
          if !ok then (x, false) else longMulLoop z y (index + 1) x
    else longMulLoop z y (index + 1) x

/-- `long_mul(x, y)` (/repo/src/c4/ext/fast_float_all.h:2651-2679). -/
def longMul (x y : List Nat) : List Nat × Bool :=
  let z := (tryExtend [] x).1
  match y with
  | [] => (normalize x, true)
  | y0 :: y =>
    let (x, ok) := smallMul x y0
    if !ok then (x, false)
    else
      let (x, ok) := longMulLoop z y 1 x
      if !ok then (x, false) else (normalize x, true)

/-- `large_mul(x, y)` (/repo/src/c4/ext/fast_float_all.h:2681-2690). -/
def largeMul (x y : List Nat) : List Nat × Bool :=
  match y with
  | [y0] => smallMul x y0
  | _ => longMul x y

/-- `small_power_of_5` (/repo/src/c4/ext/fast_float_all.h:2695-2702). -/
def smallPowerOf5 : List Nat :=
  [1, 5, 25, 125, 625, 3125, 15625, 78125, 390625, 1953125, 9765625, 48828125, 244140625, 1220703125, 6103515625, 30517578125, 152587890625,
   762939453125, 3814697265625, 19073486328125, 95367431640625, 476837158203125, 2384185791015625, 11920928955078125, 59604644775390625,
   298023223876953125, 1490116119384765625, 7450580596923828125]

/-- `large_power_of_5` (/repo/src/c4/ext/fast_float_all.h:2704-2706). -/
def largePowerOf5 : List Nat :=
  [1414648277510068013, 9180637584431281687, 4539964771860779200, 10482974169319127550, 198276706040285095]

/-- `bigint(value)` (/repo/src/c4/ext/fast_float_all.h:2737-2745). -/
def bigintOf (value : Nat) : List Nat := normalize [value]

/-- `hi64(truncated)` (/repo/src/c4/ext/fast_float_all.h:2747-2759). -/
def hi64 (v : List Nat) : Nat × Bool :=
  if v.length = 0 then (0, false)
  else if v.length = 1 then hi64One (rindex v 0)
  else
    let (r, truncated) := hi64Two (rindex v 0) (rindex v 1)
    (r, truncated || nonzero v 2)

/-- The loop of `compare` (/repo/src/c4/ext/fast_float_all.h:2787-2797), for the highest `index` limbs that are left. -/
def compareLoop (x y : List Nat) : Nat → Int
  | 0 => 0
  | index + 1 =>
    let xi := x.getD index 0
    let yi := y.getD index 0
    if xi > yi then 1 else if xi < yi then -1 else compareLoop x y index

/-- `compare(other)` (/repo/src/c4/ext/fast_float_all.h:2775-2798). -/
def compareBig (x y : List Nat) : Int :=
  if x.length > y.length then 1 else if x.length < y.length then -1 else compareLoop x y x.length

/-- The loop of `shl_bits` (/repo/src/c4/ext/fast_float_all.h:2813-2818): the limbs and `prev`. -/
def shlBitsLoop (shl : Nat) : List Nat → Nat → List Nat × Nat
  | [], prev => ([], prev)
  | xi :: v, prev =>
    let (v, last) := shlBitsLoop shl v xi
    (((xi <<< shl) % 2 ^ 64 ||| (prev >>> (64 - shl))) :: v, last)

/-- `shl_bits(n)` (/repo/src/c4/ext/fast_float_all.h:2800-2825). -/
def shlBits (v : List Nat) (n : Nat) : List Nat × Bool :=
  let (v, prev) := shlBitsLoop n v 0
  let carry := prev >>> (64 - n)
  if carry ≠ 0 then tryPush v carry else (v, true)

/-- `shl_limbs(n)` (/repo/src/c4/ext/fast_float_all.h:2827-2846). -/
def shlLimbs (v : List Nat) (n : Nat) : List Nat × Bool :=
  if n + v.length > bigintLimbs then (v, false)
  else if v ≠ [] then (List.replicate n 0 ++ v, true)
  else (v, true)

/-- `shl(n)` and `pow2(exp)` (/repo/src/c4/ext/fast_float_all.h:2848-2859 and 2890-2893). -/
def shl (v : List Nat) (n : Nat) : List Nat × Bool :=
  let rem := n % 64
  let div := n / 64
  let (v, ok) := if rem ≠ 0 then shlBits v rem else (v, true)
  if !ok then (v, false)
  else if div ≠ 0 then shlLimbs v div else (v, true)

/-- `ctlz()` (/repo/src/c4/ext/fast_float_all.h:2861-2874). -/
def ctlz (v : List Nat) : Nat := if v = [] then 0 else leadingZeroes (rindex v 0)

/-- `bit_length()` (/repo/src/c4/ext/fast_float_all.h:2876-2880). -/
def bitLength (v : List Nat) : Int := (64 * v.length : Nat) - (ctlz v : Int)

/-- The first loop of `pow5` (/repo/src/c4/ext/fast_float_all.h:2900-2903), which runs at most `exp` times: the limbs, the rest of the exponent,
and whether it went to the end. -/
def pow5Large : Nat → List Nat → Nat → List Nat × Nat × Bool
  | 0, v, exp => (v, exp, true)
  | fuel + 1, v, exp =>
    if exp ≥ 135 then
      let (v, ok) := largeMul v largePowerOf5
      if !ok then (v, exp, false) else pow5Large fuel v (exp - 135)
    else (v, exp, true)

/-- The second loop of `pow5` (/repo/src/c4/ext/fast_float_all.h:2904-2914), which runs at most `exp` times. -/
def pow5Small : Nat → List Nat → Nat → List Nat × Nat × Bool
  | 0, v, exp => (v, exp, true)
  | fuel + 1, v, exp =>
    if exp ≥ 27 then
      let (v, ok) := smallMul v 7450580596923828125
      if !ok then (v, exp, false) else pow5Small fuel v (exp - 27)
    else (v, exp, true)

/-- `pow5(exp)` (/repo/src/c4/ext/fast_float_all.h:2895-2925). -/
def pow5 (v : List Nat) (exp : Nat) : List Nat × Bool :=
  let (v, exp, ok) := pow5Large exp v exp
  if !ok then (v, false)
  else
    let (v, exp, ok) := pow5Small exp v exp
    if !ok then (v, false)
    else if exp ≠ 0 then smallMul v (smallPowerOf5.getD exp 0) else (v, true)

/-- `pow10(exp)` (/repo/src/c4/ext/fast_float_all.h:2927-2931). -/
def pow10 (v : List Nat) (exp : Nat) : List Nat × Bool :=
  let (v, ok) := pow5 v exp
  if !ok then (v, false) else shl v exp

end C4.FF
