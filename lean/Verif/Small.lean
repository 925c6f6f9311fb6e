import Verif.Charconv.Read
import Verif.MemUtil
/-
Model of small utilities: /repo/src/c4/hash.hpp, szconv.hpp, types.hpp (sizes, integer sequences), char_traits.hpp, and
/repo/src/c4/ext/rng/rng.hpp.
-/
namespace C4

/-! ### hash.hpp -/

/-- Parameters of `basic_fnv1a<ResultT, OffsetBasis, Prime>` (/repo/src/c4/hash.hpp:21-22). -/
structure Fnv where
  w : W
  basis : Nat
  prime : Nat

/-- `fnv1a_32` (/repo/src/c4/hash.hpp:58). -/
def fnv32 : Fnv := ⟨.w32, 2166136261, 16777619⟩
/-- `fnv1a_64` (/repo/src/c4/hash.hpp:59). -/
def fnv64 : Fnv := ⟨.w64, 14695981039346656037, 1099511628211⟩

/-- One step of the loop of `update`: `acc = (acc ^ next) * Prime` (/repo/src/c4/hash.hpp:45-46).  `next` is a `size_t`, so the
arithmetic is done modulo 2^64, and assigned to `ResultT`. -/
def Fnv.step (f : Fnv) (acc next : Nat) : Nat := ((acc ^^^ next) * f.prime) % 2 ^ 64 % 2 ^ f.w.bits

/-- `update(data, size)` (/repo/src/c4/hash.hpp:39-49). -/
def Fnv.update (f : Fnv) (state : Nat) : List Nat → Nat
  | [] => state
  | c :: cs => f.update (f.step state c) cs

/-- `hash_bytes(data, size)` (/repo/src/c4/hash.hpp:74-79), `size_t` of 64 bits. -/
def hashBytes (data : List Nat) : Nat := fnv64.update fnv64.basis data

/-- `hash_bytes(const char (&str)[N])` (/repo/src/c4/hash.hpp:84-90): all N characters of the array are hashed; a string literal
has its terminator as last one. -/
def hashLiteral (text : List Nat) : Nat := fnv64.update fnv64.basis (text ++ [0])

/-! ### szconv.hpp -/

/-- `is_narrower_size<SizeOut, SizeIn>` (/repo/src/c4/szconv.hpp:15-36). -/
def isNarrower (out inp : ITy) : Bool :=
  if out.sgn = inp.sgn then decide (out.w.bytes < inp.w.bytes)
  else decide (out.w.bytes < inp.w.bytes) || (decide (out.w.bytes = inp.w.bytes) && (out.sgn && !inp.sgn))

/-- Conversion for the comparison of the check: `(SizeIn)std::numeric_limits<SizeOut>::max()`. -/
def szMax (out inp : ITy) : Int := inp.wrap out.max

/-- `szconv<SizeOut>(SizeIn sz)` (/repo/src/c4/szconv.hpp:42-62); `abort` is a failing `C4_XASSERT`. -/
def szconv (out inp : ITy) (sz : Int) : Res Int :=
  if isNarrower out inp then
    if sz ≥ 0 then
      if sz ≤ szMax out inp then .ok (out.wrap sz) else .abort
    else .abort
  else .ok (out.wrap sz)

/-! ### types.hpp -/

/-- `min_remainder(size, minsize)` (/repo/src/c4/types.hpp:141-144). -/
def minRemainder (size minsize : Nat) : Nat := if size < minsize then minsize - size else 0

/-- `mult_remainder(size, multipleof)` (/repo/src/c4/types.hpp:147-150). -/
def multRemainder (size mult : Nat) : Nat := if size % mult ≠ 0 then mult - size % mult else 0

/-- `sizeof(Padded<T, pad>)` (/repo/src/c4/types.hpp:152-174): packed, so the padding is added to the size. -/
def paddedSize (size pad : Nat) : Nat := size + pad

/-- `sizeof(MinSized<T, Min>)` (/repo/src/c4/types.hpp:177-178). -/
def minSized (size min : Nat) : Nat := paddedSize size (minRemainder size min)
/-- `sizeof(MultSized<T, Mult>)` (/repo/src/c4/types.hpp:181-182). -/
def multSized (size mult : Nat) : Nat := paddedSize size (multRemainder size mult)
/-- `sizeof(MinMultSized<T, Min, Mult>)` (/repo/src/c4/types.hpp:184-188). -/
def minMultSized (size min mult : Nat) : Nat := multSized (minSized size min) mult
/-- `sizeof(UbufSized<T>)` (/repo/src/c4/types.hpp:191-192). -/
def ubufSized (size : Nat) : Nat := minMultSized size 64 16

/-- `__detail::__repeat<integer_sequence<_Np...>, _Extra...>` (/repo/src/c4/types.hpp:408-420). -/
def seqRepeat (np extra : List Nat) : List Nat :=
  np ++ np.map (np.length + ·) ++ np.map (2 * np.length + ·) ++ np.map (3 * np.length + ·) ++ np.map (4 * np.length + ·) ++
    np.map (5 * np.length + ·) ++ np.map (6 * np.length + ·) ++ np.map (7 * np.length + ·) ++ extra

/-- The extra elements in `__parity<k>::__pmake<n>` (/repo/src/c4/types.hpp:435-442). -/
def seqExtra (n : Nat) : Nat → List Nat
  | 0 => []
  | 1 => [n - 1]
  | 2 => [n - 2, n - 1]
  | 3 => [n - 3, n - 2, n - 1]
  | 4 => [n - 4, n - 3, n - 2, n - 1]
  | 5 => [n - 5, n - 4, n - 3, n - 2, n - 1]
  | 6 => [n - 6, n - 5, n - 4, n - 3, n - 2, n - 1]
  | _ => [n - 7, n - 6, n - 5, n - 4, n - 3, n - 2, n - 1]

/-- `__detail::__make<n>` (/repo/src/c4/types.hpp:424-442): literal for n < 8, else recursion over `n / 8`.  The fuel
bounds the depth; `none` is a recursion that is too deep. -/
def seqMake : Nat → Nat → Option (List Nat)
  | _, 0 => some []
  | _, 1 => some [0]
  | _, 2 => some [0, 1]
  | _, 3 => some [0, 1, 2]
  | _, 4 => some [0, 1, 2, 3]
  | _, 5 => some [0, 1, 2, 3, 4]
  | _, 6 => some [0, 1, 2, 3, 4, 5]
  | _, 7 => some [0, 1, 2, 3, 4, 5, 6]
  | 0, _ => none
  | fuel + 1, n => (seqMake fuel (n / 8)).map fun np => seqRepeat np (seqExtra n (n % 8))

/-- `make_integer_sequence<_Tp, n>` (/repo/src/c4/types.hpp:444-483): the elements are converted to `_Tp`. -/
def makeIntegerSequence (t : ITy) (n : Nat) : Option (List Int) :=
  (seqMake n n).map fun l => l.map fun (x : Nat) => t.wrap (x : Int)

/-! ### char_traits.hpp -/

/-- `num_needed_chars<wchar_t>(num_bytes)` for a `wchar_t` of `ws` bytes (/repo/src/c4/char_traits.hpp:50-55), computed in an
unsigned type. -/
def numNeededWchars (ws numBytes : Nat) : Nat := numBytes / ws + (if numBytes &&& (ws - 1) ≠ 0 then 1 else 0)

/-- The characters of `char_traits<C>::whitespace_chars`, with the terminator (/repo/src/c4/char_traits.hpp:22, 29). -/
def whitespaceChars : List Nat := [32, 12, 10, 13, 9, 11, 0]

/-- `num_whitespace_chars` for a character type of `cs` bytes (/repo/src/c4/char_traits.hpp:23, 30): size of the array in bytes,
minus one. -/
def numWhitespaceChars (cs : Nat) : Nat := whitespaceChars.length * cs - 1

/-! ### ext/rng/rng.hpp -/

/-- `splitmix::operator()` (/repo/src/c4/ext/rng/rng.hpp:46-52): new state. -/
def splitmixNext (s : Nat) : Nat := (s + 0x9E3779B97F4A7C15) % 2 ^ 64

/-- The mixed value, before the last shift. -/
def splitmixMix (z : Nat) : Nat :=
  let z := ((z ^^^ (z >>> 30)) * 0xBF58476D1CE4E5B9) % 2 ^ 64
  let z := ((z ^^^ (z >>> 27)) * 0x94D049BB133111EB) % 2 ^ 64
  z ^^^ (z >>> 31)

/-- `splitmix::operator()`: new state and result. -/
def splitmix (s : Nat) : Nat × Nat := (splitmixNext s, (splitmixMix (splitmixNext s) >>> 31) % 2 ^ 32)

/-- `xorshift::operator()` (/repo/src/c4/ext/rng/rng.hpp:99-106): new state and result. -/
def xorshift (s : Nat) : Nat × Nat :=
  let result := (s * 0xd989bcacc137dcd5) % 2 ^ 64
  let s := s ^^^ (s >>> 11)
  let s := s ^^^ ((s <<< 31) % 2 ^ 64)
  let s := s ^^^ (s >>> 18)
  (s, (result >>> 32) % 2 ^ 32)

/-- `uint32_t >> n` and `uint32_t << n`: undefined for a negative amount or one not below the width. -/
def shr32 (x : Nat) (n : Int) : Res Nat := if 0 ≤ n ∧ n < 32 then .ok (x >>> n.toNat) else .ub
def shl32 (x : Nat) (n : Int) : Res Nat := if 0 ≤ n ∧ n < 32 then .ok ((x <<< n.toNat) % 2 ^ 32) else .ub

/-- The new state in `pcg::operator()` (/repo/src/c4/ext/rng/rng.hpp:167). -/
def pcgNext (inc state : Nat) : Nat := (state * 6364136223846793005 + inc) % 2 ^ 64

/-- `pcg::operator()` (/repo/src/c4/ext/rng/rng.hpp:164-172): new state and result.  `(int64_t)oldstate >> 59u` is an
arithmetic shift. -/
def pcg (state inc : Nat) : Res (Nat × Nat) := do
  let xorshifted := (((state >>> 18) ^^^ state) >>> 27) % 2 ^ 32
  let rot : Int := (if state < 2 ^ 63 then (state : Int) else (state : Int) - 2 ^ 64) / 2 ^ 59
  let a ← shr32 xorshifted rot
  let b ← shl32 xorshifted ((((-rot) % 2 ^ 64).toNat &&& 31 : Nat) : Int)
  .ok (pcgNext inc state, a ||| b)

/-- `pcg(uint64_t s)` (/repo/src/c4/ext/rng/rng.hpp:145): state and increment. -/
def pcgSeeded (s : Nat) : Nat × Nat := (s, (s <<< 1) % 2 ^ 64)

/-- `discard(n)`/repeated calls: the results and the final state. -/
def pcgRun (inc : Nat) : Nat → Nat → Res (Nat × List Nat)
  | 0, s => .ok (s, [])
  | n + 1, s => do
    let (s, r) ← pcg s inc
    let (s, rs) ← pcgRun inc n s
    .ok (s, r :: rs)

end C4
