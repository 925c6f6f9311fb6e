import Verif.Props.FFDigitComp32
import Verif.Props.FFBigCap32
import Verif.Props.FastFloatBig
import Verif.Props.FastFloatChars
/-
C157 and C158: fast_float where the limbs of its big numbers have 32 bits (32-bit platforms).
-/
namespace C4.FF.L32
open Spec (Norm IsDigit digitsVal Ieee Fpu)
open Spec.L32

/-- The result for a text that begins with a number, with the exponent that was read. -/
theorem fromChars_read {f : Fmt} {F : Ieee} (hf : IsFmt f F) (fpu : Fpu) {s : List Nat} {t : Spec.Decimal} {rest : List Nat} (h : Spec.Longest s t rest)
    (hb : ∀ c ∈ s, c < 256) :
    ∃ b, F.Nearest ((digitsVal t.digits : ℚ) * 10 ^ (capExp t.exp - ((t.frac.getD []).length : Int))) b ∧
      fromChars f fpu s = .ok ⟨rest, if b = F.infBits ∨ (b = 0 ∧ digitsVal t.digits ≠ 0) then .resultOutOfRange else .none,
        some (.bits (b + (if t.neg then F.signBit else 0)))⟩ := by
  obtain ⟨hne, a, ha, hp⟩ := parse_longest h hb
  obtain ⟨b, h1, h2⟩ := fromCharsPns_spec hf fpu (hp.handed h.wf)
  have e : a.integer ++ a.fraction.getD [] = t.digits := by rw [hp.integer, hp.fraction]; rfl
  rw [e] at h1
  simp only [e] at h2
  refine ⟨b, h1, ?_⟩
  unfold fromChars
  rw [if_neg hne, ha]
  dsimp only
  rw [if_pos hp.valid, h2, hp.rest, hp.negative]

/-- C157: where the limbs have 32 bits, `from_chars` gives what it gives where they have 64: the same rest of the text, error and bits, for any text and any
rounding directions of the threads. -/
theorem C157_same {f : Fmt} {F : Ieee} (hf : (f = dbl ∧ F = Spec.binary64) ∨ (f = flt ∧ F = Spec.binary32)) (fpu fpu' : Fpu) (s : List Nat) (hb : ∀ c ∈ s, c < 256) :
    L32.fromChars f fpu s = FF.fromChars f fpu' s := by
  by_cases hex : ∃ t r, Spec.Decimal.WF t ∧ s = t.text ++ r
  · obtain ⟨t, r, ht, hs⟩ := hex
    obtain ⟨u, rest, hL⟩ := (C113_exists s hb t r ht hs).1
    obtain ⟨b, h1, h2⟩ := fromChars_read hf fpu hL hb
    obtain ⟨b', h1', h2'⟩ := C4.fromChars_read hf fpu' hL hb
    rw [h2, h2', nearest_unique F h1 h1']
  · by_cases hne : s = []
    · unfold fromChars FF.fromChars
      rw [if_pos hne, if_pos hne]
    · obtain ⟨a, h1, h2⟩ := parse_none hne (fun t r ht hs => hex ⟨t, r, ht, hs⟩) hb
      unfold fromChars FF.fromChars
      rw [if_neg hne, if_neg hne, h1]
      dsimp only
      rw [h2]
      simp

example : (match parseNumberString (S "9007199254740993.0000000000000000001") with
      | .ok a => a.tooManyDigits && decide (digitComp dbl a (computeError dbl a.exponent a.mantissa) = slowPath dbl a) &&
        decide (toFloat dbl false (slowPath dbl a) = 0x4340000000000001)
      | _ => false) = true ∧
    (match parseNumberString (S "9007199254740993.0000000000000000000") with
      | .ok a => decide (toFloat dbl false (slowPath dbl a) = 0x4340000000000000)
      | _ => false) = true := by decide +kernel

/-- C157: so the result is the number nearest to the one that is written, ties to even, as far as C114 holds (missing: texts with about 2^28 digits or
more before an exponent that is not less than 2^28). -/
theorem C157_rounded_partial {f : Fmt} {F : Ieee} (hf : (f = dbl ∧ F = Spec.binary64) ∨ (f = flt ∧ F = Spec.binary32)) (fpu : Fpu) (s : List Nat)
    (t : Spec.Decimal) (rest : List Nat) (h : Spec.Longest s t rest) (hb : ∀ c ∈ s, c < 256) (hl : t.digits.length + 400 ≤ 2 ^ 28 ∨ |t.expVal| < 2 ^ 28) :
    ∃ ec b, L32.fromChars f fpu s = .ok ⟨rest, ec, some (.bits (b + (if t.neg then F.signBit else 0)))⟩ ∧ F.Nearest t.mag b := by
  rw [C157_same hf fpu fpu s hb]
  exact C114_rounded_partial hf fpu s t rest h hb hl

theorem big_of {v : List Nat} (hl : Limbs v) (hn : Norm v) : Big v (limbsVal v) := ⟨hl, hn, rfl⟩

/-- C158: a 64-bit number is made into a big one of at most two limbs. -/
theorem C158_of (n : Nat) (h : n < 2 ^ 64) : Limbs (bigintOf n) ∧ Norm (bigintOf n) ∧ limbsVal (bigintOf n) = n :=
  let b := bigintOf_spec n h
  ⟨b.limbs, b.norm, b.val⟩

/-- C158: products and sums with a 32-bit number are exact, if they fit into 125 limbs of 32 bits. -/
theorem C158_small (v : List Nat) (hl : Limbs v) (hn : Norm v) (y : Nat) (hy : y < 2 ^ 32) :
    (0 < y → limbsVal v * y < (2 ^ 32) ^ 125 → (smallMul v y).2 = true ∧ Limbs (smallMul v y).1 ∧ Norm (smallMul v y).1 ∧
      limbsVal (smallMul v y).1 = limbsVal v * y) ∧
    (limbsVal v + y < (2 ^ 32) ^ 125 → (smallAddFrom v y 0).2 = true ∧ Limbs (smallAddFrom v y 0).1 ∧ Norm (smallAddFrom v y 0).1 ∧
      limbsVal (smallAddFrom v y 0).1 = limbsVal v + y) := by
  constructor
  · intro h0 hs
    obtain ⟨a, b⟩ := (big_of hl hn).mul hy h0 hs
    exact ⟨a, b.limbs, b.norm, b.val⟩
  · intro hs
    obtain ⟨a, b⟩ := (big_of hl hn).add hy hs
    exact ⟨a, b.limbs, b.norm, b.val⟩

example : smallMul [2 ^ 32 - 1, 5] 10 = ([2 ^ 32 - 10, 59], true) ∧ smallAddFrom [2 ^ 32 - 1, 2 ^ 32 - 1] 1 0 = ([0, 0, 1], true) := by decide +kernel

/-- C158: so are products with powers of five, of two and of ten. -/
theorem C158_powers (v : List Nat) (hl : Limbs v) (hn : Norm v) (e : Nat) :
    (limbsVal v * 5 ^ e < (2 ^ 32) ^ 125 → (pow5 v e).2 = true ∧ Limbs (pow5 v e).1 ∧ Norm (pow5 v e).1 ∧ limbsVal (pow5 v e).1 = limbsVal v * 5 ^ e) ∧
    (0 < limbsVal v → limbsVal v * 2 ^ e < (2 ^ 32) ^ 125 → (shl v e).2 = true ∧ Limbs (shl v e).1 ∧ Norm (shl v e).1 ∧
      limbsVal (shl v e).1 = limbsVal v * 2 ^ e) ∧
    (0 < limbsVal v → limbsVal v * 10 ^ e < (2 ^ 32) ^ 125 → (pow10 v e).2 = true ∧ Limbs (pow10 v e).1 ∧ Norm (pow10 v e).1 ∧
      limbsVal (pow10 v e).1 = limbsVal v * 10 ^ e) := by
  refine ⟨?_, ?_, ?_⟩
  · intro hs
    obtain ⟨a, b⟩ := (big_of hl hn).pow5 hs
    exact ⟨a, b.limbs, b.norm, b.val⟩
  · intro h0 hs
    obtain ⟨a, b⟩ := (big_of hl hn).shl h0 hs
    exact ⟨a, b.limbs, b.norm, b.val⟩
  · intro h0 hs
    obtain ⟨a, b⟩ := (big_of hl hn).pow10 h0 hs
    exact ⟨a, b.limbs, b.norm, b.val⟩

set_option exponentiation.threshold 2000 in
example : (pow10 [7, 1] 300).2 = true ∧ limbsVal (pow10 [7, 1] 300).1 = (2 ^ 32 + 7) * 10 ^ 300 ∧ shl [3] 130 = ([0, 0, 0, 0, 12], true) := by decide +kernel

/-- C158: numbers are compared by value. -/
theorem C158_compare (x y : List Nat) (hx : Limbs x) (hx' : Norm x) (hy : Limbs y) (hy' : Norm y) :
    (compareBig x y < 0 ↔ limbsVal x < limbsVal y) ∧ (compareBig x y = 0 ↔ limbsVal x = limbsVal y) ∧ (compareBig x y > 0 ↔ limbsVal x > limbsVal y) := by
  rw [compareBig_spec (big_of hx hx') (big_of hy hy')]
  unfold ordOf
  split
  · refine ⟨by simp; omega, by simp; omega, by simp; omega⟩
  · split
    · refine ⟨by simp; omega, by simp; omega, by simp; omega⟩
    · refine ⟨by simp; omega, by simp; omega, by simp; omega⟩

example : compareBig [5, 1] [7] = 1 ∧ compareBig [5, 1] [6, 1] = -1 ∧ compareBig [5, 1] [5, 1] = 0 := by decide +kernel

/-- C158: the bit length, the highest 64 bits and whether others are set. -/
theorem C158_top (v : List Nat) (hl : Limbs v) (hn : Norm v) (h0 : 0 < limbsVal v) :
    ∃ b : Nat, bitLength v = b ∧ 0 < b ∧ 2 ^ (b - 1) ≤ limbsVal v ∧ limbsVal v < 2 ^ b ∧
      (hi64 v).1 = limbsVal v * 2 ^ 64 / 2 ^ b ∧ ((hi64 v).2 = true ↔ ¬ 2 ^ b ∣ limbsVal v * 2 ^ 64) := by
  obtain ⟨b, b1, b2, b3, b4, b5⟩ := (big_of hl hn).bitLength h0
  obtain ⟨c1, c2, c3⟩ := (big_of hl hn).hi64_bits h0 b2
  have hp : 0 < 2 ^ b := Nat.pow_pos (by omega)
  refine ⟨b, b1, b3, b4, b5, ?_, ?_⟩
  · symm
    rw [Nat.div_eq_iff hp]
    rw [Nat.add_mul, Nat.one_mul] at c2
    exact ⟨c1, by omega⟩
  · rw [← Bool.not_eq_false, not_iff_not, c3]
    constructor
    · intro h
      exact ⟨_, by rw [← h, Nat.mul_comm]⟩
    · rintro ⟨k, hk⟩
      rw [hk, Nat.mul_comm (2 ^ b)] at c1 c2
      rw [hk, Nat.mul_comm (2 ^ b)]
      have h1 := Nat.le_of_mul_le_mul_right c1 hp
      have h2 := Nat.lt_of_mul_lt_mul_right c2
      rw [show k = (hi64 v).1 by omega]

example : bitLength [3, 5, 1] = 65 ∧ hi64 [3, 5, 1] = (2 ^ 63 + 5 * 2 ^ 31 + 1, true) ∧ hi64 [2, 5, 1] = (2 ^ 63 + 5 * 2 ^ 31 + 1, false) := by decide +kernel

/-- C158: the big number made from the digits before and after the point: all digits up to a limit; beyond it, a last digit 1 stands for digits that are
not all zeros. -/
theorem C158_digits (maxD : Nat) (hM : maxD ≤ 1000) (hM0 : 0 < maxD) (int : List Nat) (frac : Option (List Nat))
    (hD : ∀ c ∈ int ++ frac.getD [], IsDigit c) :
    let r := parseMantissa maxD int frac
    let sig := (int ++ frac.getD []).dropWhile (· == 48)
    Limbs r.1 ∧ Norm r.1 ∧
    (sig.length ≤ maxD → limbsVal r.1 = digitsVal (int ++ frac.getD []) ∧ r.2 = sig.length) ∧
    (sig.length > maxD → digitsVal (sig.drop maxD) = 0 → limbsVal r.1 = digitsVal (sig.take maxD) ∧ r.2 = maxD) ∧
    (sig.length > maxD → digitsVal (sig.drop maxD) ≠ 0 → limbsVal r.1 = digitsVal (sig.take maxD ++ [49]) ∧ r.2 = maxD + 1) := by
  obtain ⟨h1, h2⟩ := parseMantissa_spec maxD hM hM0 int frac hD
  dsimp only
  refine ⟨h2.limbs, h2.norm, ?_, ?_, ?_⟩
  · intro h
    rw [h1, h2.val]
    unfold sticky
    rw [List.drop_of_length_le h, List.take_of_length_le h, digitsVal_nil, if_pos rfl, Nat.min_eq_left h]
    exact ⟨digitsVal_sig _, rfl⟩
  · intro h h0
    rw [h1, h2.val]
    unfold sticky
    rw [if_pos h0, Nat.min_eq_right (by omega)]
    exact ⟨rfl, rfl⟩
  · intro h h0
    rw [h1, h2.val]
    unfold sticky
    rw [if_neg h0, digitsVal_append]
    refine ⟨?_, rfl⟩
    rw [show digitsVal [49] = 1 from rfl, show [49].length = 1 from rfl]
    dsimp only
    omega

example : parseMantissa 114 (S "0012345678901234567890") (some (S "5")) =
    ([123456789012345678905 % 2 ^ 32, 123456789012345678905 / 2 ^ 32 % 2 ^ 32, 123456789012345678905 / 2 ^ 64], 21) := by
  decide +kernel

/-- C158: whatever the limbs of a number within its memory are (zeros on top included), no operation gives more limbs than the memory has, and the value
is exact if the operation says that it went well. -/
theorem C158_memory (v : List Nat) (hl : Limbs v) (h62 : v.length ≤ 125) :
    (∀ y, y < 2 ^ 32 → (smallMul v y).1.length ≤ 125 ∧ ((smallMul v y).2 = true → limbsVal (smallMul v y).1 = limbsVal v * y)) ∧
    (∀ y, y < 2 ^ 32 → (smallAddFrom v y 0).1.length ≤ 125 ∧ ((smallAddFrom v y 0).2 = true → limbsVal (smallAddFrom v y 0).1 = limbsVal v + y)) ∧
    (∀ w, Limbs w → w ≠ [] → (largeMul v w).1.length ≤ 125 ∧ ((largeMul v w).2 = true → limbsVal (largeMul v w).1 = limbsVal v * limbsVal w)) ∧
    (∀ e, (shl v e).1.length ≤ 125 ∧ ((shl v e).2 = true → limbsVal (shl v e).1 = limbsVal v * 2 ^ e)) ∧
    (∀ e, (pow5 v e).1.length ≤ 125 ∧ ((pow5 v e).2 = true → limbsVal (pow5 v e).1 = limbsVal v * 5 ^ e)) ∧
    (∀ e, (pow10 v e).1.length ≤ 125 ∧ ((pow10 v e).2 = true → limbsVal (pow10 v e).1 = limbsVal v * 10 ^ e)) := by
  refine ⟨fun y hy => ?_, fun y hy => ?_, fun w hw hne => ?_, fun e => ?_, fun e => ?_, fun e => ?_⟩
  · have h := smallMul_cap hl h62 hy; exact ⟨h.len, h.exact⟩
  · have h := smallAddFrom_cap hl h62 hy (Nat.zero_le _)
    rw [Nat.pow_zero, Nat.one_mul] at h
    exact ⟨h.len, h.exact⟩
  · have h := largeMul_cap hl h62 hw hne; exact ⟨h.len, h.exact⟩
  · have h := shl_cap hl h62 e; exact ⟨h.len, h.exact⟩
  · have h := pow5_cap hl h62 e; exact ⟨h.len, h.exact⟩
  · have h := pow10_cap hl h62 e; exact ⟨h.len, h.exact⟩

example : (smallMul (List.replicate 125 (2 ^ 32 - 1)) 2).1.length = 125 ∧ (smallMul (List.replicate 125 (2 ^ 32 - 1)) 2).2 = false ∧
    (pow5 [1, 0, 0] 100).2 = true ∧ limbsVal (pow5 [1, 0, 0] 100).1 = 5 ^ 100 := by decide +kernel

/-- C158: without zeros on top, an operation goes well exactly if the result is less than 2^4000, the first number that needs one limb more. -/
theorem C158_fits (v : List Nat) (hl : Limbs v) (hn : Norm v) (h62 : v.length ≤ 125) :
    (∀ y, 0 < y → y < 2 ^ 32 → ((smallMul v y).2 = true ↔ limbsVal v * y < 2 ^ 4000)) ∧
    (∀ y, y < 2 ^ 32 → ((smallAddFrom v y 0).2 = true ↔ limbsVal v + y < 2 ^ 4000)) ∧
    (∀ w, Limbs w → 0 < limbsVal w → w.length ≤ 125 → ((largeMul v w).2 = true ↔ limbsVal v * limbsVal w < 2 ^ 4000)) ∧
    (0 < limbsVal v → ∀ e, ((shl v e).2 = true ↔ limbsVal v * 2 ^ e < 2 ^ 4000)) ∧
    (∀ e, ((pow5 v e).2 = true ↔ limbsVal v * 5 ^ e < 2 ^ 4000)) ∧
    (0 < limbsVal v → ∀ e, ((pow10 v e).2 = true ↔ limbsVal v * 10 ^ e < 2 ^ 4000)) := by
  rw [show (2 : Nat) ^ 4000 = (2 ^ 32) ^ 125 from (Nat.pow_mul 2 32 125)]
  have hb := big_of hl hn
  have hv : limbsVal v < (2 ^ 32) ^ 125 := lt_of_lt_of_le (limbsVal_lt hl) (Nat.pow_le_pow_right (by omega) h62)
  refine ⟨fun y h0 hy => ?_, fun y hy => ?_, fun w hw h0 hw62 => ?_, fun h0 e => ?_, fun e => ?_, fun h0 e => ?_⟩
  · exact (smallMul_cap hl h62 hy).iff fun hs => (hb.mul hy h0 hs).1
  · have h := smallAddFrom_cap hl h62 hy (Nat.zero_le _)
    rw [Nat.pow_zero, Nat.one_mul] at h
    exact h.iff fun hs => (hb.add hy hs).1
  · have hne : w ≠ [] := by rintro rfl; simp [limbsVal] at h0
    exact (largeMul_cap hl h62 hw hne).iff fun hs => (largeMul_spec hb hw hw62 hne h0 hs hv).1
  · exact (shl_cap hl h62 e).iff fun hs => (hb.shl h0 hs).1
  · exact (pow5_cap hl h62 e).iff fun hs => (hb.pow5 hs).1
  · exact (pow10_cap hl h62 e).iff fun hs => (hb.pow10 h0 hs).1

example : (shl [1] 3999).2 = true ∧ (shl [1] 4000).2 = false ∧ (pow5 [1] 1722).2 = true ∧ (pow5 [1] 1723).2 = false ∧ (pow10 [1] 1204).2 = true ∧
    (pow10 [1] 1205).2 = false ∧ (smallAddFrom (List.replicate 125 (2 ^ 32 - 1)) 1 0).2 = false ∧
    (smallAddFrom (List.replicate 125 (2 ^ 32 - 1)) 0 0).2 = true := by decide +kernel

end C4.FF.L32
