import Verif.Props.FFMantissa
/-
C111 and C112: eight digits at a time, and the big numbers of fast_float.
-/
namespace C4
open Spec FF

/-- C111: the test for eight digits looks at every byte. -/
theorem C111_eight_digits (s : List Nat) (h8 : s.length = 8) (h : ∀ c ∈ s, c < 256) : isMadeOfEightDigitsFast (read8 s) = true ↔ ∀ c ∈ s, IsDigit c := by
  rw [isMadeOfEightDigitsFast_iff s h8 h]
  constructor
  · exact fun H c hc => (isInteger_iff c).mp (H c hc)
  · exact fun H c hc => (isInteger_iff c).mpr (H c hc)

example : isMadeOfEightDigitsFast (read8 (S "12345678")) = true ∧ isMadeOfEightDigitsFast (read8 (S "1234567:")) = false ∧
    isMadeOfEightDigitsFast (read8 (S "/2345678")) = false ∧ isMadeOfEightDigitsFast (read8 (S "1.345678")) = false := by decide +kernel

/-- C111: eight digits, read with three multiplications, give the number that they write. -/
theorem C111_value (s : List Nat) (h8 : s.length = 8) (h : ∀ c ∈ s, IsDigit c) : parseEightDigitsUnrolled (read8 s) = digitsVal s := by
  match s, h8 with
  | [c0, c1, c2, c3, c4, c5, c6, c7], _ => exact eight_value c0 c1 c2 c3 c4 c5 c6 c7 h

example : parseEightDigitsUnrolled (read8 (S "12345678")) = 12345678 ∧ parseEightDigitsUnrolled (read8 (S "99999999")) = 99999999 := by decide +kernel

/-- C111: skipping zeros eight at a time leaves the text after the last of the zeros at the front, and the digits that are cut off are noticed
exactly if one of them is not a zero. -/
theorem C111_zeros (s : List Nat) (h : ∀ c ∈ s, IsDigit c) : skipZeros s = s.dropWhile (· == 48) ∧ (isTruncated s = true ↔ digitsVal s ≠ 0) := by
  have h' : ∀ c ∈ s, c < 256 := fun c hc => by have := h c hc; unfold IsDigit at this; omega
  exact ⟨skipZeros_eq s h', by rw [nz_of_truncated s h, decide_eq_true_iff]⟩

example : skipZeros (S "000000000000120") = S "120" ∧ isTruncated (S "0000000000000100") = true ∧ isTruncated (S "000000000000") = false := by decide +kernel

theorem big_of {v : List Nat} (hl : Limbs v) (hn : Norm v) : Big v (limbsVal v) := ⟨hl, hn, rfl⟩

/-- C112: a 64-bit number is made into a big one. -/
theorem C112_of (n : Nat) (h : n < 2 ^ 64) : Limbs (bigintOf n) ∧ Norm (bigintOf n) ∧ limbsVal (bigintOf n) = n :=
  let b := bigintOf_spec n h
  ⟨b.limbs, b.norm, b.val⟩

/-- C112: products and sums with a 64-bit number are exact, if they fit into 62 limbs. -/
theorem C112_small (v : List Nat) (hl : Limbs v) (hn : Norm v) (y : Nat) (hy : y < 2 ^ 64) :
    (0 < y → limbsVal v * y < (2 ^ 64) ^ 62 → (smallMul v y).2 = true ∧ Limbs (smallMul v y).1 ∧ Norm (smallMul v y).1 ∧
      limbsVal (smallMul v y).1 = limbsVal v * y) ∧
    (limbsVal v + y < (2 ^ 64) ^ 62 → (smallAddFrom v y 0).2 = true ∧ Limbs (smallAddFrom v y 0).1 ∧ Norm (smallAddFrom v y 0).1 ∧
      limbsVal (smallAddFrom v y 0).1 = limbsVal v + y) := by
  constructor
  · intro h0 hs
    obtain ⟨a, b⟩ := (big_of hl hn).mul hy h0 hs
    exact ⟨a, b.limbs, b.norm, b.val⟩
  · intro hs
    obtain ⟨a, b⟩ := (big_of hl hn).add hy hs
    exact ⟨a, b.limbs, b.norm, b.val⟩

example : smallMul [2 ^ 64 - 1, 5] 10 = ([2 ^ 64 - 10, 59], true) ∧ smallAddFrom [2 ^ 64 - 1, 2 ^ 64 - 1] 1 0 = ([0, 0, 1], true) := by decide +kernel

/-- C112: so are products with powers of five, of two and of ten. -/
theorem C112_powers (v : List Nat) (hl : Limbs v) (hn : Norm v) (e : Nat) :
    (limbsVal v * 5 ^ e < (2 ^ 64) ^ 62 → (pow5 v e).2 = true ∧ Limbs (pow5 v e).1 ∧ Norm (pow5 v e).1 ∧ limbsVal (pow5 v e).1 = limbsVal v * 5 ^ e) ∧
    (0 < limbsVal v → limbsVal v * 2 ^ e < (2 ^ 64) ^ 62 → (shl v e).2 = true ∧ Limbs (shl v e).1 ∧ Norm (shl v e).1 ∧
      limbsVal (shl v e).1 = limbsVal v * 2 ^ e) ∧
    (0 < limbsVal v → limbsVal v * 10 ^ e < (2 ^ 64) ^ 62 → (pow10 v e).2 = true ∧ Limbs (pow10 v e).1 ∧ Norm (pow10 v e).1 ∧
      limbsVal (pow10 v e).1 = limbsVal v * 10 ^ e) := by
  refine ⟨?_, ?_, ?_⟩
  · intro hs
    obtain ⟨a, b⟩ := (big_of hl hn).pow5 hs
    exact ⟨a, b.limbs, b.norm, b.val⟩
  · intro h0 hs
    obtain ⟨a, b⟩ := (big_of hl hn).shl h0 hs
    exact ⟨a, b.limbs, b.norm, b.val⟩
  · intro h0 hs
    obtain ⟨a, b⟩ := (big_of hl hn).pow10 h0 hs
    exact ⟨a, b.limbs, b.norm, b.val⟩

set_option exponentiation.threshold 2000 in
example : (pow10 [7, 1] 300).2 = true ∧ limbsVal (pow10 [7, 1] 300).1 = (2 ^ 64 + 7) * 10 ^ 300 ∧ shl [3] 130 = ([0, 0, 12], true) := by decide +kernel

/-- C112: numbers are compared by value. -/
theorem C112_compare (x y : List Nat) (hx : Limbs x) (hx' : Norm x) (hy : Limbs y) (hy' : Norm y) :
    (compareBig x y < 0 ↔ limbsVal x < limbsVal y) ∧ (compareBig x y = 0 ↔ limbsVal x = limbsVal y) ∧ (compareBig x y > 0 ↔ limbsVal x > limbsVal y) := by
  rw [compareBig_spec (big_of hx hx') (big_of hy hy')]
  unfold ordOf
  split
  · refine ⟨by simp; omega, by simp; omega, by simp; omega⟩
  · split
    · refine ⟨by simp; omega, by simp; omega, by simp; omega⟩
    · refine ⟨by simp; omega, by simp; omega, by simp; omega⟩

example : compareBig [5, 1] [7] = 1 ∧ compareBig [5, 1] [6, 1] = -1 ∧ compareBig [5, 1] [5, 1] = 0 := by decide +kernel

/-- C112: the bit length, the highest 64 bits and whether others are set. -/
theorem C112_top (v : List Nat) (hl : Limbs v) (hn : Norm v) (h0 : 0 < limbsVal v) :
    ∃ b : Nat, bitLength v = b ∧ 0 < b ∧ 2 ^ (b - 1) ≤ limbsVal v ∧ limbsVal v < 2 ^ b ∧
      (hi64 v).1 = limbsVal v * 2 ^ 64 / 2 ^ b ∧ ((hi64 v).2 = true ↔ ¬ 2 ^ b ∣ limbsVal v * 2 ^ 64) := by
  obtain ⟨b, b1, b2, b3, b4, b5⟩ := (big_of hl hn).bitLength h0
  obtain ⟨c1, c2, c3⟩ := (big_of hl hn).hi64_bits h0 b2
  have hp : 0 < 2 ^ b := Nat.pow_pos (by omega)
  refine ⟨b, b1, b3, b4, b5, ?_, ?_⟩
  · symm
    rw [Nat.div_eq_iff hp]
    rw [Nat.add_mul, Nat.one_mul] at c2
    exact ⟨c1, by omega⟩
  · rw [← Bool.not_eq_false, not_iff_not, c3]
    constructor
    · intro h
      exact ⟨_, by rw [← h, Nat.mul_comm]⟩
    · rintro ⟨k, hk⟩
      rw [hk, Nat.mul_comm (2 ^ b)] at c1 c2
      rw [hk, Nat.mul_comm (2 ^ b)]
      have h1 := Nat.le_of_mul_le_mul_right c1 hp
      have h2 := Nat.lt_of_mul_lt_mul_right c2
      rw [show k = (hi64 v).1 by omega]

example : bitLength [3, 1] = 65 ∧ hi64 [3, 1] = (2 ^ 63 + 1, true) ∧ hi64 [2, 1] = (2 ^ 63 + 1, false) := by decide +kernel

/-- C112: the big number made from the digits before and after the point: all digits up to a limit; beyond it, a last digit 1 stands for digits that are
not all zeros. -/
theorem C112_digits (maxD : Nat) (hM : maxD ≤ 1000) (hM0 : 0 < maxD) (int : List Nat) (frac : Option (List Nat))
    (hD : ∀ c ∈ int ++ frac.getD [], IsDigit c) :
    let r := parseMantissa maxD int frac
    let sig := (int ++ frac.getD []).dropWhile (· == 48)
    Limbs r.1 ∧ Norm r.1 ∧
    (sig.length ≤ maxD → limbsVal r.1 = digitsVal (int ++ frac.getD []) ∧ r.2 = sig.length) ∧
    (sig.length > maxD → digitsVal (sig.drop maxD) = 0 → limbsVal r.1 = digitsVal (sig.take maxD) ∧ r.2 = maxD) ∧
    (sig.length > maxD → digitsVal (sig.drop maxD) ≠ 0 → limbsVal r.1 = digitsVal (sig.take maxD ++ [49]) ∧ r.2 = maxD + 1) := by
  obtain ⟨h1, h2⟩ := parseMantissa_spec maxD hM hM0 int frac hD
  dsimp only
  refine ⟨h2.limbs, h2.norm, ?_, ?_, ?_⟩
  · intro h
    rw [h1, h2.val]
    unfold sticky
    rw [List.drop_of_length_le h, List.take_of_length_le h, digitsVal_nil, if_pos rfl, Nat.min_eq_left h]
    exact ⟨digitsVal_sig _, rfl⟩
  · intro h h0
    rw [h1, h2.val]
    unfold sticky
    rw [if_pos h0, Nat.min_eq_right (by omega)]
    exact ⟨rfl, rfl⟩
  · intro h h0
    rw [h1, h2.val]
    unfold sticky
    rw [if_neg h0, digitsVal_append]
    refine ⟨?_, rfl⟩
    rw [show digitsVal [49] = 1 from rfl, show [49].length = 1 from rfl]
    dsimp only
    omega

example : parseMantissa 114 (S "0012345678901234567890") (some (S "5")) = ([123456789012345678905 % 2 ^ 64, 123456789012345678905 / 2 ^ 64], 21) := by
  decide +kernel

end C4
