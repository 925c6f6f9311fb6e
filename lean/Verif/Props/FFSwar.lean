import Verif.FastFloat.Parse
import Verif.Spec.Numeral
import Mathlib.Tactic.Ring
/-
The tricks that handle eight digits at once.
-/
namespace C4.FF
open Spec

/-- The highest bit of each of the lowest `n` bytes is 0. -/
def highZero : Nat → Nat → Prop
  | 0, _ => True
  | n + 1, x => x % 256 < 128 ∧ highZero n (x / 256)

/-- The number whose `n` bytes are all `c`. -/
def bytes (c : Nat) : Nat → Nat
  | 0 => 0
  | n + 1 => c + 256 * bytes c n

theorem and_low_high (k a b c d : Nat) (ha : a < 2 ^ k) (hc : c < 2 ^ k) : (a + 2 ^ k * b) &&& (c + 2 ^ k * d) = (a &&& c) + 2 ^ k * (b &&& d) := by
  have h1 : ((a + 2 ^ k * b) &&& (c + 2 ^ k * d)) % 2 ^ k = a &&& c := by
    rw [Nat.and_mod_two_pow, Nat.add_mul_mod_self_left, Nat.add_mul_mod_self_left, Nat.mod_eq_of_lt ha, Nat.mod_eq_of_lt hc]
  have h2 : ((a + 2 ^ k * b) &&& (c + 2 ^ k * d)) / 2 ^ k = b &&& d := by
    rw [Nat.and_div_two_pow, Nat.add_mul_div_left _ _ (Nat.two_pow_pos k), Nat.add_mul_div_left _ _ (Nat.two_pow_pos k),
      Nat.div_eq_of_lt ha, Nat.div_eq_of_lt hc, Nat.zero_add, Nat.zero_add]
  have := Nat.div_add_mod ((a + 2 ^ k * b) &&& (c + 2 ^ k * d)) (2 ^ k)
  rw [h1, h2] at this
  omega

theorem and_highZero : ∀ (n x : Nat), x &&& bytes 0x80 n = 0 ↔ highZero n x := by
  intro n
  induction n with
  | zero => intro x; simp [bytes, highZero]
  | succ n ih =>
    intro x
    have e : x = x % 2 ^ 8 + 2 ^ 8 * (x / 2 ^ 8) := by omega
    unfold highZero bytes
    rw [show (256 : Nat) = 2 ^ 8 by rfl]
    conv => lhs; rw [e]
    rw [and_low_high 8 _ _ _ _ (Nat.mod_lt _ (by omega)) (by omega), Nat.add_eq_zero_iff, ← ih]
    have h1 : ∀ y < 256, (y &&& 0x80 = 0 ↔ y < 128) := by decide +kernel
    rw [h1 (x % 2 ^ 8) (Nat.mod_lt _ (by omega))]
    have : 2 ^ 8 * (x / 2 ^ 8 &&& bytes 128 n) = 0 ↔ (x / 2 ^ 8 &&& bytes 128 n) = 0 := by omega
    rw [this]

theorem highZero_mod : ∀ (n x : Nat), highZero n (x % 256 ^ n) ↔ highZero n x := by
  intro n
  induction n with
  | zero => intro x; simp [highZero]
  | succ n ih =>
    intro x
    unfold highZero
    rw [Nat.pow_succ, Nat.mod_mul_left_mod, Nat.mul_comm, Nat.mod_mul_right_div_self, ih]

theorem bytes_lt (c n : Nat) (hc : c < 256) : bytes c n < 256 ^ n := by
  induction n with
  | zero => simp [bytes]
  | succ n ih => unfold bytes; rw [Nat.pow_succ]; omega

/-- The test on a word of `n` bytes. -/
theorem digits_test : ∀ (s : List Nat), (∀ c ∈ s, c < 256) →
    (highZero s.length (read8 s + bytes 0x46 s.length) ∧ highZero s.length (read8 s + (256 ^ s.length - bytes 0x30 s.length)) ↔
      ∀ c ∈ s, isInteger c = true) := by
  intro s
  induction s with
  | nil => intro _; simp [highZero]
  | cons c s ih =>
    intro h
    have hc := h c (by simp)
    have ih := ih (fun x hx => h x (List.mem_cons_of_mem _ hx))
    obtain ⟨v, hv⟩ : ∃ v, read8 s = v := ⟨_, rfl⟩
    rw [hv] at ih
    have hb := bytes_lt 0x30 s.length (by omega)
    obtain ⟨n, hn⟩ : ∃ n, s.length = n := ⟨_, rfl⟩
    rw [hn] at ih hb
    simp only [List.length_cons, read8, hv, hn, highZero, bytes]
    obtain ⟨A, hA⟩ : ∃ A, bytes 0x46 n = A := ⟨_, rfl⟩
    obtain ⟨B, hB⟩ : ∃ B, bytes 0x30 n = B := ⟨_, rfl⟩
    obtain ⟨P, hP⟩ : ∃ P, 256 ^ n = P := ⟨_, rfl⟩
    rw [hA, hB, hP] at ih
    rw [hB, hP] at hb
    rw [Nat.pow_succ, hP, hA, hB]
    have hi : isInteger c = true ↔ 48 ≤ c ∧ c ≤ 57 := by
      unfold isInteger
      simp
      omega
    by_cases hd : 48 ≤ c ∧ c ≤ 57
    · have e1 : (c + 256 * v + (0x46 + 256 * A)) / 256 = v + A := by omega
      have e2 : (c + 256 * v + (P * 256 - (0x30 + 256 * B))) / 256 = v + (P - B) := by omega
      rw [e1, e2]
      have t1 : (c + 256 * v + (0x46 + 256 * A)) % 256 < 128 := by omega
      have t2 : (c + 256 * v + (P * 256 - (0x30 + 256 * B))) % 256 < 128 := by omega
      simp only [t1, t2, true_and, List.mem_cons, forall_eq_or_imp, hi, hd, and_self]
      exact ih
    · constructor
      · rintro ⟨⟨t1, _⟩, ⟨t2, _⟩⟩
        exfalso
        omega
      · intro hall
        exact absurd (hi.mp (hall c (by simp))) hd

theorem isMadeOfEightDigitsFast_iff (s : List Nat) (h8 : s.length = 8) (h : ∀ c ∈ s, c < 256) :
    isMadeOfEightDigitsFast (read8 s) = true ↔ ∀ c ∈ s, isInteger c = true := by
  rw [← digits_test s h, h8]
  unfold isMadeOfEightDigitsFast
  rw [beq_iff_eq, Nat.and_or_distrib_right, Nat.or_eq_zero_iff]
  rw [show 0x8080808080808080 = bytes 0x80 8 by rfl, show 0x4646464646464646 = bytes 0x46 8 by rfl, show 0x3030303030303030 = bytes 0x30 8 by rfl,
    and_highZero, and_highZero, show (2 : Nat) ^ 64 = 256 ^ 8 by rfl, highZero_mod, highZero_mod]

theorem and_255 (x : Nat) : x &&& 255 = x % 256 := Nat.and_two_pow_sub_one_eq_mod x 8

theorem and_mask (a b : Nat) (ha : a < 2 ^ 32) : (a + 2 ^ 32 * b) &&& 0x000000FF000000FF = a % 256 + 2 ^ 32 * (b % 256) := by
  rw [show 0x000000FF000000FF = 255 + 2 ^ 32 * 255 by rfl, and_low_high 32 _ _ _ _ ha (by omega), and_255, and_255]

theorem parseEight_digits (d0 d1 d2 d3 d4 d5 d6 d7 : Nat) (h0 : d0 ≤ 9) (h1 : d1 ≤ 9) (h2 : d2 ≤ 9) (h3 : d3 ≤ 9) (h4 : d4 ≤ 9) (h5 : d5 ≤ 9)
    (h6 : d6 ≤ 9) (h7 : d7 ≤ 9) :
    parseEightDigitsUnrolled (read8 [d0 + 48, d1 + 48, d2 + 48, d3 + 48, d4 + 48, d5 + 48, d6 + 48, d7 + 48]) =
      value 10 [d0, d1, d2, d3, d4, d5, d6, d7] := by
  unfold parseEightDigitsUnrolled
  simp only [read8]
  have e1 : ((d0 + 48 + 256 * (d1 + 48 + 256 * (d2 + 48 + 256 * (d3 + 48 + 256 * (d4 + 48 + 256 * (d5 + 48 + 256 * (d6 + 48 + 256 * (d7 + 48 + 256 * 0)))))))) +
      (2 ^ 64 - 0x3030303030303030)) % 2 ^ 64 = d0 + 256 * d1 + 65536 * d2 + 16777216 * d3 + 2 ^ 32 * (d4 + 256 * d5 + 65536 * d6 + 16777216 * d7) := by
    omega
  rw [e1]
  have e2 : ((d0 + 256 * d1 + 65536 * d2 + 16777216 * d3 + 2 ^ 32 * (d4 + 256 * d5 + 65536 * d6 + 16777216 * d7)) * 10 +
      (d0 + 256 * d1 + 65536 * d2 + 16777216 * d3 + 2 ^ 32 * (d4 + 256 * d5 + 65536 * d6 + 16777216 * d7)) >>> 8) % 2 ^ 64 =
      ((10 * d0 + d1) + 256 * (10 * d1 + d2) + 65536 * (10 * d2 + d3) + 16777216 * (10 * d3 + d4)) +
      2 ^ 32 * ((10 * d4 + d5) + 256 * (10 * d5 + d6) + 65536 * (10 * d6 + d7) + 16777216 * (10 * d7)) := by
    have q : (d0 + 256 * d1 + 65536 * d2 + 16777216 * d3 + 2 ^ 32 * (d4 + 256 * d5 + 65536 * d6 + 16777216 * d7)) / 2 ^ 8 =
        d1 + 256 * d2 + 65536 * d3 + 16777216 * d4 + 2 ^ 32 * (d5 + 256 * d6 + 65536 * d7) := by
      rw [Nat.div_eq_iff (by omega)]
      omega
    rw [Nat.shiftRight_eq_div_pow, q, Nat.mod_eq_of_lt (by omega)]
    ring
  rw [e2]
  have e5 : value 10 [d0, d1, d2, d3, d4, d5, d6, d7] =
      1000000 * (10 * d0 + d1) + 10000 * (10 * d2 + d3) + 100 * (10 * d4 + d5) + (10 * d6 + d7) := by
    simp only [value, List.foldl_cons, List.foldl_nil]
    ring
  rw [e5]
  clear e1 e2 e5
  obtain ⟨p0, b0⟩ : ∃ p, 10 * d0 + d1 = p := ⟨_, rfl⟩
  obtain ⟨p1, b1⟩ : ∃ p, 10 * d1 + d2 = p := ⟨_, rfl⟩
  obtain ⟨p2, b2⟩ : ∃ p, 10 * d2 + d3 = p := ⟨_, rfl⟩
  obtain ⟨p3, b3⟩ : ∃ p, 10 * d3 + d4 = p := ⟨_, rfl⟩
  obtain ⟨p4, b4⟩ : ∃ p, 10 * d4 + d5 = p := ⟨_, rfl⟩
  obtain ⟨p5, b5⟩ : ∃ p, 10 * d5 + d6 = p := ⟨_, rfl⟩
  obtain ⟨p6, b6⟩ : ∃ p, 10 * d6 + d7 = p := ⟨_, rfl⟩
  obtain ⟨p7, b7⟩ : ∃ p, 10 * d7 = p := ⟨_, rfl⟩
  rw [b0, b1, b2, b3, b4, b5, b6, b7]
  replace b0 : p0 ≤ 99 := by omega
  replace b1 : p1 ≤ 99 := by omega
  replace b2 : p2 ≤ 99 := by omega
  replace b3 : p3 ≤ 99 := by omega
  replace b4 : p4 ≤ 99 := by omega
  replace b5 : p5 ≤ 99 := by omega
  replace b6 : p6 ≤ 99 := by omega
  replace b7 : p7 ≤ 99 := by omega
  clear h0 h1 h2 h3 h4 h5 h6 h7
  have e3 : (p0 + 256 * p1 + 65536 * p2 + 16777216 * p3 + 2 ^ 32 * (p4 + 256 * p5 + 65536 * p6 + 16777216 * p7)) >>> 16 =
      (p2 + 256 * p3 + 65536 * p4 + 16777216 * p5) + 2 ^ 32 * (p6 + 256 * p7) := by
    rw [Nat.shiftRight_eq_div_pow, Nat.div_eq_iff (by omega)]
    omega
  rw [e3, and_mask _ _ (by omega), and_mask _ _ (by omega)]
  have m1 : (p0 + 256 * p1 + 65536 * p2 + 16777216 * p3) % 256 = p0 := by omega
  have m2 : (p4 + 256 * p5 + 65536 * p6 + 16777216 * p7) % 256 = p4 := by omega
  have m3 : (p2 + 256 * p3 + 65536 * p4 + 16777216 * p5) % 256 = p2 := by omega
  have m4 : (p6 + 256 * p7) % 256 = p6 := by omega
  rw [m1, m2, m3, m4, Nat.shiftRight_eq_div_pow]
  have e4 : ((p0 + 2 ^ 32 * p4) * 0x000F424000000064 + (p2 + 2 ^ 32 * p6) * 0x0000271000000001) % 2 ^ 64 =
      (100 * p0 + p2) + 2 ^ 32 * (1000000 * p0 + 10000 * p2 + 100 * p4 + p6) := by
    omega
  rw [e4]
  have e6 : (100 * p0 + p2 + 2 ^ 32 * (1000000 * p0 + 10000 * p2 + 100 * p4 + p6)) / 2 ^ 32 = 1000000 * p0 + 10000 * p2 + 100 * p4 + p6 := by
    omega
  rw [e6]
  omega

end C4.FF
