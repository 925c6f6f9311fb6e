import Verif.FastFloat.Compute
import Mathlib.Tactic.Ring
import Mathlib.Tactic.Linarith
/-
Word arithmetic of fast_float: leading zeros and full multiplication.
-/
namespace C4.FF

theorem and_high_ne (n a : Nat) (ha : a < 2 ^ (n + n)) : (a &&& (2 ^ n - 1) <<< n ≠ 0) ↔ 2 ^ n ≤ a := by
  have e1 : (a &&& (2 ^ n - 1) <<< n) >>> n = a >>> n := by
    rw [Nat.shiftRight_and_distrib, Nat.shiftLeft_shiftRight, Nat.and_two_pow_sub_one_eq_mod, Nat.shiftRight_eq_div_pow]
    apply Nat.mod_eq_of_lt
    rw [Nat.div_lt_iff_lt_mul (Nat.two_pow_pos n), ← Nat.pow_add]
    exact ha
  constructor
  · intro h
    by_contra hlt
    apply h
    have h0 : (a &&& (2 ^ n - 1) <<< n) % 2 ^ n = a &&& (2 ^ n - 1) <<< n :=
      Nat.mod_eq_of_lt (lt_of_le_of_lt Nat.and_le_left (by omega))
    rw [← h0, Nat.and_mod_two_pow, Nat.shiftLeft_eq, Nat.mul_mod_left, Nat.and_zero]
  · intro h h0
    rw [h0, Nat.zero_shiftRight, Nat.shiftRight_eq_div_pow] at e1
    have := (Nat.div_pos_iff).mpr ⟨Nat.two_pow_pos n, h⟩
    omega

/-- One step keeps `a = input / 2^k` and halves the room for `a`. -/
theorem lzStep_spec (N n a k mask : Nat) (hmask : mask = (2 ^ n - 1) <<< n) (hor : ∀ k < 64, k % (n + n) = 0 → k ||| n = k + n)
    (ha : a = N / 2 ^ k) (hlt : a < 2 ^ (n + n)) (hk : k < 64) (hkm : k % (n + n) = 0) (hpos : 0 < a) :
    (lzStep mask n (a, k)).1 = N / 2 ^ (lzStep mask n (a, k)).2 ∧ (lzStep mask n (a, k)).1 < 2 ^ n ∧ 0 < (lzStep mask n (a, k)).1 ∧
    ((lzStep mask n (a, k)).2 = k ∨ (lzStep mask n (a, k)).2 = k + n) := by
  unfold lzStep
  simp only [hmask]
  split
  · rename_i h
    have h' := (and_high_ne n a hlt).mp h
    rw [hor k hk hkm]
    refine ⟨?_, ?_, ?_, Or.inr rfl⟩
    · rw [Nat.shiftRight_eq_div_pow, ha, Nat.div_div_eq_div_mul, Nat.pow_add]
    · rw [Nat.shiftRight_eq_div_pow, Nat.div_lt_iff_lt_mul (Nat.two_pow_pos n), ← Nat.pow_add]; exact hlt
    · rw [Nat.shiftRight_eq_div_pow]; exact (Nat.div_pos_iff).mpr ⟨Nat.two_pow_pos n, h'⟩
  · rename_i h
    have h' : ¬ 2 ^ n ≤ a := fun h2 => h ((and_high_ne n a hlt).mpr h2)
    exact ⟨ha, by simpa using h', hpos, Or.inl rfl⟩

theorem leadingZeroes_spec (N : Nat) (h0 : 0 < N) (h64 : N < 2 ^ 64) :
    leadingZeroes N ≤ 63 ∧ 2 ^ 63 ≤ N * 2 ^ leadingZeroes N ∧ N * 2 ^ leadingZeroes N < 2 ^ 64 := by
  have s1 := lzStep_spec N 32 N 0 0xffffffff00000000 (by decide) (by decide) (by simp) h64 (by omega) (by omega) h0
  obtain ⟨a1, k1, e1⟩ : ∃ a k, lzStep 0xffffffff00000000 32 (N, 0) = (a, k) := ⟨_, _, rfl⟩
  rw [e1] at s1
  obtain ⟨p1, q1, r1, t1⟩ := s1
  have s2 := lzStep_spec N 16 a1 k1 0xffff0000 (by decide) (by decide) p1 q1 (by omega) (by omega) r1
  obtain ⟨a2, k2, e2⟩ : ∃ a k, lzStep 0xffff0000 16 (a1, k1) = (a, k) := ⟨_, _, rfl⟩
  rw [e2] at s2
  obtain ⟨p2, q2, r2, t2⟩ := s2
  have s3 := lzStep_spec N 8 a2 k2 0xff00 (by decide) (by decide) p2 q2 (by omega) (by omega) r2
  obtain ⟨a3, k3, e3⟩ : ∃ a k, lzStep 0xff00 8 (a2, k2) = (a, k) := ⟨_, _, rfl⟩
  rw [e3] at s3
  obtain ⟨p3, q3, r3, t3⟩ := s3
  have s4 := lzStep_spec N 4 a3 k3 0xf0 (by decide) (by decide) p3 q3 (by omega) (by omega) r3
  obtain ⟨a4, k4, e4⟩ : ∃ a k, lzStep 0xf0 4 (a3, k3) = (a, k) := ⟨_, _, rfl⟩
  rw [e4] at s4
  obtain ⟨p4, q4, r4, t4⟩ := s4
  have s5 := lzStep_spec N 2 a4 k4 0xc (by decide) (by decide) p4 q4 (by omega) (by omega) r4
  obtain ⟨a5, k5, e5⟩ : ∃ a k, lzStep 0xc 2 (a4, k4) = (a, k) := ⟨_, _, rfl⟩
  rw [e5] at s5
  obtain ⟨p5, q5, r5, t5⟩ := s5
  simp only at p5 q5 r5 t5 p4 q4 r4 t4 p3 q3 r3 t3 p2 q2 r2 t2 p1 q1 r1 t1
  have hlz : ∃ k, k ≤ 63 ∧ leadingZeroes N = 63 - k ∧ N / 2 ^ k = 1 := by
    have hL : leadingZeroes N = 63 - (if a5 &&& 0x2 ≠ 0 then (a5, k5 ||| 1) else (a5, k5)).2 := by
      simp only [leadingZeroes, leadingZeroesGeneric, e1, e2, e3, e4, e5]
    rw [hL]
    have ha5 : a5 = 1 ∨ a5 = 2 ∨ a5 = 3 := by omega
    have hor : ∀ k < 64, k % 2 = 0 → k ||| 1 = k + 1 := by decide
    rcases ha5 with ha5 | ha5 | ha5
    · refine ⟨k5, by omega, ?_, by rw [← p5, ha5]⟩
      rw [ha5]; rfl
    · refine ⟨k5 + 1, by omega, ?_, by rw [Nat.pow_succ, ← Nat.div_div_eq_div_mul, ← p5, ha5]⟩
      rw [ha5, ← hor k5 (by omega) (by omega)]; rfl
    · refine ⟨k5 + 1, by omega, ?_, by rw [Nat.pow_succ, ← Nat.div_div_eq_div_mul, ← p5, ha5]⟩
      rw [ha5, ← hor k5 (by omega) (by omega)]; rfl
  obtain ⟨k, hk, hL, hd⟩ := hlz
  have hp := Nat.two_pow_pos k
  have b1 : 2 ^ k ≤ N := by
    by_contra h
    rw [Nat.div_eq_of_lt (by omega)] at hd
    omega
  have b2 : N < 2 ^ k * 2 := by
    have := Nat.lt_mul_div_succ N hp
    rw [hd] at this
    omega
  have e : 2 ^ k * 2 ^ (63 - k) = 2 ^ 63 := by rw [← Nat.pow_add]; congr 1; omega
  have hp2 := Nat.two_pow_pos (63 - k)
  rw [hL]
  refine ⟨by omega, ?_, ?_⟩
  · rw [← e]; exact Nat.mul_le_mul_right _ b1
  · calc N * 2 ^ (63 - k) < 2 ^ k * 2 * 2 ^ (63 - k) := Nat.mul_lt_mul_of_pos_right b2 hp2
      _ = 2 ^ 63 * 2 := by rw [← e]; ring
      _ = 2 ^ 64 := by norm_num

theorem umul128Generic_eq (a b : Nat) (ha : a < 2 ^ 64) (hb : b < 2 ^ 64) : umul128Generic a b = fullMultiplication a b := by
  unfold umul128Generic fullMultiplication
  simp only [Nat.shiftRight_eq_div_pow, Nat.shiftLeft_eq]
  obtain ⟨a1, e1⟩ : ∃ x, a / 2 ^ 32 = x := ⟨_, rfl⟩
  obtain ⟨a0, e0⟩ : ∃ x, a % 2 ^ 32 = x := ⟨_, rfl⟩
  obtain ⟨b1, f1⟩ : ∃ x, b / 2 ^ 32 = x := ⟨_, rfl⟩
  obtain ⟨b0, f0⟩ : ∃ x, b % 2 ^ 32 = x := ⟨_, rfl⟩
  rw [e1, e0, f1, f0]
  have ea : a = 2 ^ 32 * a1 + a0 := by omega
  have eb : b = 2 ^ 32 * b1 + b0 := by omega
  have ha1 : a1 ≤ 2 ^ 32 - 1 := by omega
  have ha0 : a0 ≤ 2 ^ 32 - 1 := by omega
  have hb1 : b1 ≤ 2 ^ 32 - 1 := by omega
  have hb0 : b0 ≤ 2 ^ 32 - 1 := by omega
  have eab : a * b = 2 ^ 64 * (a1 * b1) + 2 ^ 32 * (a1 * b0 + a0 * b1) + a0 * b0 := by rw [ea, eb]; ring
  rw [eab]
  have m1 : a1 * b1 ≤ (2 ^ 32 - 1) * (2 ^ 32 - 1) := Nat.mul_le_mul ha1 hb1
  have m2 : a1 * b0 ≤ (2 ^ 32 - 1) * (2 ^ 32 - 1) := Nat.mul_le_mul ha1 hb0
  have m3 : a0 * b1 ≤ (2 ^ 32 - 1) * (2 ^ 32 - 1) := Nat.mul_le_mul ha0 hb1
  have m4 : a0 * b0 ≤ (2 ^ 32 - 1) * (2 ^ 32 - 1) := Nat.mul_le_mul ha0 hb0
  generalize a1 * b1 = x at *
  generalize a1 * b0 = y at *
  generalize a0 * b1 = z at *
  generalize a0 * b0 = v at *
  clear ea eb e1 e0 f1 f0 eab ha hb
  norm_num at m1 m2 m3 m4 ⊢
  split <;> split <;> omega

end C4.FF
