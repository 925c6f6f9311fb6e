import Verif.Props.FFCompute
/-
Properties of the conversion of a 64-bit number times a power of ten to `float` and `double`.
-/
namespace C4
open Spec FF

/-- C108: the number of leading zeros of a 64-bit word. -/
theorem C108_leading_zeroes (n k : Nat) (h0 : 0 < n) (h : n < 2 ^ 64) : leadingZeroes n = k ↔ k ≤ 63 ∧ 2 ^ (63 - k) ≤ n ∧ n < 2 ^ (64 - k) := by
  obtain ⟨h1, h2, h3⟩ := leadingZeroes_spec n h0 h
  generalize leadingZeroes n = l at *
  have key : ∀ j ≤ 63, (2 ^ 63 ≤ n * 2 ^ j ↔ 2 ^ (63 - j) ≤ n) ∧ (n * 2 ^ j < 2 ^ 64 ↔ n < 2 ^ (64 - j)) := by
    intro j hj
    have e1 : 2 ^ 63 = 2 ^ (63 - j) * 2 ^ j := by rw [← Nat.pow_add]; congr 1; omega
    have e2 : 2 ^ 64 = 2 ^ (64 - j) * 2 ^ j := by rw [← Nat.pow_add]; congr 1; omega
    rw [e1, e2]
    exact ⟨Nat.mul_le_mul_right_iff (Nat.two_pow_pos j), Nat.mul_lt_mul_right (Nat.two_pow_pos j)⟩
  constructor
  · rintro rfl
    exact ⟨h1, (key l h1).1.mp h2, (key l h1).2.mp h3⟩
  · rintro ⟨k1, k2, k3⟩
    have l2 := (key l h1).1.mp h2
    have l3 := (key l h1).2.mp h3
    have a : 63 - l < 64 - k := (Nat.pow_lt_pow_iff_right (by omega : 1 < 2)).mp (lt_of_le_of_lt l2 k3)
    have b : 63 - k < 64 - l := (Nat.pow_lt_pow_iff_right (by omega : 1 < 2)).mp (lt_of_le_of_lt k2 l3)
    omega

example : leadingZeroes 0x00f0000000000001 = 8 := by decide +kernel

/-- C108: the product of two 64-bit words is exact in all 128 bits, with 32-bit multiplications only. -/
theorem C108_umul128 (a b : Nat) (ha : a < 2 ^ 64) (hb : b < 2 ^ 64) :
    (umul128Generic a b).2 * 2 ^ 64 + (umul128Generic a b).1 = a * b ∧ (umul128Generic a b).1 < 2 ^ 64 ∧ (umul128Generic a b).2 < 2 ^ 64 := by
  rw [umul128Generic_eq a b ha hb]
  unfold fullMultiplication
  refine ⟨?_, Nat.mod_lt _ (by omega), ?_⟩
  · have := Nat.div_add_mod (a * b) (2 ^ 64)
    dsimp only
    omega
  · dsimp only
    rw [Nat.div_lt_iff_lt_mul (by omega)]
    exact Nat.mul_lt_mul'' ha hb

example : umul128Generic (2 ^ 64 - 1) (2 ^ 64 - 1) = (1, 2 ^ 64 - 2) := by decide +kernel

/-- C109: every row of the table of powers holds the leading 128 bits of a power of five, correct to less than one unit, and the exponent of the
power of ten is the one `power` gives. -/
theorem C109_table (q : Int) (h1 : -342 ≤ q) (h2 : q ≤ 308) :
    ∃ T : Nat, T = powerOfFive128.getD (2 * (q + 342).toNat) 0 * 2 ^ 64 + powerOfFive128.getD (2 * (q + 342).toNat + 1) 0 ∧
      2 ^ 127 ≤ T ∧ T < 2 ^ 128 ∧ |(10 : ℚ) ^ q - (T : ℚ) * 2 ^ (power q - 190)| < 2 ^ (power q - 190) ∧
      (2 : ℚ) ^ (power q - 63) ≤ 10 ^ q ∧ (10 : ℚ) ^ q < 2 ^ (power q - 62) := by
  obtain ⟨hi, lo, n, d, R⟩ := row q h1 h2
  have hh := R.hi64
  have hl := R.lo64
  have hd : (0 : ℚ) < d := by exact_mod_cast R.dpos
  have hp := zpow2_pos (power q - 190)
  have ee : q - -342 = q + 342 := by omega
  have e1 := R.ehi
  have e2 := R.elo
  rw [ee] at e1 e2
  rw [e1, e2]
  obtain ⟨T, hT⟩ : ∃ T, hi * 2 ^ 64 + lo = T := ⟨_, rfl⟩
  have hn := R.norm
  have hk := R.kind
  rw [hT] at hn hk
  have hkk : T * d < n + d ∧ n < T * d + d := by
    have hd' := R.dpos
    rcases hk with h | h | h
    · omega
    · have := h.2.1; rw [Nat.add_mul] at this; omega
    · have := h.2.1; omega
  clear hk
  refine ⟨T, hT.symm, hn, by omega, ?_, ?_, ?_⟩
  · rw [R.pow10, ← sub_mul, abs_mul, abs_of_pos hp]
    have : |(n : ℚ) / d - T| < 1 := by
      have a1 : (T : ℚ) * d < n + d := by exact_mod_cast hkk.1
      have a2 : (n : ℚ) < T * d + d := by exact_mod_cast hkk.2
      rw [abs_lt]
      constructor
      · rw [lt_sub_iff_add_lt, lt_div_iff₀ hd]; linarith
      · rw [sub_lt_iff_lt_add, div_lt_iff₀ hd]; linarith
    calc |(n : ℚ) / d - T| * 2 ^ (power q - 190) < 1 * 2 ^ (power q - 190) := by apply mul_lt_mul_of_pos_right this hp
      _ = _ := one_mul _
  · rw [R.pow10, show power q - 63 = ((127 : ℕ) : ℤ) + (power q - 190) by push_cast; ring, zpow_add₀ (by norm_num), zpow_natCast]
    apply mul_le_mul_of_nonneg_right _ hp.le
    rw [le_div_iff₀ hd]
    exact_mod_cast R.n1
  · rw [R.pow10, show power q - 62 = ((128 : ℕ) : ℤ) + (power q - 190) by push_cast; ring, zpow_add₀ (by norm_num), zpow_natCast]
    apply mul_lt_mul_of_pos_right _ hp
    rw [div_lt_iff₀ hd]
    exact_mod_cast R.n2

example : powerOfFive128.getD (2 * (((-1 : Int) + 342).toNat)) 0 = 0xcccccccccccccccc ∧ power (-1) = 59 := by decide +kernel

theorem toFloat_sign {f : Fmt} {F : Ieee} (hok : FmtOk f F) (neg : Bool) (am : AM) (h : toFloat f false am ≤ F.infBits) :
    toFloat f neg am = toFloat f false am + (if neg then F.signBit else 0) := by
  have hlt : toFloat f false am < 2 ^ f.signIndex := by
    refine lt_of_le_of_lt h ?_
    rw [hok.sign]
    unfold Ieee.infBits
    rw [Nat.pow_add, Nat.mul_comm]
    apply Nat.mul_lt_mul_of_pos_left _ (Nat.two_pow_pos _)
    have := Nat.two_pow_pos F.expBits
    omega
  cases neg
  · simp
  · have e : toFloat f true am = toFloat f false am ||| 1 <<< f.signIndex := by
      unfold toFloat
      simp
    rw [e, or_shift _ _ _ hlt, if_pos rfl]
    unfold Ieee.signBit
    rw [hok.sign]
    omega

/-- C110: `compute_float` rounds `w * 10^q` correctly, for every `w` and `q`, with one 64-bit by 128-bit product at most. -/
theorem C110_compute_float {f : Fmt} {F : Ieee} (hf : (f = dbl ∧ F = binary64) ∨ (f = flt ∧ F = binary32)) (neg : Bool) (q : Int) (w : Nat)
    (hw : w < 2 ^ 64) :
    ∃ b, toFloat f neg (computeFloat f q w) = b + (if neg then F.signBit else 0) ∧ F.Nearest ((w : ℚ) * 10 ^ q) b := by
  have hok : FmtOk f F := by
    rcases hf with ⟨rfl, rfl⟩ | ⟨rfl, rfl⟩
    · exact dbl_ok
    · exact flt_ok
  have h := (computeFloat_nearest hok q w hw).1
  exact ⟨_, toFloat_sign hok neg _ h.1, h⟩

example : toFloat dbl true (computeFloat dbl (-1) 15) = 0xBFF8000000000000 ∧ toFloat flt false (computeFloat flt (-45) 1) = 1 ∧
    toFloat dbl false (computeFloat dbl 0 9007199254740993) = 0x4340000000000000 := by decide +kernel

/-- C110: hence a larger number never gives a smaller result. -/
theorem C110_monotone {f : Fmt} {F : Ieee} (hf : (f = dbl ∧ F = binary64) ∨ (f = flt ∧ F = binary32)) (q r : Int) (w v : Nat)
    (hw : w < 2 ^ 64) (hv : v < 2 ^ 64) (h : (w : ℚ) * 10 ^ q ≤ (v : ℚ) * 10 ^ r) :
    toFloat f false (computeFloat f q w) ≤ toFloat f false (computeFloat f r v) := by
  have hok : FmtOk f F := by
    rcases hf with ⟨rfl, rfl⟩ | ⟨rfl, rfl⟩
    · exact dbl_ok
    · exact flt_ok
  exact nearest_mono F (computeFloat_nearest hok q w hw).1 (computeFloat_nearest hok r v hv).1 h

example : (3 : ℚ) * 10 ^ (-1 : Int) ≤ (4 : ℚ) * 10 ^ (-1 : Int) := by norm_num

end C4
