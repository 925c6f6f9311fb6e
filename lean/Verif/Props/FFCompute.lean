import Verif.Props.FFTie
/-
`compute_float`: the product of a 64-bit number and a power of ten, correctly rounded.
-/
namespace C4.FF
open Spec

theorem and_not_bit (k r : Nat) (hr : r < 2 ^ k) (hk : k < 64) : (2 ^ k + r) &&& (2 ^ 64 - 1 - 1 <<< k) = r := by
  have e : 2 ^ 64 - 1 - 1 <<< k = 2 ^ 64 - (2 ^ k + 1) := by rw [Nat.shiftLeft_eq, Nat.one_mul]; omega
  rw [e]
  apply Nat.eq_of_testBit_eq
  intro i
  rw [Nat.testBit_and, Nat.testBit_two_pow_sub_succ (Nat.pow_lt_pow_right (by omega) hk), Nat.testBit_two_pow]
  rcases Nat.lt_trichotomy i k with h | h | h
  · rw [Nat.testBit_two_pow_add_gt h]
    simp [show i < 64 by omega, show k ≠ i by omega]
  · subst h
    rw [Nat.testBit_lt_two_pow hr]
    simp
  · have h1 : 2 ^ k + r < 2 ^ i := by
      calc 2 ^ k + r < 2 ^ k + 2 ^ k := by omega
        _ = 2 ^ (k + 1) := by rw [Nat.pow_succ]; ring
        _ ≤ 2 ^ i := Nat.pow_le_pow_right (by omega) h
    rw [Nat.testBit_lt_two_pow h1, Nat.testBit_lt_two_pow (by omega)]
    simp

theorem or_shift (k m e : Nat) (h : m < 2 ^ k) : m ||| (e <<< k) = e * 2 ^ k + m := by
  rw [Nat.or_comm, ← Nat.shiftLeft_add_eq_or_of_lt h, Nat.shiftLeft_eq]

/-- The bits of a result without its sign. -/
theorem toFloat_pos (f : Fmt) (m : Nat) (e : Int) : toFloat f false ⟨m, e⟩ = m ||| (e.toNat <<< f.mantissaExplicitBits) := by
  unfold toFloat
  simp

theorem toFloat_add (f : Fmt) (m e : Nat) (h : m < 2 ^ f.mantissaExplicitBits) :
    toFloat f false ⟨m, (e : Int)⟩ = e * 2 ^ f.mantissaExplicitBits + m := by
  rw [toFloat_pos, Int.toNat_natCast, or_shift _ _ _ h]

theorem FmtOk.infBits {f : Fmt} {F : Ieee} (hok : FmtOk f F) : F.infBits = f.infinitePower.toNat * 2 ^ f.mantissaExplicitBits := by
  unfold Ieee.infBits
  rw [hok.inf, Int.toNat_natCast, hok.frac]

theorem toFloat_inf {f : Fmt} {F : Ieee} (hok : FmtOk f F) : toFloat f false ⟨0, f.infinitePower⟩ = F.infBits := by
  rw [toFloat_pos, hok.infBits, or_shift _ _ _ (Nat.two_pow_pos _), Nat.add_zero]

theorem val_inf {f : Fmt} {F : Ieee} (hok : FmtOk f F) : F.val F.infBits = 2 ^ (F.bias + 1) := by
  have h2 := hok.infb
  have h3 := hok.bias
  have h4 := hok.emin
  obtain ⟨k, hk⟩ : ∃ k : Nat, f.infinitePower.toNat = k + 2 := ⟨f.infinitePower.toNat - 2, by omega⟩
  have e : F.infBits = k * 2 ^ F.fracBits + 2 ^ (F.fracBits + 1) := by
    rw [hok.infBits, hk, ← hok.frac, Nat.pow_succ]; ring
  rw [e, val_eq F k _ (le_refl _) (Or.inl (Nat.pow_le_pow_right (by omega) (by omega)))]
  push_cast
  rw [← zpow_natCast, ← zpow_add₀ (by norm_num)]
  congr 1
  push_cast
  omega

/-- Rounding and packing of a number that is not subnormal. -/
theorem computeFloatRound_bits {f : Fmt} {F : Ieee} (hok : FmtOk f F) (M p : Nat) (h1 : 2 ^ (f.mantissaExplicitBits + 1) ≤ M)
    (h2 : M < 2 ^ (f.mantissaExplicitBits + 2)) :
    toFloat f false (computeFloatRound f M ((p : Int) + 1)) =
      if (p : Int) + 1 ≥ f.infinitePower then F.infBits else p * 2 ^ f.mantissaExplicitBits + (M + M % 2) / 2 := by
  have hmb := hok.mb2
  unfold computeFloatRound
  simp only [Nat.and_one_is_mod, Nat.shiftRight_eq_div_pow, Nat.shiftLeft_eq, Nat.pow_one, Nat.one_mul]
  obtain ⟨r, hr⟩ : ∃ r, (M + M % 2) / 2 = r := ⟨_, rfl⟩
  rw [hr]
  have h1' := h1
  have h2' := h2
  rw [Nat.pow_succ] at h1' h2'
  rw [Nat.pow_succ] at h2'
  have hp := Nat.two_pow_pos f.mantissaExplicitBits
  have hr1 : 2 ^ f.mantissaExplicitBits ≤ r := by omega
  have hr2 : r ≤ 2 * 2 ^ f.mantissaExplicitBits := by omega
  have hsh : 1 <<< f.mantissaExplicitBits = 2 ^ f.mantissaExplicitBits := by rw [Nat.shiftLeft_eq, Nat.one_mul]
  by_cases hc : r ≥ 2 * 2 ^ f.mantissaExplicitBits
  · have hre : r = 2 * 2 ^ f.mantissaExplicitBits := by omega
    have hm := and_not_bit f.mantissaExplicitBits 0 hp (by omega)
    rw [Nat.add_zero, hsh] at hm
    simp only [hc, if_true, hm]
    by_cases hi : (p : Int) + 1 ≥ f.infinitePower
    · rw [if_pos (by omega), if_pos hi, toFloat_inf hok]
    · rw [if_neg hi]
      by_cases hi2 : (p : Int) + 1 + 1 ≥ f.infinitePower
      · rw [if_pos hi2, toFloat_inf hok, hok.infBits, show f.infinitePower.toNat = p + 2 by omega, hre]
        ring
      · rw [if_neg hi2, show (p : Int) + 1 + 1 = ((p + 2 : Nat) : Int) by push_cast; ring, toFloat_add f 0 _ hp, hre]
        ring
  · obtain ⟨m, hm⟩ : ∃ m, r = 2 ^ f.mantissaExplicitBits + m := ⟨r - 2 ^ f.mantissaExplicitBits, by omega⟩
    have hm2 : m < 2 ^ f.mantissaExplicitBits := by omega
    have hand := and_not_bit f.mantissaExplicitBits m hm2 (by omega)
    rw [hsh, ← hm] at hand
    simp only [hc, if_false, hand]
    by_cases hi : (p : Int) + 1 ≥ f.infinitePower
    · rw [if_pos hi, if_pos hi, toFloat_inf hok]
    · rw [if_neg hi, if_neg hi, show (p : Int) + 1 = ((p + 1 : Nat) : Int) by push_cast; ring, toFloat_add f m _ hm2, hm]
      ring

/-- `compute_float` on a number that is not 0 and a power for which there is a row in the table: what is known before rounding. -/
structure Scaled (f : Fmt) (F : Ieee) (q : Int) (w : Nat) (w' lz H L u M : Nat) (E : Int) : Prop where
  hlz : lz ≤ 63
  ew : w' = w * 2 ^ lz
  w64 : w' < 2 ^ 64
  w63 : 2 ^ 63 ≤ w'
  hu : u = H / 2 ^ 63
  hu1 : u ≤ 1
  hH : H < 2 ^ 64
  eM : M = H / 2 ^ (u + (61 - f.mantissaExplicitBits))
  M1 : 2 ^ (f.mantissaExplicitBits + 1) ≤ M
  M2 : M < 2 ^ (f.mantissaExplicitBits + 2)
  eE : E = power q + u - lz - 1 - f.mantissaExplicitBits
  lo : (M : ℚ) * 2 ^ E ≤ (w : ℚ) * 10 ^ q
  hi : (w : ℚ) * 10 ^ q < ((M : ℚ) + 1) * 2 ^ E
  tie : M % 2 = 1 → ((L ≤ 1 ∧ q ≥ f.minExponentRoundToEven ∧ q ≤ f.maxExponentRoundToEven ∧ M * 2 ^ (u + (61 - f.mantissaExplicitBits)) = H) ↔
    (w : ℚ) * 10 ^ q = (M : ℚ) * 2 ^ E)
  notie : q ≤ -28 → ∀ (K k : Nat), (w : ℚ) * 10 ^ q ≠ (K : ℚ) * 2 ^ (E + k)

theorem scaled {f : Fmt} {F : Ieee} (hok : FmtOk f F) {q : Int} (hq1 : -342 ≤ q) (hq2 : q ≤ 308) {w : Nat} (hw : w < 2 ^ 64) (hw0 : 0 < w) :
    ∃ u M E, Scaled f F q w (w * 2 ^ leadingZeroes w) (leadingZeroes w)
      (computeProductApproximation (f.mantissaExplicitBits + 3) q (w * 2 ^ leadingZeroes w)).2
      (computeProductApproximation (f.mantissaExplicitBits + 3) q (w * 2 ^ leadingZeroes w)).1 u M E := by
  obtain ⟨hl1, hl2, hl3⟩ := leadingZeroes_spec w hw0 hw
  obtain ⟨hi, lo, n, d, R⟩ := row q hq1 hq2
  have hmb1 := hok.mb1
  have hmb2 := hok.mb2
  obtain ⟨lz, elz⟩ : ∃ x, leadingZeroes w = x := ⟨_, rfl⟩
  rw [elz] at hl1 hl2 hl3 ⊢
  obtain ⟨w', ew⟩ : ∃ x, w * 2 ^ lz = x := ⟨_, rfl⟩
  rw [ew] at hl2 hl3 ⊢
  obtain ⟨t, et⟩ : ∃ t, 61 - f.mantissaExplicitBits = t := ⟨_, rfl⟩
  have e3 : f.mantissaExplicitBits + 3 = 64 - t := by omega
  rw [e3]
  have hcases := product_cases t (by omega) (by omega) R w' hl3
  have hfloor := product_floor t (by omega) (by omega) R w' hl3
  have hrange := product_range t (by omega) (by omega) R w' hl3 hl2
  simp only at hcases
  obtain ⟨H, eH⟩ : ∃ x, (computeProductApproximation (64 - t) q w').2 = x := ⟨_, rfl⟩
  obtain ⟨L, eL⟩ : ∃ x, (computeProductApproximation (64 - t) q w').1 = x := ⟨_, rfl⟩
  rw [eH, eL] at hcases
  rw [eH] at hfloor hrange
  rw [eH, eL]
  obtain ⟨u, hu⟩ : ∃ u, u = H / 2 ^ 63 := ⟨_, rfl⟩
  have hu1 : u ≤ 1 := by omega
  obtain ⟨M, hM⟩ : ∃ M, M = H / 2 ^ (u + t) := ⟨_, rfl⟩
  have hd := R.dpos
  have hdq : (0 : ℚ) < d := by exact_mod_cast hd
  have hMK : M = H / 2 ^ t / 2 ^ u := by rw [hM, Nat.div_div_eq_div_mul, ← Nat.pow_add, Nat.add_comm t u]
  -- the number itself
  have hx : (w : ℚ) * 10 ^ q = (w' * n : ℕ) / d * 2 ^ (power q - 190 - lz) := by
    rw [R.pow10, ← ew]
    have : (2 : ℚ) ^ (power q - 190 - lz) = 2 ^ (power q - 190) / 2 ^ lz := by rw [zpow_sub₀ (by norm_num), zpow_natCast]
    rw [this]
    push_cast
    field_simp
  have hs : ∀ (e : Nat) (E : Int), (E : Int) = (e : Int) + (power q - 190 - lz) → (2 : ℚ) ^ E = 2 ^ e * 2 ^ (power q - 190 - lz) := by
    intro e E h
    rw [h, zpow_add₀ (by norm_num), zpow_natCast]
  have hpos := zpow2_pos (power q - 190 - lz)
  obtain ⟨E, hE⟩ : ∃ E : Int, E = power q + u - lz - 1 - f.mantissaExplicitBits := ⟨_, rfl⟩
  have hEs := hs (128 + (u + t)) E (by rw [hE]; push_cast; omega)
  have hMlo : M * 2 ^ (128 + (u + t)) * d ≤ w' * n := by
    refine le_trans ?_ hfloor.1
    apply Nat.mul_le_mul_right
    have e : 2 ^ (128 + (u + t)) = 2 ^ u * 2 ^ (128 + t) := by rw [← Nat.pow_add]; congr 1; omega
    rw [e, ← Nat.mul_assoc, hMK]
    exact Nat.mul_le_mul_right _ (div_pow_add _ u).1
  have hMhi : w' * n < (M + 1) * 2 ^ (128 + (u + t)) * d := by
    refine lt_of_lt_of_le hfloor.2 ?_
    apply Nat.mul_le_mul_right
    have e : 2 ^ (128 + (u + t)) = 2 ^ u * 2 ^ (128 + t) := by rw [← Nat.pow_add]; congr 1; omega
    rw [e, ← Nat.mul_assoc, hMK]
    exact Nat.mul_le_mul_right _ (div_pow_add _ u).2
  have cmp : ∀ (K e : Nat), ((K : ℚ) * 2 ^ e * 2 ^ (power q - 190 - lz) ≤ (w' * n : ℕ) / d * 2 ^ (power q - 190 - lz) ↔ K * 2 ^ e * d ≤ w' * n) := by
    intro K e
    rw [mul_le_mul_iff_left₀ hpos, le_div_iff₀ hdq]
    exact_mod_cast Iff.rfl
  have cmpe : ∀ (K e : Nat), ((w' * n : ℕ) / d * 2 ^ (power q - 190 - lz) = (K : ℚ) * 2 ^ e * 2 ^ (power q - 190 - lz) ↔ w' * n = K * 2 ^ e * d) := by
    intro K e
    rw [mul_left_inj' hpos.ne', div_eq_iff hdq.ne']
    exact_mod_cast Iff.rfl
  have hw'0 : 0 < w' := by omega
  have hM1 : 2 ^ (f.mantissaExplicitBits + 1) ≤ M := by
    rw [hM, Nat.le_div_iff_mul_le (Nat.two_pow_pos _), ← Nat.pow_add]
    rcases Nat.eq_zero_or_pos u with h | h
    · rw [h]
      refine le_trans (le_of_eq ?_) hrange.1
      congr 1; omega
    · have : u = 1 := by omega
      rw [this]
      have : 2 ^ 63 ≤ H := by omega
      refine le_trans (le_of_eq ?_) this
      congr 1; omega
  have hM2 : M < 2 ^ (f.mantissaExplicitBits + 2) := by
    rw [hM, Nat.div_lt_iff_lt_mul (Nat.two_pow_pos _), ← Nat.pow_add]
    rcases Nat.eq_zero_or_pos u with h | h
    · rw [h]
      have : H < 2 ^ 63 := by omega
      refine lt_of_lt_of_le this (le_of_eq ?_)
      congr 1; omega
    · have : u = 1 := by omega
      rw [this]
      refine lt_of_lt_of_le hrange.2 (le_of_eq ?_)
      congr 1; omega
  refine ⟨u, M, E, ⟨hl1, ew.symm, hl3, hl2, hu, hu1, hrange.2, by rw [et]; exact hM, hM1, hM2, hE, ?_, ?_, ?_, ?_⟩⟩
  · rw [hEs, hx, ← mul_assoc, cmp]
    exact hMlo
  · rw [hEs, hx, ← mul_assoc]
    rw [← not_le]
    intro hcon
    have := (cmp (M + 1) (128 + (u + t))).mp (by push_cast at hcon ⊢; exact hcon)
    omega
  · intro hodd
    rw [et, hEs, hx, ← mul_assoc, cmpe]
    refine tie_iff hok R hq1 hl3 hw'0 (by omega) (by omega) hcases ?_ hM1 hM2 hodd
    rw [hM]
    exact (div_pow_add H (u + t)).1
  · intro hq28 K k
    rw [hs (128 + (u + t) + k) (E + k) (by rw [hE]; push_cast; omega), hx, ← mul_assoc]
    intro hcon
    exact no_tie R hq28 hq1 hl3 hw'0 K _ ((cmpe K _).mp hcon)

/-- Zero is the nearest number to anything below half of the smallest one. -/
theorem nearest_zero {f : Fmt} {F : Ieee} (hok : FmtOk f F) {x : ℚ} (h0 : 0 ≤ x) (h : x < 2 ^ (-F.bias - F.fracBits : ℤ)) : F.Nearest x 0 := by
  have hpos := zpow2_pos (-F.bias - F.fracBits)
  suffices F.Nearest x (0 * 2 ^ F.fracBits + 0) by simpa using this
  refine nearest_of_floor F (p := 0) (M := 0) (r := 0) ?_ ?_ (Nat.two_pow_pos _) (Or.inr rfl) ?_ ?_ (Or.inl ⟨rfl, rfl⟩)
  · simpa using h0
  · push_cast
    rw [zero_add, one_mul, zero_sub]
    exact h
  · rw [hok.infBits]
    have h1 := hok.infb
    have h2 := hok.bias
    have h3 := hok.emin
    have := Nat.two_pow_pos f.mantissaExplicitBits
    have : 1 ≤ f.infinitePower.toNat := by omega
    rw [Nat.zero_mul]
    exact Nat.mul_pos this (Nat.two_pow_pos _)
  · rw [hok.frac]; exact hok.mb1

theorem zpow_le_of_nat {a b : ℕ} (h : 2 ^ a ≤ 10 ^ b) : (2 : ℚ) ^ (a : ℤ) ≤ 10 ^ (b : ℤ) := by
  rw [zpow_natCast, zpow_natCast]
  exact_mod_cast h

/-- `compute_float` rounds correctly. -/
theorem computeFloat_nearest {f : Fmt} {F : Ieee} (hok : FmtOk f F) (q : Int) (w : Nat) (hw : w < 2 ^ 64) :
    F.Nearest ((w : ℚ) * 10 ^ q) (toFloat f false (computeFloat f q w)) ∧ 0 ≤ (computeFloat f q w).power2 := by
  have hz : toFloat f false ⟨0, 0⟩ = 0 := by
    rw [show (0 : Int) = ((0 : Nat) : Int) by rfl, toFloat_add f 0 0 (Nat.two_pow_pos _)]; simp
  have hbias := hok.bias
  have hemin := hok.emin
  have hemin' := hok.emin'
  have hinfb := hok.infb
  have hmb1 := hok.mb1
  have hmb2 := hok.mb2
  have hfrac := hok.frac
  unfold computeFloat
  split
  · rename_i h
    refine ⟨?_, le_refl _⟩
    rw [hz]
    apply nearest_zero hok (by positivity)
    rcases h with h | h
    · rw [h]; simp only [Nat.cast_zero, zero_mul]; positivity
    · have h1 : (w : ℚ) < 2 ^ (64 : ℤ) := by
        rw [show (64 : ℤ) = ((64 : ℕ) : ℤ) by rfl, zpow_natCast]; exact_mod_cast hw
      have h2 : (10 : ℚ) ^ q ≤ 10 ^ (f.smallestPowerOfTen - 1) := zpow_le_zpow_right₀ (by norm_num) (by omega)
      have h3 := zpow_le_of_nat hok.zero
      have hs := hok.small
      rw [show ((1 - f.smallestPowerOfTen).toNat : ℤ) = -(f.smallestPowerOfTen - 1) by omega, zpow_neg] at h3
      have h4 : (0 : ℚ) < 10 ^ (f.smallestPowerOfTen - 1) := by positivity
      have h5 : (0 : ℚ) < 10 ^ q := by positivity
      rw [le_inv_comm₀ (by positivity) h4, ← zpow_neg] at h3
      calc (w : ℚ) * 10 ^ q < 2 ^ (64 : ℤ) * 10 ^ q := by apply mul_lt_mul_of_pos_right h1 h5
        _ ≤ 2 ^ (64 : ℤ) * 10 ^ (f.smallestPowerOfTen - 1) := by apply mul_le_mul_of_nonneg_left h2 (by positivity)
        _ ≤ 2 ^ (64 : ℤ) * 2 ^ (-((64 + f.mantissaExplicitBits + (-f.minimumExponent).toNat : ℕ) : ℤ)) := by
            apply mul_le_mul_of_nonneg_left h3 (by positivity)
        _ = 2 ^ (-F.bias - F.fracBits : ℤ) := by
            rw [← zpow_add₀ (by norm_num)]; congr 1; push_cast; omega
  · rename_i hnz
    simp only [not_or, not_lt] at hnz
    split
    · rename_i h
      refine ⟨?_, by dsimp only; omega⟩
      rw [toFloat_inf hok]
      apply nearest_inf
      rw [val_inf hok]
      have h1 : (1 : ℚ) ≤ w := by exact_mod_cast Nat.one_le_iff_ne_zero.mpr hnz.1
      have h2 : (10 : ℚ) ^ (f.largestPowerOfTen + 1) ≤ 10 ^ q := zpow_le_zpow_right₀ (by norm_num) (by omega)
      have h3 := zpow_le_of_nat hok.huge
      have hl := hok.large
      rw [show ((F.bias + 1).toNat : ℤ) = F.bias + 1 by omega, show ((f.largestPowerOfTen + 1).toNat : ℤ) = f.largestPowerOfTen + 1 by omega] at h3
      have h5 : (0 : ℚ) < 10 ^ q := by positivity
      nlinarith
    · rename_i hlarge
      have hs := hok.small
      have hl := hok.large
      obtain ⟨u, M, E, S⟩ := scaled hok (q := q) (by omega) (by omega) hw (Nat.pos_of_ne_zero hnz.1)
      have hwm : (w <<< leadingZeroes w) % 2 ^ 64 = w * 2 ^ leadingZeroes w := by
        rw [Nat.shiftLeft_eq]; exact Nat.mod_eq_of_lt S.w64
      simp only [hwm]
      obtain ⟨H, eH⟩ : ∃ x, (computeProductApproximation (f.mantissaExplicitBits + 3) q (w * 2 ^ leadingZeroes w)).2 = x := ⟨_, rfl⟩
      obtain ⟨L, eL⟩ : ∃ x, (computeProductApproximation (f.mantissaExplicitBits + 3) q (w * 2 ^ leadingZeroes w)).1 = x := ⟨_, rfl⟩
      rw [eH, eL] at S
      simp only [eH, eL]
      obtain ⟨hlz, ew, w64, w63, hu, hu1, hH, eM, M1, M2, eE, xlo, xhi, tie, notie⟩ := S
      have hush : H >>> 63 = u := by rw [hu, Nat.shiftRight_eq_div_pow]
      have hsh : u + 64 - f.mantissaExplicitBits - 3 = u + (61 - f.mantissaExplicitBits) := by omega
      simp only [hush, hsh]
      have hMsh : H >>> (u + (61 - f.mantissaExplicitBits)) = M := by rw [eM, Nat.shiftRight_eq_div_pow]
      simp only [hMsh]
      obtain ⟨p2, hp2⟩ : ∃ p2 : Int, power q + u - leadingZeroes w - f.minimumExponent = p2 := ⟨_, rfl⟩
      rw [hp2]
      have hEp : E = p2 - 1 - F.bias - F.fracBits := by rw [eE, hfrac]; omega
      split
      · -- subnormal
        rename_i hsub
        have hq28 : q ≤ -28 := by
          have : power q ≤ -64 := by omega
          unfold power at this
          omega
        split
        · rename_i h64
          refine ⟨?_, le_refl _⟩
          rw [hz]
          apply nearest_zero hok (by positivity)
          calc (w : ℚ) * 10 ^ q < ((M : ℚ) + 1) * 2 ^ E := xhi
            _ ≤ 2 ^ ((f.mantissaExplicitBits + 2 : ℕ) : ℤ) * 2 ^ E := by
                apply mul_le_mul_of_nonneg_right _ (by positivity)
                rw [zpow_natCast]
                exact_mod_cast M2
            _ = 2 ^ (((f.mantissaExplicitBits + 2 : ℕ) : ℤ) + E) := by rw [← zpow_add₀ (by norm_num)]
            _ ≤ 2 ^ (-F.bias - F.fracBits : ℤ) := by
                apply zpow_le_zpow_right₀ (by norm_num)
                push_cast
                omega
        · rename_i h64
          obtain ⟨k, hk⟩ : ∃ k : Nat, -p2 + 1 = (k : Int) := ⟨(-p2 + 1).toNat, by omega⟩
          rw [hk, Int.toNat_natCast]
          obtain ⟨M', hM'⟩ : ∃ x, M >>> k = x := ⟨_, rfl⟩
          have hM'd : M' = M / 2 ^ k := by rw [← hM', Nat.shiftRight_eq_div_pow]
          simp only [hM', Nat.and_one_is_mod, Nat.shiftRight_eq_div_pow, Nat.pow_one]
          have hk1 : 1 ≤ k := by omega
          have hM'lt : M' < 2 ^ (f.mantissaExplicitBits + 1) := by
            rw [hM'd, Nat.div_lt_iff_lt_mul (Nat.two_pow_pos _), ← Nat.pow_add]
            exact lt_of_lt_of_le M2 (Nat.pow_le_pow_right (by omega) (by omega))
          have hEk : E + (k : Int) = ((0 : Nat) : Int) - F.bias - F.fracBits := by push_cast; omega
          have hz2 : (2 : ℚ) ^ (E + (k : Int)) = 2 ^ k * 2 ^ E := by rw [zpow_add₀ (by norm_num), zpow_natCast]; ring
          have hEpos := zpow2_pos E
          have near := nearest_of_floor F (x := (w : ℚ) * 10 ^ q) (p := 0) (M := M') (r := (M' + M' % 2) / 2)
            (by rw [← hEk, hz2]
                refine le_trans ?_ xlo
                rw [← mul_assoc]
                apply mul_le_mul_of_nonneg_right _ hEpos.le
                have := (div_pow_add M k).1
                rw [← hM'd] at this
                exact_mod_cast this)
            (by rw [← hEk, hz2]
                refine lt_of_lt_of_le xhi ?_
                rw [← mul_assoc]
                apply mul_le_mul_of_nonneg_right _ hEpos.le
                have := (div_pow_add M k).2
                rw [← hM'd] at this
                exact_mod_cast this)
            (by rw [hfrac]; exact lt_trans hM'lt (Nat.pow_lt_pow_right (by omega) (by omega)))
            (Or.inr rfl)
            (by rw [hok.infBits]
                have : 2 ≤ f.infinitePower.toNat := by omega
                rw [Nat.pow_succ] at hM'lt
                have := Nat.mul_le_mul_right (2 ^ f.mantissaExplicitBits) this
                omega)
            (by rw [hfrac]; exact hmb1)
            (by rcases Nat.mod_two_eq_zero_or_one M' with h | h
                · left; exact ⟨h, by rw [h]; omega⟩
                · right; left
                  refine ⟨h, by omega, Or.inr ?_⟩
                  rw [← hEk]
                  exact notie hq28 M' k)
          rw [Nat.zero_mul, Nat.zero_add] at near
          obtain ⟨r, hr⟩ : ∃ r, (M' + M' % 2) / 2 = r := ⟨_, rfl⟩
          rw [hr] at near ⊢
          rw [Nat.pow_succ] at hM'lt
          have hrle : r ≤ 2 ^ f.mantissaExplicitBits := by omega
          rw [Nat.shiftLeft_eq, Nat.one_mul]
          split
          · rename_i hlt
            refine ⟨?_, le_refl _⟩
            rw [show (0 : Int) = ((0 : Nat) : Int) by rfl, toFloat_add f r 0 hlt, Nat.zero_mul, Nat.zero_add]
            exact near
          · have hre : r = 2 ^ f.mantissaExplicitBits := by omega
            refine ⟨?_, by omega⟩
            rw [toFloat_pos, hre]
            rw [hre] at near
            have : (2 ^ f.mantissaExplicitBits ||| (1 : Int).toNat <<< f.mantissaExplicitBits) = 2 ^ f.mantissaExplicitBits := by
              rw [Nat.shiftLeft_eq, show (1 : Int).toNat = 1 by rfl, Nat.one_mul, Nat.or_self]
            rw [this]
            exact near
      · -- normal
        rename_i hnorm
        obtain ⟨p, hp⟩ : ∃ p : Nat, p2 = (p : Int) + 1 := ⟨(p2 - 1).toNat, by omega⟩
        have hEp' : (p : Int) - F.bias - F.fracBits = E := by omega
        have hand3 : M &&& 3 = M % 4 := Nat.and_two_pow_sub_one_eq_mod M 2
        have hshl : (M <<< (u + (61 - f.mantissaExplicitBits))) % 2 ^ 64 = M * 2 ^ (u + (61 - f.mantissaExplicitBits)) := by
          rw [Nat.shiftLeft_eq]
          apply Nat.mod_eq_of_lt
          rw [eM]
          exact lt_of_le_of_lt (div_pow_add H _).1 hH
        rw [hand3, hshl, hp]
        have hE1 : ∀ N : Nat, 2 ^ (f.mantissaExplicitBits + 1) ≤ N → N < 2 ^ (f.mantissaExplicitBits + 2) →
            0 ≤ (computeFloatRound f N ((p : Int) + 1)).power2 := by
          intro N _ _
          unfold computeFloatRound
          dsimp only
          split <;> split <;> dsimp only <;> omega
        by_cases hinf : (p : Int) + 1 ≥ f.infinitePower
        · -- beyond the largest number
          have hx : F.val F.infBits ≤ (w : ℚ) * 10 ^ q := by
            rw [val_inf hok]
            refine le_trans ?_ xlo
            calc (2 : ℚ) ^ (F.bias + 1) ≤ 2 ^ (((f.mantissaExplicitBits + 1 : ℕ) : ℤ) + E) := by
                  apply zpow_le_zpow_right₀ (by norm_num)
                  push_cast
                  omega
              _ = 2 ^ ((f.mantissaExplicitBits + 1 : ℕ) : ℤ) * 2 ^ E := by rw [← zpow_add₀ (by norm_num)]
              _ ≤ (M : ℚ) * 2 ^ E := by
                  apply mul_le_mul_of_nonneg_right _ (by positivity)
                  rw [zpow_natCast]
                  exact_mod_cast M1
          have key : ∀ N : Nat, 2 ^ (f.mantissaExplicitBits + 1) ≤ N → N < 2 ^ (f.mantissaExplicitBits + 2) →
              F.Nearest ((w : ℚ) * 10 ^ q) (toFloat f false (computeFloatRound f N ((p : Int) + 1))) := by
            intro N h1 h2
            rw [computeFloatRound_bits hok N p h1 h2, if_pos hinf]
            exact nearest_inf F hx
          have hN : 2 ^ (f.mantissaExplicitBits + 1) ≤ M - M % 2 := by
            rw [Nat.pow_succ] at M1 ⊢
            omega
          split
          · exact ⟨key _ hN (by omega), hE1 _ hN (by omega)⟩
          · exact ⟨key _ M1 M2, hE1 _ M1 M2⟩
        · have near := fun r => nearest_of_floor F (x := (w : ℚ) * 10 ^ q) (p := p) (M := M) (r := r)
            (by rw [hEp']; exact xlo) (by rw [hEp']; exact xhi) (by rw [hfrac]; exact M2) (by rw [hfrac]; exact Or.inl M1)
            (by rw [hok.infBits, hfrac]
                have h1 : p + 2 ≤ f.infinitePower.toNat := by omega
                have h2 := Nat.mul_le_mul_right (2 ^ f.mantissaExplicitBits) h1
                have h3 := M2
                rw [Nat.pow_succ, Nat.pow_succ] at h3
                rw [Nat.add_mul] at h2
                omega)
            (by rw [hfrac]; exact hmb1)
          rw [hEp', hfrac] at near
          split
          · rename_i hcond
            obtain ⟨c1, c2, c3, c4, c5⟩ := hcond
            have hmod : M % 2 = 1 := by omega
            have htie := (tie hmod).mp ⟨c1, c2, c3, c5⟩
            have hN : 2 ^ (f.mantissaExplicitBits + 1) ≤ M - M % 2 := by
              have h1 := M1
              rw [Nat.pow_succ] at h1 ⊢
              omega
            refine ⟨?_, hE1 _ hN (by omega)⟩
            rw [computeFloatRound_bits hok _ p hN (by omega), if_neg hinf]
            have e : (M - M % 2 + (M - M % 2) % 2) / 2 = M / 2 := by omega
            rw [e]
            exact near (M / 2) (Or.inr (Or.inr ⟨c4, rfl, htie⟩))
          · rename_i hcond
            refine ⟨?_, hE1 _ M1 M2⟩
            rw [computeFloatRound_bits hok _ p M1 M2, if_neg hinf]
            apply near
            rcases Nat.mod_two_eq_zero_or_one M with h | h
            · left; exact ⟨h, by rw [h]; omega⟩
            · right; left
              refine ⟨h, by omega, ?_⟩
              by_cases h4 : M % 4 = 3
              · exact Or.inl h4
              · right
                intro hx
                obtain ⟨c1, c2, c3, c5⟩ := (tie h).mpr hx
                exact hcond ⟨c1, c2, c3, by omega, c5⟩

end C4.FF
