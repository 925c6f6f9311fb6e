import Verif.Props.FFDigitComp
import Verif.Props.FpuRound
import Verif.FastFloat.FromChars
/-
`from_chars`: the fast path and the slow path together.
-/
namespace C4.FF
open Spec

theorem computeFloatRound_canon {f : Fmt} {F : Ieee} (hok : FmtOk f F) (M : Nat) (p : Int) (hp : 0 ≤ p) (h1 : 2 ^ (f.mantissaExplicitBits + 1) ≤ M) :
    Canon f (computeFloatRound f M p) := by
  have hmb := hok.mb2
  have hinfb := hok.infb
  have hbias := hok.bias
  have hemin := hok.emin
  unfold computeFloatRound
  simp only [Nat.and_one_is_mod, Nat.shiftRight_eq_div_pow, Nat.shiftLeft_eq, Nat.pow_one, Nat.one_mul]
  obtain ⟨r, hr⟩ : ∃ r, (M + M % 2) / 2 = r := ⟨_, rfl⟩
  rw [hr]
  rw [Nat.pow_succ] at h1
  have hpos := Nat.two_pow_pos f.mantissaExplicitBits
  have hsh : 1 <<< f.mantissaExplicitBits = 2 ^ f.mantissaExplicitBits := by rw [Nat.shiftLeft_eq, Nat.one_mul]
  have hc0 : Canon f ⟨0, f.infinitePower⟩ := canon_inf hok
  by_cases hc : r ≥ 2 * 2 ^ f.mantissaExplicitBits
  · have hm := and_not_bit f.mantissaExplicitBits 0 hpos (by omega)
    rw [Nat.add_zero, hsh] at hm
    simp only [hc, if_true, hm]
    split
    · exact hc0
    · exact ⟨Or.inl hpos, by dsimp only; omega⟩
  · obtain ⟨m, hm⟩ : ∃ m, r = 2 ^ f.mantissaExplicitBits + m := ⟨r - 2 ^ f.mantissaExplicitBits, by omega⟩
    have hm2 : m < 2 ^ f.mantissaExplicitBits := by omega
    have hand := and_not_bit f.mantissaExplicitBits m hm2 (by omega)
    rw [hsh, ← hm] at hand
    simp only [hc, if_false, hand]
    split
    · exact hc0
    · exact ⟨Or.inl hm2, hp⟩

theorem computeFloat_canon {f : Fmt} {F : Ieee} (hok : FmtOk f F) (q : Int) (w : Nat) (hw : w < 2 ^ 64) : Canon f (computeFloat f q w) := by
  have hmb1 := hok.mb1
  have hmb2 := hok.mb2
  have hc0 : Canon f ⟨0, 0⟩ := ⟨Or.inl (Nat.two_pow_pos _), le_refl _⟩
  unfold computeFloat
  split
  · exact hc0
  · rename_i hnz
    simp only [not_or, not_lt] at hnz
    split
    · exact canon_inf hok
    · have hs := hok.small
      have hl := hok.large
      obtain ⟨u, M, E, S⟩ := scaled hok (q := q) (by omega) (by omega) hw (Nat.pos_of_ne_zero hnz.1)
      have hwm : (w <<< leadingZeroes w) % 2 ^ 64 = w * 2 ^ leadingZeroes w := by
        rw [Nat.shiftLeft_eq]; exact Nat.mod_eq_of_lt S.w64
      simp only [hwm]
      obtain ⟨H, eH⟩ : ∃ x, (computeProductApproximation (f.mantissaExplicitBits + 3) q (w * 2 ^ leadingZeroes w)).2 = x := ⟨_, rfl⟩
      obtain ⟨L, eL⟩ : ∃ x, (computeProductApproximation (f.mantissaExplicitBits + 3) q (w * 2 ^ leadingZeroes w)).1 = x := ⟨_, rfl⟩
      rw [eH, eL] at S
      simp only [eH, eL]
      obtain ⟨hlz, ew, w64, w63, hu, hu1, hH, eM, M1, M2, eE, xlo, xhi, tie, notie⟩ := S
      have hush : H >>> 63 = u := by rw [hu, Nat.shiftRight_eq_div_pow]
      have hsh : u + 64 - f.mantissaExplicitBits - 3 = u + (61 - f.mantissaExplicitBits) := by omega
      simp only [hush, hsh]
      have hMsh : H >>> (u + (61 - f.mantissaExplicitBits)) = M := by rw [eM, Nat.shiftRight_eq_div_pow]
      simp only [hMsh]
      obtain ⟨p2, hp2⟩ : ∃ p2 : Int, power q + u - leadingZeroes w - f.minimumExponent = p2 := ⟨_, rfl⟩
      rw [hp2]
      split
      · split
        · exact hc0
        · rename_i hsub h64
          obtain ⟨k, hk⟩ : ∃ k : Nat, -p2 + 1 = (k : Int) := ⟨(-p2 + 1).toNat, by omega⟩
          rw [hk, Int.toNat_natCast]
          obtain ⟨M', hM'⟩ : ∃ x, M >>> k = x := ⟨_, rfl⟩
          have hM'd : M' = M / 2 ^ k := by rw [← hM', Nat.shiftRight_eq_div_pow]
          simp only [hM', Nat.and_one_is_mod, Nat.shiftRight_eq_div_pow, Nat.pow_one]
          have hM'lt : M' < 2 ^ (f.mantissaExplicitBits + 1) := by
            rw [hM'd, Nat.div_lt_iff_lt_mul (Nat.two_pow_pos _), ← Nat.pow_add]
            exact lt_of_lt_of_le M2 (Nat.pow_le_pow_right (by omega) (by omega))
          obtain ⟨r, hr⟩ : ∃ r, (M' + M' % 2) / 2 = r := ⟨_, rfl⟩
          rw [hr]
          rw [Nat.pow_succ] at hM'lt
          have hrle : r ≤ 2 ^ f.mantissaExplicitBits := by omega
          rw [Nat.shiftLeft_eq, Nat.one_mul]
          split
          · rename_i hlt
            exact ⟨Or.inl hlt, le_refl _⟩
          · exact ⟨Or.inr (by rw [show r = 2 ^ f.mantissaExplicitBits by omega]), by dsimp only; omega⟩
      · have hN : 2 ^ (f.mantissaExplicitBits + 1) ≤ M - M % 2 := by
          rw [Nat.pow_succ] at M1 ⊢
          omega
        split
        · exact computeFloatRound_canon hok _ _ (by omega) hN
        · exact computeFloatRound_canon hok _ _ (by omega) M1

/-- What `parse_number_string` hands over: a significand of at most nineteen digits and an exponent. -/
structure Handed (a : PNS) (e : Int) : Prop where
  digits : ∀ c ∈ a.integer ++ a.fraction.getD [], IsDigit c
  number : (a.mantissa, a.exponent, a.tooManyDigits) = trunc (a.integer ++ a.fraction.getD []) e

/-- The significand is below 2^64, and 0 only if all digits are. -/
theorem Handed.cases {a : PNS} {e : Int} (h : Handed a e) :
    (a.tooManyDigits = false ∧ a.mantissa = digitsVal (a.integer ++ a.fraction.getD []) ∧ a.exponent = e ∧ a.mantissa < 10 ^ 19) ∨
    (∃ s, (a.integer ++ a.fraction.getD []).dropWhile (· == 48) = s ∧ a.tooManyDigits = true ∧ 19 < s.length ∧ Sig s ∧ a.mantissa = digitsVal (s.take 19) ∧
      a.exponent = e + (s.length - 19) ∧ 10 ^ 18 ≤ a.mantissa ∧ a.mantissa < 10 ^ 19) := by
  have hn := h.number
  unfold trunc at hn
  dsimp only at hn
  obtain ⟨s, hs⟩ : ∃ s, (a.integer ++ a.fraction.getD []).dropWhile (· == 48) = s := ⟨_, rfl⟩
  have hsig : Sig s := by rw [← hs]; exact sig_of _ h.digits
  have hv := digitsVal_sig (a.integer ++ a.fraction.getD [])
  rw [hs] at hn hv
  by_cases hl : s.length ≤ 19
  · rw [if_pos hl] at hn
    simp only [Prod.mk.injEq] at hn
    left
    refine ⟨hn.2.2, hn.1, hn.2.1, ?_⟩
    rw [hn.1, ← hv]
    exact lt_of_lt_of_le (digitsVal_lt s hsig.digits) (Nat.pow_le_pow_right (by omega) hl)
  · rw [if_neg hl] at hn
    simp only [Prod.mk.injEq] at hn
    right
    refine ⟨s, hs, hn.2.2, by omega, hsig, hn.1, hn.2.1, ?_, ?_⟩
    · have := (hsig.take 19).ge (by
        intro h; have := congrArg List.length h; rw [List.length_take, Nat.min_eq_left (by omega)] at this; exact absurd this (by decide))
      rw [List.length_take, Nat.min_eq_left (by omega)] at this
      rw [hn.1]
      exact this
    · have := digitsVal_lt _ (hsig.take 19).digits
      rw [List.length_take, Nat.min_eq_left (by omega)] at this
      rw [hn.1]
      exact this

/-- The slow path rounds correctly. -/
theorem slowPath_nearest {f : Fmt} {F : Ieee} (hok : FmtOk f F) (hso : SlowOk f F) {a : PNS} {e : Int} (h : Handed a e) :
    F.Nearest ((digitsVal (a.integer ++ a.fraction.getD []) : ℚ) * 10 ^ e) (toFloat f false (slowPath f a)) ∧ Canon f (slowPath f a) := by
  have hmant : a.mantissa + 1 < 2 ^ 64 := by
    rcases h.cases with ⟨_, _, _, h⟩ | ⟨_, _, _, _, _, _, _, _, h⟩ <;> omega
  obtain ⟨n1, n2⟩ := computeFloat_nearest hok a.exponent a.mantissa (by omega)
  have c1 := computeFloat_canon hok a.exponent a.mantissa (by omega)
  obtain ⟨m1, m2⟩ := computeFloat_nearest hok a.exponent (a.mantissa + 1) hmant
  have d1 := computeFloat_canon hok a.exponent (a.mantissa + 1) hmant
  rcases h.cases with ⟨h1, h2, h3, h4⟩ | ⟨s, hs, h1, hlen, hsig, h2, h3, h4, h5⟩
  · have hsl : slowPath f a = computeFloat f a.exponent a.mantissa := by
      simp [slowPath, h1, not_lt.2 n2]
    rw [hsl, ← h2, ← h3]
    exact ⟨n1, c1⟩
  · rw [← digitsVal_sig, hs]
    obtain ⟨b1, b2, -, -⟩ := cut_bounds s hsig.digits 19 hlen.le e
    rw [← h2, show e + ((s.length : Int) - (19 : Nat)) = a.exponent by rw [h3]; push_cast; ring] at b1 b2
    by_cases heq : computeFloat f a.exponent a.mantissa = computeFloat f a.exponent (a.mantissa + 1)
    · have hsl : slowPath f a = computeFloat f a.exponent a.mantissa := by
        simp [slowPath, h1, n2, ← heq, not_lt.2 n2]
      rw [hsl]
      refine ⟨nearest_between F (by positivity) n1 (by rw [heq]; exact m1) b1 ?_, c1⟩
      push_cast
      exact b2.le
    · have hz : (0 : ℚ) < 10 ^ a.exponent := by positivity
      have hq1 : f.smallestPowerOfTen ≤ a.exponent := by
        by_contra hcon
        apply heq
        unfold computeFloat
        rw [if_pos (Or.inr (by omega)), if_pos (Or.inr (by omega))]
      have hq2 : a.exponent ≤ f.largestPowerOfTen := by
        by_contra hcon
        apply heq
        unfold computeFloat
        rw [if_neg (by omega), if_pos (by omega), if_neg (by omega), if_pos (by omega)]
      have hfin : (a.mantissa : ℚ) * 10 ^ a.exponent < F.val F.infBits := by
        by_contra hcon
        rw [not_lt] at hcon
        apply heq
        have i1 := nearest_unique F n1 (nearest_inf F hcon)
        have i2 := nearest_unique F m1 (nearest_inf F (by push_cast; linarith))
        rw [(c1.inf hok n1.1).2 i1, (d1.inf hok m1.1).2 i2]
      obtain ⟨A, P, M, E, ce, A1, A2, hM, hE, M1, M2, lo, hi⟩ := computeError_spec hok (q := a.exponent) (by have := hok.small; omega)
        (by have := hok.large; omega) (w := a.mantissa) (by omega) (by omega)
      have hneg : (computeError f a.exponent a.mantissa).power2 < 0 := by
        rw [ce]
        dsimp only
        unfold invalidAmBias
        have h1 := hok.bias
        have h2 := hok.emin'
        have h3 := hok.mb2
        have h4 := hok.frac
        -- the power is bounded, because the number is below infinity
        have : E ≤ 2000 := by
          by_contra hcon
          have v := val_inf hok
          have : (2 : ℚ) ^ (F.bias + 1) ≤ 2 ^ E := zpow_le_zpow_right₀ (by norm_num) (by omega)
          have hM1 : (1 : ℚ) ≤ M := by
            have := Nat.two_pow_pos (f.mantissaExplicitBits + 1)
            exact_mod_cast (by omega : 1 ≤ M)
          have := zpow2_pos E
          nlinarith
        omega
      have hsl : slowPath f a = digitComp f a (computeError f a.exponent a.mantissa) := by
        simp [slowPath, h1, n2, heq, hneg]
      rw [hsl]
      exact digitComp_nearest hok hso a e h.digits hs hlen h2 h3 hq1 hq2 hfin

/-- The test of the rounding direction is right. -/
theorem roundsToNearest_iff (fpu : Fpu) : roundsToNearest fpu = true ↔ fpu.mode = .nearest := by
  have v0 : binary32.val 0x3F800000 = 1 := by decide +kernel
  have v1 : binary32.val 0x3F800001 = 1 + 1 / 2 ^ 23 := by decide +kernel
  have v2 : binary32.val 0x3F7FFFFF = 1 - 1 / 2 ^ 24 := by decide +kernel
  have hinf : 0x3F800001 < binary32.infBits := by decide
  have mono := val_strictMono binary32
  have hx : (0 : ℚ) < 2 ^ (-126 : ℤ) ∧ (2 : ℚ) ^ (-126 : ℤ) < 1 / 2 ^ 30 := by constructor <;> norm_num
  have r1 := fpu.rounded binary32 (Or.inl rfl) (2 ^ (-126 : ℤ) + 1) (by linarith)
  have r2 := fpu.rounded binary32 (Or.inl rfl) (1 - 2 ^ (-126 : ℤ)) (by
    have : (1 : ℚ) / 2 ^ 30 ≤ 1 := by norm_num
    exact sub_nonneg.2 (hx.2.le.trans this))
  unfold roundsToNearest
  obtain ⟨b, hb⟩ : ∃ b, fpu.round binary32 (2 ^ (-126 : ℤ) + 1) = b := ⟨_, rfl⟩
  obtain ⟨c, hc⟩ : ∃ c, fpu.round binary32 (1 - 2 ^ (-126 : ℤ)) = c := ⟨_, rfl⟩
  rw [hb] at r1 ⊢
  rw [hc] at r2 ⊢
  obtain ⟨x, ex⟩ : ∃ x : ℚ, 2 ^ (-126 : ℤ) = x := ⟨_, rfl⟩
  rw [ex] at r1 r2 hx
  rw [beq_iff_eq]
  have s1 : (1 : ℚ) / 2 ^ 23 = 128 * (1 / 2 ^ 30) := by norm_num
  have s2 : (1 : ℚ) / 2 ^ 24 = 64 * (1 / 2 ^ 30) := by norm_num
  have down : b < binary32.infBits ∧ binary32.val b ≤ x + 1 ∧ (∀ c < binary32.infBits, binary32.val c ≤ x + 1 → c ≤ b) →
      c < binary32.infBits ∧ binary32.val c ≤ 1 - x ∧ (∀ d < binary32.infBits, binary32.val d ≤ 1 - x → d ≤ c) → b ≠ c := by
    intro h1 h2 heq
    have := h1.2.2 0x3F800000 (by omega) (by rw [v0]; linarith)
    have : binary32.val 0x3F800000 ≤ binary32.val c := mono.monotone (by omega)
    rw [v0] at this
    linarith [h2.2.1]
  cases hm : fpu.mode with
  | nearest =>
    rw [hm] at r1 r2
    simp only [iff_true]
    have n1 : binary32.Nearest (x + 1) 0x3F800000 := nearest_down _ (by omega) (by rw [v0]; linarith) (Or.inl (by rw [v0, v1]; linarith))
    have n2 : binary32.Nearest (1 - x) 0x3F800000 := nearest_up _ (b := 0x3F7FFFFF) (by omega) (by rw [v0]; linarith) (Or.inl (by rw [v0, v2]; linarith))
    rw [nearest_unique _ r1 n1, nearest_unique _ r2 n2]
  | up =>
    rw [hm] at r1 r2
    simp only [reduceCtorEq, iff_false]
    intro heq
    have h1 : ¬ 0x3F800000 < c := by
      intro h
      have := r2.2.2 _ h
      rw [v0] at this
      linarith
    have h2 : 0x3F800000 < b := by
      rcases r1.2.1 with h | h
      · by_contra hlt
        have : binary32.val b ≤ binary32.val 0x3F800000 := mono.monotone (by omega)
        rw [v0] at this
        linarith
      · omega
    omega
  | down =>
    rw [hm] at r1 r2
    simp only [reduceCtorEq, iff_false]
    exact down r1 r2
  | zero =>
    rw [hm] at r1 r2
    simp only [reduceCtorEq, iff_false]
    exact down r1 r2

/-- What the fast path needs of a format. -/
structure FastOk (f : Fmt) (F : Ieee) (K : Nat) : Prop where
  ieee : ieeeOf f = F
  fmt : F = binary32 ∨ F = binary64
  bias : F.bias = 2 ^ (F.expBits - 1) - 1
  exp2 : 2 ≤ F.expBits
  frac : F.fracBits = f.mantissaExplicitBits
  lo : f.minExponentFastPath = -K
  hi : f.maxExponentFastPath = K
  small : F.fracBits + 4 * K < F.bias
  table : ∀ p ≤ K, maxMantissaFastPathPower f p * 5 ^ p ≤ 2 ^ (F.fracBits + 1)

theorem dbl_fast : FastOk dbl binary64 22 := ⟨by decide, by decide, by decide, by decide, by decide, by decide, by decide, by decide, by decide +kernel⟩

theorem flt_fast : FastOk flt binary32 10 := ⟨by decide, by decide, by decide, by decide, by decide, by decide, by decide, by decide, by decide +kernel⟩

/-- The fast path rounds correctly, whatever the rounding direction; its result is finite, and 0 only if the number is. -/
theorem fastPath_nearest {f : Fmt} {F : Ieee} {K : Nat} (hfo : FastOk f F K) (fpu : Fpu) (a : PNS) {v : Nat} (h : fastPath f fpu a = some v) :
    a.tooManyDigits = false ∧ ∃ b, v = negate f a.negative b ∧ F.Nearest ((a.mantissa : ℚ) * 10 ^ a.exponent) b ∧ b < F.infBits ∧ (b = 0 ↔ a.mantissa = 0) := by
  have hlo := hfo.lo
  have hhi := hfo.hi
  have hsm := hfo.small
  have mono := val_strictMono F
  have val0 : F.val 0 = 0 := by simp [Ieee.val]
  -- the number is not so large or small that it leaves the finite numbers
  have range : ∀ b, -(K : Int) ≤ a.exponent → a.exponent ≤ K → a.mantissa ≤ 2 ^ (F.fracBits + 1) → F.Nearest ((a.mantissa : ℚ) * 10 ^ a.exponent) b →
      b < F.infBits ∧ (b = 0 ↔ a.mantissa = 0) := by
    intro b h1 h2 h3 hn
    have hten : (10 : ℚ) ^ K ≤ 2 ^ (4 * K : ℤ) := by
      rw [zpow_mul, zpow_natCast]
      exact pow_le_pow_left₀ (by norm_num) (by norm_num) K
    have up : (10 : ℚ) ^ a.exponent ≤ 2 ^ (4 * K : ℤ) := by
      refine le_trans (zpow_le_zpow_right₀ (by norm_num) h2) ?_
      rwa [zpow_natCast]
    have lo : (2 : ℚ) ^ (-(4 * K) : ℤ) ≤ 10 ^ a.exponent := by
      refine le_trans ?_ (zpow_le_zpow_right₀ (by norm_num) h1)
      rw [zpow_neg, zpow_neg, zpow_natCast]
      exact inv_anti₀ (by positivity) hten
    constructor
    · obtain ⟨c, c1, c2⟩ := val_of_int F hfo.bias hfo.exp2 (2 ^ (F.fracBits + 1)) (le_refl _) (4 * K) (by omega) (by omega)
      refine lt_of_le_of_lt (nearest_mono F hn (nearest_self F c1.le) ?_) c1
      rw [c2]
      exact mul_le_mul (by exact_mod_cast h3) up (by positivity) (by positivity)
    · constructor
      · intro hb
        by_contra hz
        obtain ⟨c, c1, c2⟩ := val_of_int F hfo.bias hfo.exp2 1 Nat.one_le_two_pow (-(4 * K)) (by omega) (by omega)
        have := nearest_mono F (nearest_self F c1.le) hn (by
          rw [c2]
          exact mul_le_mul (by exact_mod_cast (by omega : 1 ≤ a.mantissa)) lo (by positivity) (by positivity))
        have hc : c = 0 := by omega
        rw [hc, val0] at c2
        have := zpow2_pos (-(4 * K : ℤ))
        rw [Nat.cast_one, one_mul] at c2
        linarith
      · intro hz
        rw [hz, Nat.cast_zero, zero_mul, ← val0] at hn
        exact nearest_unique F hn (nearest_self F (Nat.zero_le _))
  -- integers that fit are exact
  have conv : a.mantissa ≤ 2 ^ (F.fracBits + 1) → F.val (fpu.round F (a.mantissa : ℚ)) = a.mantissa := by
    intro h3
    obtain ⟨c, c1, c2⟩ := val_of_int F hfo.bias hfo.exp2 a.mantissa h3 0 (by omega) (by omega)
    rw [zpow_zero, mul_one] at c2
    have := fpu.rounded F hfo.fmt (a.mantissa : ℚ) (by positivity)
    rw [← c2] at this ⊢
    rw [rounded_exact F c1 this]
  unfold fastPath at h
  dsimp only at h
  rw [hfo.ieee] at h
  by_cases hc : f.minExponentFastPath ≤ a.exponent ∧ a.exponent ≤ f.maxExponentFastPath ∧ a.tooManyDigits = false
  swap
  · rw [if_neg hc] at h; cases h
  rw [if_pos hc] at h
  obtain ⟨hc1, hc2, hc3⟩ := hc
  refine ⟨hc3, ?_⟩
  by_cases hr : roundsToNearest fpu = true
  · rw [if_pos hr] at h
    have hmode := (roundsToNearest_iff fpu).1 hr
    by_cases hm : a.mantissa ≤ maxMantissaFastPath f
    swap
    · rw [if_neg hm] at h; cases h
    rw [if_pos hm] at h
    have hm' : a.mantissa ≤ 2 ^ (F.fracBits + 1) := by
      rw [hfo.frac, Nat.pow_succ, Nat.mul_comm, ← Nat.shiftLeft_eq]; exact hm
    rw [conv hm'] at h
    by_cases he : a.exponent < 0
    · rw [if_pos he] at h
      have hx : (a.mantissa : ℚ) / 10 ^ (-a.exponent).toNat = (a.mantissa : ℚ) * 10 ^ a.exponent := by
        rw [div_eq_mul_inv, ← zpow_natCast, ← zpow_neg]
        congr 2
        omega
      rw [hx] at h
      have hn := fpu.rounded F hfo.fmt ((a.mantissa : ℚ) * 10 ^ a.exponent) (by positivity)
      rw [hmode] at hn
      exact ⟨_, (Option.some.inj h).symm, hn, range _ (by omega) (by omega) hm' hn⟩
    · rw [if_neg he] at h
      have hx : (a.mantissa : ℚ) * 10 ^ a.exponent.toNat = (a.mantissa : ℚ) * 10 ^ a.exponent := by
        rw [← zpow_natCast]
        congr 2
        omega
      rw [hx] at h
      have hn := fpu.rounded F hfo.fmt ((a.mantissa : ℚ) * 10 ^ a.exponent) (by positivity)
      rw [hmode] at hn
      exact ⟨_, (Option.some.inj h).symm, hn, range _ (by omega) (by omega) hm' hn⟩
  · rw [if_neg hr] at h
    by_cases hm : a.exponent ≥ 0 ∧ a.mantissa ≤ maxMantissaFastPathPower f a.exponent.toNat
    swap
    · rw [if_neg hm] at h; cases h
    rw [if_pos hm] at h
    obtain ⟨p, hp⟩ : ∃ p : Nat, a.exponent = p := ⟨a.exponent.toNat, by omega⟩
    rw [hp, Int.toNat_natCast] at h hm
    have ht := hfo.table p (by omega)
    have hprod : a.mantissa * 5 ^ p ≤ 2 ^ (F.fracBits + 1) := le_trans (Nat.mul_le_mul_right _ hm.2) ht
    have hm' : a.mantissa ≤ 2 ^ (F.fracBits + 1) := le_trans (Nat.le_mul_of_pos_right _ (by positivity)) hprod
    rw [conv hm'] at h
    obtain ⟨c, c1, c2⟩ := val_of_int F hfo.bias hfo.exp2 _ hprod p (by omega) (by omega)
    have hx : (a.mantissa : ℚ) * 10 ^ p = F.val c := by
      rw [c2, zpow_natCast]
      push_cast
      rw [mul_assoc, ← mul_pow]
      norm_num
    rw [hx] at h
    have hn := fpu.rounded F hfo.fmt (F.val c) (by rw [← hx]; positivity)
    have hc := rounded_exact F c1 hn
    rw [hc] at h
    have hN : F.Nearest ((a.mantissa : ℚ) * 10 ^ a.exponent) c := by
      rw [hp, zpow_natCast, hx]
      exact nearest_self F c1.le
    exact ⟨c, (Option.some.inj h).symm, hN, range _ (by omega) (by omega) hm' hN⟩

theorem negate_eq {f : Fmt} {F : Ieee} (hok : FmtOk f F) (neg : Bool) {b : Nat} (hb : b ≤ F.infBits) : negate f neg b = b + (if neg then F.signBit else 0) := by
  have hlt : b < 2 ^ f.signIndex := by
    refine lt_of_le_of_lt hb ?_
    rw [hok.sign]
    unfold Ieee.infBits
    rw [Nat.pow_add, Nat.mul_comm]
    apply Nat.mul_lt_mul_of_pos_left _ (Nat.two_pow_pos _)
    have := Nat.two_pow_pos F.expBits
    omega
  unfold negate
  cases neg
  · rfl
  · simp only [if_true, Nat.shiftLeft_eq, Nat.one_mul]
    rw [show F.signBit = 2 ^ f.signIndex by rw [hok.sign]; rfl]
    apply Nat.eq_of_testBit_eq
    intro i
    rw [Nat.testBit_xor, Nat.testBit_two_pow, Nat.add_comm, ← Nat.mul_one (2 ^ f.signIndex), Nat.testBit_two_pow_mul_add _ hlt]
    by_cases h : i < f.signIndex
    · simp [h, show ¬ f.signIndex = i by omega]
    · have : b.testBit i = false := Nat.testBit_lt_two_pow (lt_of_lt_of_le hlt (Nat.pow_le_pow_right (by omega) (by omega)))
      rw [this, if_neg h, Bool.false_xor, ← Nat.pow_zero 2, Nat.testBit_two_pow]
      congr 1
      exact propext ⟨by omega, by omega⟩

end C4.FF
