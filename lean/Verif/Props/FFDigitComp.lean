import Verif.Props.FFCell
/-
The slow path of fast_float: comparison of the digits with the middle between two floating point numbers.
-/
namespace C4.FF
open Spec

theorem roundDown_eq (A : Nat) (P : Int) (s : Nat) (hA : A < 2 ^ 64) : roundDown ⟨A, P⟩ s = ⟨A / 2 ^ s, P + s⟩ := by
  unfold roundDown
  dsimp only
  by_cases h : s = 64
  · rw [if_pos h, h, Nat.div_eq_of_lt hA]
  · rw [if_neg h, Nat.shiftRight_eq_div_pow]

theorem roundNearestTieEven_eq (cb : Bool → Bool → Bool → Bool) (A : Nat) (P : Int) (s : Nat) (hA : A < 2 ^ 64) (hs : 1 ≤ s) (hs64 : s ≤ 64) :
    roundNearestTieEven cb ⟨A, P⟩ s = ⟨A / 2 ^ s + (cb (decide (A / 2 ^ s % 2 = 1)) (decide (A % 2 ^ s = 2 ^ (s - 1)))
      (decide (A % 2 ^ s > 2 ^ (s - 1)))).toNat, P + s⟩ := by
  unfold roundNearestTieEven
  dsimp only
  have h1 : A &&& (if s = 64 then 2 ^ 64 - 1 else 1 <<< s - 1) = A % 2 ^ s := by
    by_cases h : s = 64
    · rw [if_pos h, h, Nat.and_two_pow_sub_one_eq_mod]
    · rw [if_neg h, Nat.shiftLeft_eq, Nat.one_mul, Nat.and_two_pow_sub_one_eq_mod]
  have h2 : (if s = 0 then 0 else 1 <<< (s - 1)) = 2 ^ (s - 1) := by rw [if_neg (by omega), Nat.shiftLeft_eq, Nat.one_mul]
  have h3 : (if s = 64 then 0 else A >>> s) = A / 2 ^ s := by
    by_cases h : s = 64
    · rw [if_pos h, h, Nat.div_eq_of_lt hA]
    · rw [if_neg h, Nat.shiftRight_eq_div_pow]
  rw [h1, h2, h3, Nat.and_one_is_mod]
  congr 2
  cases cb (decide (A / 2 ^ s % 2 = 1)) (decide (A % 2 ^ s = 2 ^ (s - 1))) (decide (A % 2 ^ s > 2 ^ (s - 1))) <;> rfl

theorem canon_inf {f : Fmt} {F : Ieee} (hok : FmtOk f F) : Canon f ⟨0, f.infinitePower⟩ := by
  have hinfb := hok.infb
  have hbias := hok.bias
  have hemin := hok.emin
  exact ⟨Or.inl (Nat.two_pow_pos _), by dsimp only; omega⟩

/-- An integer is rounded correctly. -/
theorem positiveDigitComp_nearest {f : Fmt} {F : Ieee} (hok : FmtOk f F) {v : List Nat} {r e : Nat} (hb : Big v r) (hr : 0 < r)
    (hcap : r * 10 ^ e < (2 ^ 64) ^ 62) :
    F.Nearest ((r * 10 ^ e : ℕ) : ℚ) (toFloat f false (positiveDigitComp f v e)) ∧ Canon f (positiveDigitComp f v e) := by
  have hbias := hok.bias
  have hemin := hok.emin
  have hinfb := hok.infb
  have hmb1 := hok.mb1
  have hmb2 := hok.mb2
  have hfrac := hok.frac
  obtain ⟨_, hn⟩ := hb.pow10 (e := e) hr hcap
  obtain ⟨n, en⟩ : ∃ n, r * 10 ^ e = n := ⟨_, rfl⟩
  have hn0 : 0 < n := by rw [← en]; exact Nat.mul_pos hr (Nat.pow_pos (by omega))
  rw [en] at hn ⊢
  obtain ⟨L, l1, l2, l3, l4, l5⟩ := hn.bitLength hn0
  obtain ⟨h1, h2, h3⟩ := hn.hi64_bits hn0 l2
  obtain ⟨A1, A2, _⟩ := hn.hi64 hn0
  unfold positiveDigitComp
  dsimp only
  obtain ⟨v', ev⟩ : ∃ v', (pow10 v e).1 = v' := ⟨_, rfl⟩
  rw [ev] at h1 h2 h3 A1 A2 l1 ⊢
  obtain ⟨A, eA⟩ : ∃ A, (hi64 v').1 = A := ⟨_, rfl⟩
  obtain ⟨tr, etr⟩ : ∃ t, (hi64 v').2 = t := ⟨_, rfl⟩
  rw [eA] at h1 h2 h3 A1 A2
  rw [etr] at h3
  rw [l1, eA, etr]
  obtain ⟨P, eP⟩ : ∃ P : Int, (L : Int) - 64 + ((f.mantissaExplicitBits : Int) - f.minimumExponent) = P := ⟨_, rfl⟩
  rw [eP]
  by_cases hinf : P + 63 - f.mantissaExplicitBits ≥ f.infinitePower
  · rw [round_inf hok hinf _ _ (roundNearestTieEven_eq _ A P _ A2 (by omega) (by omega)), toFloat_inf hok]
    refine ⟨nearest_inf F ?_, canon_inf hok⟩
    rw [val_inf hok]
    have : (2 : ℚ) ^ (F.bias + 1) ≤ 2 ^ ((L - 1 : Nat) : Int) := zpow_le_zpow_right₀ (by norm_num) (by omega)
    refine le_trans this ?_
    rw [zpow_natCast]
    exact_mod_cast l4
  · obtain ⟨s, b, c, U, C⟩ := round_cell hok A1 A2 (by omega : P + 63 - f.mantissaExplicitBits < f.infinitePower)
    have hU : U = (L : Int) - 64 + s := by
      rcases C.hU with h | ⟨h, h'⟩
      · rw [h]; omega
      · exfalso
        have hc0 : c = 0 := by rw [C.hc, h, Nat.div_eq_of_lt A2]
        have := C.c0 (by rw [hc0]; exact Nat.two_pow_pos _)
        omega
    have hs1 := C.s1
    have hcb := roundNearestTieEven_eq (fun isOdd isHalfway isAbove => isAbove || (isHalfway && tr) || (isOdd && isHalfway)) A P s A2 C.s1 C.s64
    rw [← C.hc] at hcb
    obtain ⟨up, eup⟩ : ∃ up : Bool, (decide (A % 2 ^ s > 2 ^ (s - 1)) || (decide (A % 2 ^ s = 2 ^ (s - 1)) && tr) ||
      (decide (c % 2 = 1) && decide (A % 2 ^ s = 2 ^ (s - 1)))) = up := ⟨_, rfl⟩
    rw [eup] at hcb
    obtain ⟨r1, r2⟩ := C.round _ up.toNat (Bool.toNat_le up) hcb
    refine ⟨?_, r2⟩
    rw [r1]
    obtain ⟨z, ez⟩ : ∃ z : ℚ, z = 2 ^ ((L : Int) - 64) := ⟨_, rfl⟩
    have zpos : 0 < z := by rw [ez]; exact zpow2_pos _
    have eL : (2 : ℚ) ^ L = z * 2 ^ 64 := by
      rw [ez, ← zpow_natCast, ← zpow_natCast, ← zpow_add₀ (by norm_num)]
      congr 1
      push_cast
      omega
    have g1 : (A : ℚ) * z ≤ n := by
      have : (A : ℚ) * 2 ^ L ≤ n * 2 ^ 64 := by exact_mod_cast h1
      rw [eL, ← mul_assoc] at this
      exact le_of_mul_le_mul_right this (by positivity)
    have g2 : (n : ℚ) < (A + 1) * z := by
      have : (n : ℚ) * 2 ^ 64 < (A + 1) * 2 ^ L := by exact_mod_cast h2
      rw [eL, ← mul_assoc] at this
      exact lt_of_mul_lt_mul_right this (by positivity)
    have g3 : tr = false ↔ (A : ℚ) * z = n := by
      rw [h3]
      constructor
      · intro h
        have : (A : ℚ) * 2 ^ L = n * 2 ^ 64 := by exact_mod_cast h
        rw [eL, ← mul_assoc] at this
        exact mul_right_cancel₀ (by positivity) this
      · intro h
        have : (A : ℚ) * 2 ^ L = n * 2 ^ 64 := by rw [eL, ← mul_assoc, h]
        exact_mod_cast this
    have eU : (2 : ℚ) ^ U = 2 * 2 ^ (s - 1) * z := by
      rw [hU, zpow_add₀ (by norm_num), ← ez, zpow_natCast]
      obtain ⟨k, rfl⟩ : ∃ k, s = k + 1 := ⟨s - 1, by omega⟩
      rw [Nat.add_sub_cancel, pow_succ]
      ring
    have hA := Nat.div_add_mod A (2 ^ s)
    rw [← C.hc] at hA
    have hlt := Nat.mod_lt A (Nat.two_pow_pos s)
    have e2 : 2 ^ s = 2 * 2 ^ (s - 1) := by rw [← Nat.pow_succ']; congr 1; omega
    rw [e2] at hA hlt eup
    obtain ⟨h, eh⟩ : ∃ h, 2 ^ (s - 1) = h := ⟨_, rfl⟩
    obtain ⟨ρ, eρ⟩ : ∃ ρ, A % (2 * h) = ρ := ⟨_, rfl⟩
    have ehq : (2 : ℚ) ^ (s - 1) = h := by rw [← eh]; push_cast; rfl
    rw [eh] at hA hlt eup
    rw [eρ] at hA hlt eup
    rw [ehq] at eU
    have v0 := C.val0
    have v1 := C.val1
    rw [eU] at v0 v1
    have hAq : (A : ℚ) = 2 * h * c + ρ := by exact_mod_cast hA.symm
    have hb0 : F.val b ≤ n := by
      rw [v0]
      refine le_trans ?_ g1
      rw [hAq]
      have : (0 : ℚ) ≤ ρ := by positivity
      nlinarith
    have hb1 : (n : ℚ) ≤ F.val (b + 1) := by
      rw [v1]
      refine le_trans g2.le ?_
      rw [hAq]
      have : (ρ : ℚ) + 1 ≤ 2 * h := by exact_mod_cast hlt
      nlinarith
    have hpar := C.par
    rcases Nat.lt_trichotomy ρ h with hlt | heq | hgt
    · have : up = false := by rw [← eup]; simp; omega
      rw [this, Bool.toNat_false, Nat.add_zero]
      refine nearest_down F C.binf hb0 (Or.inl ?_)
      rw [v0, v1]
      have : (ρ : ℚ) + 1 ≤ h := by exact_mod_cast hlt
      rw [hAq] at g2
      nlinarith
    · have heq' : (ρ : ℚ) = h := by exact_mod_cast heq
      rw [hAq, heq'] at g1 g2 g3
      cases htr : tr
      · have g := g3.mp htr
        have hmid : 2 * (n : ℚ) = F.val b + F.val (b + 1) := by rw [v0, v1, ← g]; ring
        by_cases hodd : c % 2 = 1
        · have : up = true := by rw [← eup]; simp [heq, hodd]
          rw [this]
          exact nearest_up F C.binf hb1 (Or.inr ⟨hmid, by omega⟩)
        · have : up = false := by rw [← eup]; simp [heq, hodd, htr]
          rw [this, Bool.toNat_false, Nat.add_zero]
          exact nearest_down F C.binf hb0 (Or.inr ⟨hmid, by omega⟩)
      · have : up = true := by rw [← eup]; simp [heq, htr]
        rw [this]
        refine nearest_up F C.binf hb1 (Or.inl ?_)
        have hne : ¬ ((2 * h * c + h : ℚ) * z = n) := by rw [← g3, htr]; simp
        have := lt_of_le_of_ne g1 hne
        rw [v0, v1]
        linarith
    · have : up = true := by rw [← eup]; simp [hgt]
      rw [this]
      refine nearest_up F C.binf hb1 (Or.inl ?_)
      rw [v0, v1]
      have : (h : ℚ) < ρ := by exact_mod_cast hgt
      rw [hAq] at g1
      nlinarith

/-- `compute_error` gives the product to as many bits as are correct. -/
theorem computeError_spec {f : Fmt} {F : Ieee} (hok : FmtOk f F) {q : Int} (hq1 : -342 ≤ q) (hq2 : q ≤ 308) {w : Nat} (hw : w < 2 ^ 64) (hw0 : 0 < w) :
    ∃ A P M E, computeError f q w = ⟨A, P + invalidAmBias⟩ ∧ 2 ^ 63 ≤ A ∧ A < 2 ^ 64 ∧ A / 2 ^ (62 - f.mantissaExplicitBits) = M ∧
      E = P + 62 - f.mantissaExplicitBits - (F.bias + F.fracBits) ∧ 2 ^ (f.mantissaExplicitBits + 1) ≤ M ∧ M < 2 ^ (f.mantissaExplicitBits + 2) ∧
      (M : ℚ) * 2 ^ E ≤ (w : ℚ) * 10 ^ q ∧ (w : ℚ) * 10 ^ q < ((M : ℚ) + 1) * 2 ^ E := by
  have hbias := hok.bias
  have hfrac := hok.frac
  have hmb2 := hok.mb2
  obtain ⟨u, M, E, S⟩ := scaled hok hq1 hq2 hw hw0
  have hwm : (w <<< leadingZeroes w) % 2 ^ 64 = w * 2 ^ leadingZeroes w := by
    rw [Nat.shiftLeft_eq]; exact Nat.mod_eq_of_lt S.w64
  unfold computeError computeErrorScaled
  simp only [hwm]
  obtain ⟨H, eH⟩ : ∃ x, (computeProductApproximation (f.mantissaExplicitBits + 3) q (w * 2 ^ leadingZeroes w)).2 = x := ⟨_, rfl⟩
  rw [eH] at S
  simp only [eH]
  obtain ⟨hlz, ew, w64, w63, hu, hu1, hH, eM, M1, M2, eE, xlo, xhi, tie, notie⟩ := S
  have hx : (H >>> 63) ^^^ 1 = 1 - u := by
    rw [Nat.shiftRight_eq_div_pow, ← hu]
    have : u = 0 ∨ u = 1 := by omega
    rcases this with h | h <;> rw [h] <;> rfl
  rw [hx]
  have hH62 : 2 ^ 62 ≤ H * 2 ^ (1 - u) / 2 := by
    rw [eM, Nat.le_div_iff_mul_le (Nat.two_pow_pos _), ← Nat.pow_add] at M1
    have : u = 0 ∨ u = 1 := by omega
    rcases this with h | h
    · rw [h] at M1 ⊢
      rw [show f.mantissaExplicitBits + 1 + (0 + (61 - f.mantissaExplicitBits)) = 62 by omega] at M1
      omega
    · rw [h] at M1 ⊢
      rw [show f.mantissaExplicitBits + 1 + (1 + (61 - f.mantissaExplicitBits)) = 63 by omega] at M1
      omega
  have hA64 : H * 2 ^ (1 - u) < 2 ^ 64 := by
    have : u = 0 ∨ u = 1 := by omega
    rcases this with h | h
    · rw [h] at hu ⊢; omega
    · rw [h]; simpa using hH
  refine ⟨H * 2 ^ (1 - u), E - 62 + f.mantissaExplicitBits + (F.bias + F.fracBits), M, E, ?_, by omega, hA64, ?_, by omega, M1, M2, xlo, xhi⟩
  · rw [Nat.shiftLeft_eq, Nat.mod_eq_of_lt hA64]
    congr 1
    omega
  · rw [eM, show u + (61 - f.mantissaExplicitBits) = (62 - f.mantissaExplicitBits) - (1 - u) by omega]
    have h1 : 2 ^ (62 - f.mantissaExplicitBits) = 2 ^ (62 - f.mantissaExplicitBits - (1 - u)) * 2 ^ (1 - u) := by rw [← Nat.pow_add]; congr 1; omega
    rw [h1, Nat.mul_div_mul_right _ _ (Nat.two_pow_pos _)]

/-- The floating point number below `A * 2^(P - bias)` is the one below every number with the same leading bits. -/
theorem Cell.floor {f : Fmt} {F : Ieee} (hok : FmtOk f F) {A : Nat} {P : Int} {s b c : Nat} {U : Int} (C : Cell f F A P s b c U) (hA : A < 2 ^ 64)
    {M : Nat} {E : Int} {y : ℚ} (hM : A / 2 ^ (62 - f.mantissaExplicitBits) = M) (hE : E = P + 62 - f.mantissaExplicitBits - (F.bias + F.fracBits))
    (hlo : (M : ℚ) * 2 ^ E ≤ y) (hhi : y < ((M : ℚ) + 1) * 2 ^ E) : F.val b ≤ y ∧ y < F.val (b + 1) := by
  have hmb2 := hok.mb2
  have s63 := C.s63
  rw [C.val0, C.val1]
  have hEpos := zpow2_pos E
  rcases C.hU with h | ⟨h, h'⟩
  · obtain ⟨k, hk⟩ : ∃ k, s = (62 - f.mantissaExplicitBits) + k := ⟨s - (62 - f.mantissaExplicitBits), by omega⟩
    have hc : c = M / 2 ^ k := by rw [C.hc, hk, Nat.pow_add, ← Nat.div_div_eq_div_mul, hM]
    have hz : (2 : ℚ) ^ U = 2 ^ k * 2 ^ E := by
      rw [← zpow_natCast, ← zpow_add₀ (by norm_num)]
      congr 1
      omega
    obtain ⟨d1, d2⟩ := div_pow_add M k
    rw [← hc] at d1 d2
    have d1' : (c : ℚ) * 2 ^ k ≤ M := by exact_mod_cast d1
    have d2' : (M : ℚ) + 1 ≤ (c + 1) * 2 ^ k := by exact_mod_cast d2
    rw [hz, ← mul_assoc, ← mul_assoc]
    exact ⟨le_trans (mul_le_mul_of_nonneg_right d1' hEpos.le) hlo, lt_of_lt_of_le hhi (mul_le_mul_of_nonneg_right d2' hEpos.le)⟩
  · have hc0 : c = 0 := by rw [C.hc, h, Nat.div_eq_of_lt hA]
    rw [hc0]
    simp only [Nat.cast_zero, zero_mul, zero_add, one_mul]
    refine ⟨le_trans (by positivity) hlo, lt_of_lt_of_le hhi ?_⟩
    have hM2 : M + 1 ≤ 2 ^ (f.mantissaExplicitBits + 2) := by
      rw [← hM]
      have : A / 2 ^ (62 - f.mantissaExplicitBits) < 2 ^ (f.mantissaExplicitBits + 2) := by
        rw [Nat.div_lt_iff_lt_mul (Nat.two_pow_pos _), ← Nat.pow_add]
        exact lt_of_lt_of_le hA (Nat.pow_le_pow_right (by omega) (by omega))
      omega
    have hM2' : (M : ℚ) + 1 ≤ 2 ^ (f.mantissaExplicitBits + 2) := by exact_mod_cast hM2
    calc ((M : ℚ) + 1) * 2 ^ E ≤ 2 ^ (f.mantissaExplicitBits + 2) * 2 ^ E := mul_le_mul_of_nonneg_right hM2' hEpos.le
      _ = 2 ^ (((f.mantissaExplicitBits + 2 : Nat) : Int) + E) := by rw [zpow_add₀ (by norm_num), zpow_natCast]
      _ ≤ 2 ^ U := zpow_le_zpow_right₀ (by norm_num) (by push_cast; omega)

/-- `r * 10^e` stands for `x`: it is `x`, or `x` lies between two multiples of `10^(e+1)` and a digit 1 after the lower one stands for the rest. -/
def Approx (x : ℚ) (r : Nat) (e : Int) (maxD : Nat) : Prop :=
  x = (r : ℚ) * 10 ^ e ∨ ∃ T : Nat, r = 10 * T + 1 ∧ 10 ^ (maxD - 1) ≤ T ∧ (T : ℚ) * 10 ^ (e + 1) < x ∧ x < ((T : ℚ) + 1) * 10 ^ (e + 1)

theorem Approx.cmp {x : ℚ} {r : Nat} {e : Int} {maxD : Nat} (hx : Approx x r e maxD) {h : ℚ}
    (hK : (∃ T : Nat, r = 10 * T + 1 ∧ 10 ^ (maxD - 1) ≤ T) → ∃ K : Nat, h = (K : ℚ) * 10 ^ (e + 1)) :
    (x < h ↔ (r : ℚ) * 10 ^ e < h) ∧ (h < x ↔ h < (r : ℚ) * 10 ^ e) := by
  rcases hx with rfl | ⟨T, hr, hT, h1, h2⟩
  · exact ⟨Iff.rfl, Iff.rfl⟩
  · obtain ⟨K, rfl⟩ := hK ⟨T, hr, hT⟩
    have hz : (0 : ℚ) < 10 ^ e := by positivity
    have e1 : (10 : ℚ) ^ (e + 1) = 10 * 10 ^ e := by rw [zpow_add₀ (by norm_num), zpow_one]; ring
    rw [e1] at h1 h2 ⊢
    obtain ⟨z, ez⟩ : ∃ z : ℚ, (10 : ℚ) ^ e = z := ⟨_, rfl⟩
    rw [ez] at h1 h2 hz ⊢
    have hrq : (r : ℚ) = 10 * T + 1 := by exact_mod_cast hr
    rw [hrq]
    rcases Nat.lt_or_ge T K with hlt | hge
    · have hlt' : (T : ℚ) + 1 ≤ K := by exact_mod_cast hlt
      have a : x < K * (10 * z) := by nlinarith
      have b : (10 * T + 1 : ℚ) * z < K * (10 * z) := by nlinarith
      exact ⟨iff_of_true a b, iff_of_false (by linarith) (by linarith)⟩
    · have hge' : (K : ℚ) ≤ T := by exact_mod_cast hge
      have a : K * (10 * z) < x := by nlinarith
      have b : K * (10 * z) < (10 * T + 1 : ℚ) * z := by nlinarith
      exact ⟨iff_of_false (by linarith) (by linarith), iff_of_true a b⟩

/-- The bounds that the number of digits and the size of the big numbers are chosen for. -/
structure SlowOk (f : Fmt) (F : Ieee) : Prop where
  d1000 : f.maxDigits ≤ 1000
  d19 : 19 ≤ f.maxDigits
  mbd : f.mantissaExplicitBits + 2 ≤ f.maxDigits
  sticky : ∃ N : Nat, 5 ^ N ≤ 2 ^ (f.maxDigits - f.mantissaExplicitBits - 2) ∧ F.bias + F.fracBits < N + 1 + f.maxDigits
  large : f.largestPowerOfTen + 18 < f.maxDigits
  capPos : 10 ^ (f.largestPowerOfTen + 19).toNat < (2 ^ 64) ^ 62
  capReal : 10 ^ (f.maxDigits + 1) * 2 ^ (F.bias + F.fracBits).toNat < (2 ^ 64) ^ 62
  capTheor : 2 ^ (f.mantissaExplicitBits + 2) * 5 ^ (f.maxDigits - 18 - f.smallestPowerOfTen).toNat *
    2 ^ (f.maxDigits - 18 - f.smallestPowerOfTen - (F.bias + F.fracBits)).toNat < (2 ^ 64) ^ 62
  capTheor2 : 10 ^ (f.maxDigits + 2) < (2 ^ 64) ^ 62

set_option exponentiation.threshold 5000 in
theorem dbl_slow : SlowOk dbl binary64 := ⟨by decide, by decide, by decide, ⟨307, by decide +kernel, by decide⟩, by decide, by decide +kernel, by decide +kernel,
  by decide +kernel, by decide +kernel⟩

set_option exponentiation.threshold 5000 in
theorem flt_slow : SlowOk flt binary32 := ⟨by decide, by decide, by decide, ⟨38, by decide +kernel, by decide⟩, by decide, by decide +kernel, by decide +kernel,
  by decide +kernel, by decide +kernel⟩

/-- The middle between two numbers has few enough digits to be compared with a number that was cut off. -/
theorem halfway_digits {f : Fmt} {F : Ieee} (hok : FmtOk f F) (hs : SlowOk f F) {A : Nat} {P : Int} {s b c : Nat} {U : Int} (C : Cell f F A P s b c U)
    {y : ℚ} (hy1 : y < F.val (b + 1)) {e : Int} (he : e < 0) (hst : (10 : ℚ) ^ (e + f.maxDigits) ≤ y) :
    ∃ K : Nat, (2 * c + 1 : ℚ) * 2 ^ (U - 1) = (K : ℚ) * 10 ^ (e + 1) := by
  have hfrac := hok.frac
  have hmbd := hs.mbd
  have hU1 := C.U1
  have hUe : e + 1 ≤ U - 1 := by
    by_contra hcon
    rw [C.val1] at hy1
    have h1 : y < 2 ^ (e + (f.mantissaExplicitBits + 2 : Nat)) := by
      refine lt_of_lt_of_le hy1 ?_
      have hc2 : (c : ℚ) + 1 ≤ 2 ^ (f.mantissaExplicitBits + 1) := by exact_mod_cast C.c2
      calc ((c : ℚ) + 1) * 2 ^ U ≤ 2 ^ (f.mantissaExplicitBits + 1) * 2 ^ U := mul_le_mul_of_nonneg_right hc2 (zpow2_pos U).le
        _ = 2 ^ (((f.mantissaExplicitBits + 1 : Nat) : Int) + U) := by rw [zpow_add₀ (by norm_num), zpow_natCast]
        _ ≤ _ := zpow_le_zpow_right₀ (by norm_num) (by push_cast; omega)
    have h2 := lt_of_le_of_lt hst h1
    by_cases hpos : 0 ≤ e + f.maxDigits
    · have h3 : (2 : ℚ) ^ (e + (f.mantissaExplicitBits + 2 : Nat)) ≤ 2 ^ (e + f.maxDigits) := zpow_le_zpow_right₀ (by norm_num) (by push_cast; omega)
      have h4 : (2 : ℚ) ^ (e + f.maxDigits) ≤ 10 ^ (e + f.maxDigits) := zpow_le_zpow_left₀ hpos (by norm_num) (by norm_num)
      linarith
    · obtain ⟨j, hj⟩ : ∃ j : Nat, e + f.maxDigits = -(j : Int) := ⟨(-(e + f.maxDigits)).toNat, by omega⟩
      obtain ⟨g, hg⟩ : ∃ g : Nat, f.maxDigits - f.mantissaExplicitBits - 2 = g := ⟨_, rfl⟩
      rw [hj, show e + (f.mantissaExplicitBits + 2 : Nat) = -(j : Int) + -(g : Int) by push_cast; omega, zpow_add₀ (by norm_num), zpow_neg, zpow_neg,
        zpow_neg, zpow_natCast, zpow_natCast, zpow_natCast, show (10 : ℚ) = 2 * 5 by norm_num, mul_pow, mul_inv] at h2
      have h3 := lt_of_mul_lt_mul_left h2 (by positivity)
      rw [inv_lt_inv₀ (by positivity) (by positivity)] at h3
      have h4 : 2 ^ g < 5 ^ j := by exact_mod_cast h3
      obtain ⟨N, n1, n2⟩ := hs.sticky
      rw [hg] at n1
      have hjN : N < j := by
        by_contra hcon
        have : 5 ^ j ≤ 5 ^ N := Nat.pow_le_pow_right (by omega) (by omega)
        omega
      omega
  obtain ⟨i, hi⟩ : ∃ i : Nat, U - 1 = (e + 1) + i := ⟨(U - 1 - (e + 1)).toNat, by omega⟩
  obtain ⟨n, hn⟩ : ∃ n : Nat, e + 1 = -(n : Int) := ⟨(-(e + 1)).toNat, by omega⟩
  refine ⟨(2 * c + 1) * 2 ^ i * 5 ^ n, ?_⟩
  rw [hi, hn, zpow_add₀ (by norm_num), zpow_neg, zpow_neg, zpow_natCast, zpow_natCast, zpow_natCast, show (10 : ℚ) = 2 * 5 by norm_num, mul_pow, mul_inv]
  push_cast
  field_simp

theorem sci_cap {f : Fmt} {F : Ieee} (hs : SlowOk f F) (a n k : Nat) (ha : a ≤ 2 ^ (f.mantissaExplicitBits + 2))
    (hn : (n : Int) ≤ f.maxDigits - 18 - f.smallestPowerOfTen) (hk : (k : Int) ≤ f.maxDigits - 18 - f.smallestPowerOfTen - (F.bias + F.fracBits) ∨ k = 0) :
    a * 5 ^ n * 2 ^ k < (2 ^ 64) ^ 62 := by
  refine lt_of_le_of_lt ?_ hs.capTheor
  exact Nat.mul_le_mul (Nat.mul_le_mul ha (Nat.pow_le_pow_right (by omega) (by omega))) (Nat.pow_le_pow_right (by omega) (by omega))

theorem negativeDigitComp_nearest {f : Fmt} {F : Ieee} (hok : FmtOk f F) (hs : SlowOk f F) {A : Nat} {P : Int} {s b c : Nat} {U : Int}
    (C : Cell f F A P s b c U) (hA : A < 2 ^ 64) {x y : ℚ} (hy0 : F.val b ≤ y) (hy1 : y < F.val (b + 1)) (hyx : y ≤ x)
    (hx : x < y + y / 2 ^ (F.fracBits + 2)) {v : List Nat} {r : Nat} (hb : Big v r) (hr : 0 < r) (hr2 : r < 10 ^ (f.maxDigits + 1)) {e : Int} (he : e < 0)
    (he2 : -e ≤ f.maxDigits - 18 - f.smallestPowerOfTen) (hap : Approx x r e f.maxDigits)
    (hst : (∃ T : Nat, r = 10 * T + 1 ∧ 10 ^ (f.maxDigits - 1) ≤ T) → (10 : ℚ) ^ (e + f.maxDigits) ≤ y) :
    F.Nearest x (toFloat f false (negativeDigitComp f v ⟨A, P⟩ e)) ∧ Canon f (negativeDigitComp f v ⟨A, P⟩ e) := by
  have hfrac := hok.frac
  have hmb2 := hok.mb2
  have hU1 := C.U1
  have hc2 := C.c2
  have hc64 : 2 ^ (f.mantissaExplicitBits + 1) ≤ 2 ^ 53 := Nat.pow_le_pow_right (by omega) (by omega)
  obtain ⟨cmp1, cmp2⟩ := hap.cmp (h := (2 * c + 1 : ℚ) * 2 ^ (U - 1)) (fun h => halfway_digits hok hs C hy1 he (hst h))
  obtain ⟨n, hn⟩ : ∃ n : Nat, e = -(n : Int) := ⟨(-e).toNat, by omega⟩
  -- the number below
  have hdown : toFloat f false (roundAM f ⟨A, P⟩ roundDown) = b := by
    have := (C.round roundDown 0 (by omega) (by rw [roundDown_eq A P s hA, C.hc]; rfl)).1
    simpa using this
  have hmid : 2 * ((2 * c + 1 : ℚ) * 2 ^ (U - 1)) = F.val b + F.val (b + 1) := by
    rw [C.val0, C.val1, zpow_sub₀ (by norm_num), zpow_one]
    ring
  have hbt := bigintOf_spec (2 * c + 1) (by omega)
  have hca : 2 * c + 1 ≤ 2 ^ (f.mantissaExplicitBits + 2) := by rw [Nat.pow_succ]; omega
  have hcap5 := sci_cap hs (2 * c + 1) n 0 hca (by omega) (Or.inr rfl)
  rw [Nat.pow_zero, Nat.mul_one] at hcap5
  obtain ⟨_, hb5⟩ := hbt.pow5 (e := n) hcap5
  -- the comparison
  have hord : ∃ i j : Nat, U - 1 + n = (j : Int) - i ∧
      negativeDigitComp f v ⟨A, P⟩ e = roundAM f ⟨A, P⟩ (roundNearestTieEven fun isOdd _ _ =>
        if ordOf (r * 2 ^ i) ((2 * c + 1) * 5 ^ n * 2 ^ j) > 0 then true
        else if ordOf (r * 2 ^ i) ((2 * c + 1) * 5 ^ n * 2 ^ j) < 0 then false else isOdd) := by
    unfold negativeDigitComp
    dsimp only
    rw [hdown, C.half]
    dsimp only
    rw [show (-e).toNat = n by omega, if_pos (by omega : n ≠ 0), show U - 1 - e = U - 1 + n by omega]
    rcases lt_trichotomy (U - 1 + n) 0 with h | h | h
    · rw [if_neg (by omega), if_pos h]
      dsimp only
      obtain ⟨i, hi⟩ : ∃ i : Nat, -(U - 1 + n) = (i : Int) := ⟨(-(U - 1 + n)).toNat, by omega⟩
      rw [hi, Int.toNat_natCast]
      have hcap : r * 2 ^ i < (2 ^ 64) ^ 62 := by
        refine lt_of_le_of_lt ?_ hs.capReal
        exact Nat.mul_le_mul hr2.le (Nat.pow_le_pow_right (by omega) (by omega))
      obtain ⟨_, hbs⟩ := hb.shl hr hcap
      refine ⟨i, 0, by push_cast; omega, ?_⟩
      rw [Nat.pow_zero, Nat.mul_one, compareBig_spec hbs hb5]
    · rw [if_neg (by omega), if_neg (by omega)]
      dsimp only
      refine ⟨0, 0, by push_cast; omega, ?_⟩
      rw [Nat.pow_zero, Nat.mul_one, Nat.mul_one, compareBig_spec hb hb5]
    · rw [if_pos h]
      dsimp only
      obtain ⟨j, hj⟩ : ∃ j : Nat, U - 1 + n = (j : Int) := ⟨(U - 1 + n).toNat, by omega⟩
      rw [hj, Int.toNat_natCast]
      have hcap : (2 * c + 1) * 5 ^ n * 2 ^ j < (2 ^ 64) ^ 62 := by
        by_cases hc0 : c = 0
        · have := C.c0 (by rw [hc0]; exact Nat.two_pow_pos _)
          exact sci_cap hs (2 * c + 1) n j hca (by omega) (Or.inl (by omega))
        · refine lt_trans ?_ hs.capTheor2
          have hxr : x * 10 ^ n ≤ r + 9 := by
            have h10 : (10 : ℚ) ^ n * 10 ^ e = 1 := by
              rw [hn, zpow_neg, zpow_natCast]
              exact mul_inv_cancel₀ (by positivity)
            have hp10 : (0 : ℚ) < 10 ^ n := by positivity
            rcases hap with h | ⟨T, t1, t2, t3, t4⟩
            · have : x * 10 ^ n = r := by rw [h, mul_assoc, mul_comm ((10 : ℚ) ^ e), h10, mul_one]
              rw [this]
              linarith
            · have e1 : (10 : ℚ) ^ (e + 1) = 10 * 10 ^ e := by rw [zpow_add₀ (by norm_num), zpow_one]; ring
              rw [e1] at t4
              have : x * 10 ^ n ≤ (((T : ℚ) + 1) * (10 * 10 ^ e)) * 10 ^ n := mul_le_mul_of_nonneg_right t4.le hp10.le
              rw [show (((T : ℚ) + 1) * (10 * 10 ^ e)) * 10 ^ n = (10 * T + 10) * (10 ^ n * 10 ^ e) by ring, h10] at this
              rw [t1]
              push_cast
              linarith
          have hh : ((2 * c + 1) * 5 ^ n * 2 ^ j : ℕ) = ((2 * c + 1 : ℚ) * 2 ^ (U - 1)) * 10 ^ n := by
            have : (2 : ℚ) ^ j = 2 ^ (U - 1) * 2 ^ n := by
              rw [← zpow_natCast, ← zpow_natCast, ← zpow_add₀ (by norm_num), hj]
            push_cast
            rw [this, show (10 : ℚ) = 2 * 5 by norm_num, mul_pow]
            ring
          have hle : (((2 * c + 1) * 5 ^ n * 2 ^ j : ℕ) : ℚ) < ((10 ^ (f.maxDigits + 2) : ℕ) : ℚ) := by
            rw [hh]
            have h1 : (2 * c + 1 : ℚ) * 2 ^ (U - 1) ≤ 3 / 2 * x := by
              have : (1 : ℚ) ≤ c := by exact_mod_cast Nat.one_le_iff_ne_zero.mpr hc0
              have hv := C.val0
              have hz := zpow2_pos (U - 1)
              have eU : (2 : ℚ) ^ U = 2 * 2 ^ (U - 1) := by rw [zpow_sub₀ (by norm_num), zpow_one]; ring
              rw [eU] at hv
              nlinarith
            have h2 : (2 * c + 1 : ℚ) * 2 ^ (U - 1) * 10 ^ n ≤ 3 / 2 * (x * 10 ^ n) := by
              rw [← mul_assoc]
              exact mul_le_mul_of_nonneg_right h1 (by positivity)
            have h3 : (r : ℚ) + 1 ≤ 10 ^ (f.maxDigits + 1) := by exact_mod_cast hr2
            have h4 : (10 : ℚ) ^ 2 ≤ 10 ^ (f.maxDigits + 1) := pow_le_pow_right₀ (by norm_num) (by have := hs.d19; omega)
            have h5 : (10 : ℚ) ^ (f.maxDigits + 2) = 10 * 10 ^ (f.maxDigits + 1) := by rw [pow_succ]; ring
            push_cast
            rw [h5]
            norm_num at h4
            linarith
          exact_mod_cast hle
      obtain ⟨_, hbs⟩ := hb5.shl (k := j) (Nat.mul_pos (by omega) (Nat.pow_pos (by omega))) hcap
      refine ⟨0, j, by push_cast; omega, ?_⟩
      rw [Nat.pow_zero, Nat.mul_one, compareBig_spec hb hbs]
  obtain ⟨i, j, hij, hneg⟩ := hord
  rw [hneg]
  -- what the order says
  obtain ⟨S, eS⟩ : ∃ S : ℚ, S = 10 ^ n * 2 ^ i := ⟨_, rfl⟩
  have Spos : 0 < S := by rw [eS]; positivity
  have hR : ((r * 2 ^ i : ℕ) : ℚ) = (r : ℚ) * 10 ^ e * S := by
    rw [eS, hn, zpow_neg, zpow_natCast]
    push_cast
    field_simp
  have hT : (((2 * c + 1) * 5 ^ n * 2 ^ j : ℕ) : ℚ) = (2 * c + 1 : ℚ) * 2 ^ (U - 1) * S := by
    have : (2 : ℚ) ^ j = 2 ^ (U - 1) * 2 ^ n * 2 ^ i := by
      rw [← zpow_natCast, ← zpow_natCast, ← zpow_natCast, ← zpow_add₀ (by norm_num), ← zpow_add₀ (by norm_num)]
      congr 1
      omega
    rw [eS]
    push_cast
    rw [this, show (10 : ℚ) = 2 * 5 by norm_num, mul_pow]
    ring
  have hlt : r * 2 ^ i < (2 * c + 1) * 5 ^ n * 2 ^ j ↔ x < (2 * c + 1 : ℚ) * 2 ^ (U - 1) := by
    rw [cmp1, ← mul_lt_mul_iff_left₀ Spos, ← hR, ← hT]
    exact_mod_cast Iff.rfl
  have hgt : (2 * c + 1) * 5 ^ n * 2 ^ j < r * 2 ^ i ↔ (2 * c + 1 : ℚ) * 2 ^ (U - 1) < x := by
    rw [cmp2, ← mul_lt_mul_iff_left₀ Spos, ← hR, ← hT]
    exact_mod_cast Iff.rfl
  obtain ⟨R, eR⟩ : ∃ R, r * 2 ^ i = R := ⟨_, rfl⟩
  obtain ⟨Q, eQ⟩ : ∃ Q, (2 * c + 1) * 5 ^ n * 2 ^ j = Q := ⟨_, rfl⟩
  rw [eR, eQ] at hlt hgt ⊢
  obtain ⟨up, eup⟩ : ∃ up : Bool, (if ordOf R Q > 0 then true else if ordOf R Q < 0 then false else decide (c % 2 = 1)) = up := ⟨_, rfl⟩
  have hcb := roundNearestTieEven_eq (fun isOdd _ _ => if ordOf R Q > 0 then true else if ordOf R Q < 0 then false else isOdd) A P s hA C.s1 C.s64
  rw [← C.hc] at hcb
  rw [eup] at hcb
  obtain ⟨r1, r2⟩ := C.round _ up.toNat (Bool.toNat_le up) hcb
  refine ⟨?_, r2⟩
  rw [r1]
  have hpar := C.par
  have hxup : x < F.val (b + 1) + F.val (b + 1) / 2 ^ (F.fracBits + 2) := by
    refine lt_trans hx ?_
    have : y / 2 ^ (F.fracBits + 2) < F.val (b + 1) / 2 ^ (F.fracBits + 2) := div_lt_div_of_pos_right hy1 (by positivity)
    linarith
  rcases lt_trichotomy x ((2 * c + 1 : ℚ) * 2 ^ (U - 1)) with h | h | h
  · have h1 := hlt.mpr h
    have : up = false := by
      rw [← eup]
      unfold ordOf
      simp [h1, Nat.lt_asymm h1]
    rw [this, Bool.toNat_false, Nat.add_zero]
    exact nearest_down F C.binf (le_trans hy0 hyx) (Or.inl (by rw [← hmid]; linarith))
  · have h1 : R = Q := by
      have a := mt hlt.mp (by rw [h]; exact lt_irrefl _)
      have b := mt hgt.mp (by rw [h]; exact lt_irrefl _)
      omega
    have hup : up = decide (c % 2 = 1) := by
      rw [← eup]
      unfold ordOf
      simp [h1]
    have h2 : 2 * x = F.val b + F.val (b + 1) := by rw [← hmid, h]
    by_cases hodd : c % 2 = 1
    · rw [hup, decide_eq_true hodd]
      exact nearest_up' F C.binf hxup (Or.inr ⟨h2, by omega⟩)
    · rw [hup, decide_eq_false hodd, Bool.toNat_false, Nat.add_zero]
      exact nearest_down F C.binf (le_trans hy0 hyx) (Or.inr ⟨h2, by omega⟩)
  · have h1 := hgt.mpr h
    have : up = true := by
      rw [← eup]
      unfold ordOf
      simp [h1]
    rw [this]
    exact nearest_up' F C.binf hxup (Or.inl (by rw [← hmid]; linarith))

theorem dropWhile_head : ∀ (D : List Nat) (c : Nat) (s : List Nat), D.dropWhile (· == 48) = c :: s → c ≠ 48 := by
  intro D
  induction D with
  | nil => intro c s h; cases h
  | cons x D ih =>
    intro c s h
    by_cases hx : x = 48
    · rw [List.dropWhile_cons_of_pos (by simp [hx])] at h
      exact ih c s h
    · rw [List.dropWhile_cons_of_neg (by simp [hx])] at h
      cases h
      exact hx

/-- Digits that do not begin with a zero. -/
structure Sig (s : List Nat) : Prop where
  digits : ∀ c ∈ s, IsDigit c
  head : ∀ c t, s = c :: t → c ≠ 48

theorem Sig.ge {s : List Nat} (h : Sig s) (hne : s ≠ []) : 10 ^ (s.length - 1) ≤ digitsVal s := by
  obtain ⟨c, t, rfl⟩ := List.exists_cons_of_ne_nil hne
  have hc := h.digits c (by simp)
  have hc' := h.head c t rfl
  unfold IsDigit at hc
  rw [digitsVal_cons, List.length_cons, Nat.add_sub_cancel]
  have : 1 * 10 ^ t.length ≤ (c - 48) * 10 ^ t.length := Nat.mul_le_mul_right _ (by omega)
  omega

theorem Sig.take {s : List Nat} (h : Sig s) (n : Nat) : Sig (s.take n) := by
  refine ⟨fun c hc => h.digits c (List.mem_of_mem_take hc), fun c t he => ?_⟩
  cases s with
  | nil => simp at he
  | cons x s =>
    cases n with
    | zero => simp at he
    | succ n =>
      rw [List.take_succ_cons] at he
      cases he
      exact h.head _ _ rfl

theorem sig_of (D : List Nat) (h : ∀ c ∈ D, IsDigit c) : Sig (D.dropWhile (· == 48)) :=
  ⟨dropWhile_digits _ D h, dropWhile_head D⟩

/-- Digits cut off at some place. -/
theorem split_val (s : List Nat) (n : Nat) (e : Int) :
    (digitsVal s : ℚ) * 10 ^ e = ((digitsVal (s.take n) : ℚ) * 10 ^ (s.length - n) + digitsVal (s.drop n)) * 10 ^ e := by
  congr 1
  have : digitsVal s = digitsVal (s.take n) * 10 ^ (s.length - n) + digitsVal (s.drop n) := by
    conv_lhs => rw [← List.take_append_drop n s]
    rw [digitsVal_append, List.length_drop]
  rw [this]
  push_cast
  ring

theorem cut_bounds (s : List Nat) (hd : ∀ c ∈ s, IsDigit c) (n : Nat) (h : n ≤ s.length) (e : Int) :
    (digitsVal (s.take n) : ℚ) * 10 ^ (e + (s.length - n)) ≤ (digitsVal s : ℚ) * 10 ^ e ∧
    (digitsVal s : ℚ) * 10 ^ e < ((digitsVal (s.take n) : ℚ) + 1) * 10 ^ (e + (s.length - n)) ∧
    (digitsVal (s.drop n) = 0 → (digitsVal s : ℚ) * 10 ^ e = (digitsVal (s.take n) : ℚ) * 10 ^ (e + (s.length - n))) ∧
    (digitsVal (s.drop n) ≠ 0 → (digitsVal (s.take n) : ℚ) * 10 ^ (e + (s.length - n)) < (digitsVal s : ℚ) * 10 ^ e) := by
  have hlt := digitsVal_lt (s.drop n) (fun c hc => hd c (List.mem_of_mem_drop hc))
  rw [List.length_drop] at hlt
  have hlt' : (digitsVal (s.drop n) : ℚ) < 10 ^ (s.length - n) := by exact_mod_cast hlt
  have hz : (0 : ℚ) < 10 ^ e := by positivity
  have hpw : (10 : ℚ) ^ (e + (s.length - n)) = 10 ^ (s.length - n) * 10 ^ e := by
    rw [zpow_add₀ (by norm_num), show ((s.length : Int) - n) = ((s.length - n : Nat) : Int) by omega, zpow_natCast]
    ring
  have h0 : (0 : ℚ) ≤ digitsVal (s.drop n) := by positivity
  rw [split_val s n e, hpw]
  refine ⟨by nlinarith, by nlinarith, fun h => by rw [h]; push_cast; ring, fun h => ?_⟩
  have : (1 : ℚ) ≤ digitsVal (s.drop n) := by exact_mod_cast Nat.one_le_iff_ne_zero.mpr h
  nlinarith

theorem sticky_spec {s : List Nat} (hs : Sig s) (maxD : Nat) (hM : 0 < maxD) (hl : 0 < s.length) (e : Int) :
    0 < (sticky maxD s).1 ∧ (sticky maxD s).1 < 10 ^ (sticky maxD s).2 ∧ (sticky maxD s).2 ≤ maxD + 1 ∧
    Approx ((digitsVal s : ℚ) * 10 ^ e) (sticky maxD s).1 (e + s.length - (sticky maxD s).2) maxD ∧
    ((sticky maxD s).2 ≤ maxD → (digitsVal s : ℚ) * 10 ^ e = ((sticky maxD s).1 : ℚ) * 10 ^ (e + s.length - (sticky maxD s).2)) := by
  have hne : s ≠ [] := List.length_pos_iff.mp hl
  have hT := hs.take maxD
  have hTl : (s.take maxD).length = min maxD s.length := List.length_take
  have hTne : s.take maxD ≠ [] := by
    intro h
    rw [h] at hTl
    simp at hTl
    omega
  have hge := hT.ge hTne
  have hlt := digitsVal_lt _ hT.digits
  rw [hTl] at hge hlt
  have hp : 0 < 10 ^ (min maxD s.length - 1) := Nat.pow_pos (by omega)
  unfold sticky
  by_cases h0 : digitsVal (s.drop maxD) = 0
  · rw [if_pos h0]
    dsimp only
    have hval : (digitsVal s : ℚ) * 10 ^ e = (digitsVal (s.take maxD) : ℚ) * 10 ^ (e + s.length - (min s.length maxD : Nat)) := by
      by_cases hle : s.length ≤ maxD
      · rw [Nat.min_eq_left hle, List.take_of_length_le hle]
        congr 2
        omega
      · rw [(cut_bounds s hs.digits maxD (by omega) e).2.2.1 h0, Nat.min_eq_right (by omega)]
        congr 2
        omega
    exact ⟨by omega, by rw [Nat.min_comm]; exact hlt, by omega, Or.inl hval, fun _ => hval⟩
  · rw [if_neg h0]
    dsimp only
    have hle : maxD < s.length := by
      by_contra hcon
      rw [List.drop_of_length_le (by omega), digitsVal_nil] at h0
      exact h0 rfl
    rw [Nat.min_eq_left hle.le] at hge hlt
    obtain ⟨b1, b2, b3, b4⟩ := cut_bounds s hs.digits maxD hle.le e
    refine ⟨by omega, by rw [Nat.pow_succ]; omega, le_refl _, Or.inr ⟨_, rfl, hge, ?_, ?_⟩, fun h => by omega⟩
    · have := b4 h0
      rwa [show e + ((s.length : Int) - maxD) = e + s.length - ((maxD + 1 : Nat) : Int) + 1 by push_cast; ring] at this
    · rwa [show e + ((s.length : Int) - maxD) = e + s.length - ((maxD + 1 : Nat) : Int) + 1 by push_cast; ring] at b2

/-- `digit_comp` rounds correctly. -/
theorem digitComp_nearest {f : Fmt} {F : Ieee} (hok : FmtOk f F) (hso : SlowOk f F) (num : PNS) {s : List Nat} (e0 : Int)
    (hD : ∀ c ∈ num.integer ++ num.fraction.getD [], IsDigit c) (hs : (num.integer ++ num.fraction.getD []).dropWhile (· == 48) = s)
    (hlen : 19 < s.length) (hm : num.mantissa = digitsVal (s.take 19)) (he : num.exponent = e0 + (s.length - 19))
    (hq1 : f.smallestPowerOfTen ≤ num.exponent) (hq2 : num.exponent ≤ f.largestPowerOfTen)
    (hfin : (num.mantissa : ℚ) * 10 ^ num.exponent < F.val F.infBits) :
    F.Nearest ((digitsVal s : ℚ) * 10 ^ e0) (toFloat f false (digitComp f num (computeError f num.exponent num.mantissa))) ∧
    Canon f (digitComp f num (computeError f num.exponent num.mantissa)) := by
  have hsig : Sig s := by rw [← hs]; exact sig_of _ hD
  have hmb2 := hok.mb2
  have hinfb := hok.infb
  have hbias := hok.bias
  have hfrac := hok.frac
  have hsmall := hok.small
  have hlarge := hok.large
  have hw1 : 10 ^ 18 ≤ num.mantissa := by
    have := (hsig.take 19).ge (by intro h; have := congrArg List.length h; rw [List.length_take, Nat.min_eq_left hlen.le] at this; exact absurd this (by decide))
    rw [List.length_take, Nat.min_eq_left hlen.le] at this
    rw [hm]
    exact this
  have hw2 : num.mantissa < 10 ^ 19 := by
    have := digitsVal_lt _ (hsig.take 19).digits
    rw [List.length_take, Nat.min_eq_left hlen.le] at this
    rw [hm]
    exact this
  obtain ⟨c1, c2, -, -⟩ := cut_bounds s hsig.digits 19 hlen.le e0
  have hexp : e0 + ((s.length : Int) - (19 : Nat)) = num.exponent := by rw [he]; push_cast; ring
  rw [← hm, hexp] at c1 c2
  obtain ⟨p1, p2⟩ := parseMantissa_spec f.maxDigits hso.d1000 (by have := hso.d19; omega) num.integer num.fraction hD
  rw [hs] at p1 p2
  obtain ⟨t1, t2, t3, t4, t5⟩ := sticky_spec hsig f.maxDigits (by have := hso.d19; omega) (by omega) e0
  obtain ⟨A, P, M, E, ce, A1, A2, hM, hE, M1, M2, lo, hi⟩ := computeError_spec hok (q := num.exponent) (by omega) (by omega)
    (w := num.mantissa) (by omega) (by omega)
  rw [ce]
  unfold digitComp
  dsimp only
  rw [scientificExponent_eq _ _ hw1 hw2, Int.add_sub_cancel, p1]
  obtain ⟨r, er⟩ : ∃ r, (sticky f.maxDigits s).1 = r := ⟨_, rfl⟩
  obtain ⟨d, ed⟩ : ∃ d, (sticky f.maxDigits s).2 = d := ⟨_, rfl⟩
  rw [er] at p2
  rw [er, ed] at t2 t4 t5
  rw [er] at t1
  rw [ed] at t3 ⊢
  have hee : num.exponent + 18 + 1 - (d : Int) = e0 + s.length - d := by omega
  rw [hee]
  obtain ⟨e, ee⟩ : ∃ e : Int, e0 + s.length - (d : Int) = e := ⟨_, rfl⟩
  rw [ee] at t4 t5 ⊢
  have hl := hso.large
  by_cases hpos : e ≥ 0
  · rw [if_pos hpos]
    obtain ⟨k, rfl⟩ := Int.eq_ofNat_of_zero_le hpos
    rw [Int.toNat_natCast, t5 (by omega), zpow_natCast]
    have hcap : r * 10 ^ k < (2 ^ 64) ^ 62 := by
      refine lt_trans ?_ (lt_of_le_of_lt (Nat.pow_le_pow_right (by omega : 0 < 10) (by omega : d + k ≤ (f.largestPowerOfTen + 19).toNat)) hso.capPos)
      rw [Nat.pow_add]
      exact Nat.mul_lt_mul_of_pos_right t2 (Nat.pow_pos (by omega))
    have := positiveDigitComp_nearest hok p2 t1 hcap
    push_cast at this ⊢
    exact this
  · rw [if_neg hpos]
    have hPfin : P + 63 - f.mantissaExplicitBits < f.infinitePower := by
      by_contra hcon
      have h1 : F.val F.infBits ≤ (M : ℚ) * 2 ^ E := by
        rw [val_inf hok]
        have hM1' : (2 : ℚ) ^ (f.mantissaExplicitBits + 1) ≤ M := by exact_mod_cast M1
        calc (2 : ℚ) ^ (F.bias + 1) ≤ 2 ^ (((f.mantissaExplicitBits + 1 : Nat) : Int) + E) := zpow_le_zpow_right₀ (by norm_num) (by push_cast; omega)
          _ = 2 ^ (f.mantissaExplicitBits + 1) * 2 ^ E := by rw [zpow_add₀ (by norm_num), zpow_natCast]
          _ ≤ (M : ℚ) * 2 ^ E := mul_le_mul_of_nonneg_right hM1' (zpow2_pos E).le
      linarith
    obtain ⟨sh, b, c, U, C⟩ := round_cell hok A1 A2 hPfin
    obtain ⟨f1, f2⟩ := C.floor hok A2 hM hE lo hi
    have hz : (0 : ℚ) < 10 ^ num.exponent := by positivity
    have hwq : (10 : ℚ) ^ 18 ≤ num.mantissa := by exact_mod_cast hw1
    refine negativeDigitComp_nearest hok hso C A2 f1 f2 c1 ?_ p2 t1 ?_ (by omega) ?_ t4 ?_
    · refine lt_of_lt_of_le c2 ?_
      have h1 : (2 : ℚ) ^ (F.fracBits + 2) ≤ num.mantissa := by
        have : (2 : ℚ) ^ (F.fracBits + 2) ≤ 2 ^ 54 := pow_le_pow_right₀ (by norm_num) (by omega)
        refine le_trans this (le_trans ?_ hwq)
        norm_num
      have h2 : (10 : ℚ) ^ num.exponent ≤ num.mantissa * 10 ^ num.exponent / 2 ^ (F.fracBits + 2) := by
        rw [le_div_iff₀ (by positivity)]
        nlinarith
      linarith
    · exact lt_of_lt_of_le t2 (Nat.pow_le_pow_right (by omega) t3)
    · omega
    · rintro ⟨T, hT, hT2⟩
      have hd : d = f.maxDigits + 1 := by
        by_contra hcon
        have h1 : 10 ^ d ≤ 10 ^ f.maxDigits := Nat.pow_le_pow_right (by omega) (by omega)
        have h2 : 10 ^ f.maxDigits = 10 * 10 ^ (f.maxDigits - 1) := by
          rw [← Nat.pow_succ']
          congr 1
          have := hso.d19
          omega
        omega
      have : e + f.maxDigits = ((18 : Nat) : Int) + num.exponent := by push_cast; omega
      rw [this, zpow_add₀ (by norm_num), zpow_natCast]
      exact mul_le_mul_of_nonneg_right hwq hz.le

end C4.FF
