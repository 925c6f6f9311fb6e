import Verif.Props.FFMantissa32
import Verif.Props.FFResult
/-
The slow path of fast_float with 32-bit limbs.
-/
namespace C4.FF.L32
open Spec.L32
open Spec hiding limbsVal Limbs

/-- 125 limbs of 32 bits hold what 62 limbs of 64 bits do. -/
theorem cap32 {n : Nat} (h : n < (2 ^ 64) ^ 62) : n < (2 ^ 32) ^ 125 := by
  refine lt_of_lt_of_le h ?_
  rw [← Nat.pow_mul, ← Nat.pow_mul]
  exact Nat.pow_le_pow_right (by omega) (by omega)

/-- An integer is rounded correctly. -/
theorem positiveDigitComp_nearest {f : Fmt} {F : Ieee} (hok : FmtOk f F) {v : List Nat} {r e : Nat} (hb : Big v r) (hr : 0 < r)
    (hcap : r * 10 ^ e < (2 ^ 32) ^ 125) :
    F.Nearest ((r * 10 ^ e : ℕ) : ℚ) (toFloat f false (positiveDigitComp f v e)) ∧ Canon f (positiveDigitComp f v e) := by
  have hbias := hok.bias
  have hemin := hok.emin
  have hinfb := hok.infb
  have hmb1 := hok.mb1
  have hmb2 := hok.mb2
  have hfrac := hok.frac
  obtain ⟨_, hn⟩ := hb.pow10 (e := e) hr hcap
  obtain ⟨n, en⟩ : ∃ n, r * 10 ^ e = n := ⟨_, rfl⟩
  have hn0 : 0 < n := by rw [← en]; exact Nat.mul_pos hr (Nat.pow_pos (by omega))
  rw [en] at hn ⊢
  obtain ⟨L, l1, l2, l3, l4, l5⟩ := hn.bitLength hn0
  obtain ⟨h1, h2, h3⟩ := hn.hi64_bits hn0 l2
  obtain ⟨A1, A2, _⟩ := hn.hi64 hn0
  unfold positiveDigitComp
  dsimp only
  obtain ⟨v', ev⟩ : ∃ v', (pow10 v e).1 = v' := ⟨_, rfl⟩
  rw [ev] at h1 h2 h3 A1 A2 l1 ⊢
  obtain ⟨A, eA⟩ : ∃ A, (hi64 v').1 = A := ⟨_, rfl⟩
  obtain ⟨tr, etr⟩ : ∃ t, (hi64 v').2 = t := ⟨_, rfl⟩
  rw [eA] at h1 h2 h3 A1 A2
  rw [etr] at h3
  rw [l1, eA, etr]
  obtain ⟨P, eP⟩ : ∃ P : Int, (L : Int) - 64 + ((f.mantissaExplicitBits : Int) - f.minimumExponent) = P := ⟨_, rfl⟩
  rw [eP]
  by_cases hinf : P + 63 - f.mantissaExplicitBits ≥ f.infinitePower
  · rw [round_inf hok hinf _ _ (roundNearestTieEven_eq _ A P _ A2 (by omega) (by omega)), toFloat_inf hok]
    refine ⟨nearest_inf F ?_, canon_inf hok⟩
    rw [val_inf hok]
    have : (2 : ℚ) ^ (F.bias + 1) ≤ 2 ^ ((L - 1 : Nat) : Int) := zpow_le_zpow_right₀ (by norm_num) (by omega)
    refine le_trans this ?_
    rw [zpow_natCast]
    exact_mod_cast l4
  · obtain ⟨s, b, c, U, C⟩ := round_cell hok A1 A2 (by omega : P + 63 - f.mantissaExplicitBits < f.infinitePower)
    have hU : U = (L : Int) - 64 + s := by
      rcases C.hU with h | ⟨h, h'⟩
      · rw [h]; omega
      · exfalso
        have hc0 : c = 0 := by rw [C.hc, h, Nat.div_eq_of_lt A2]
        have := C.c0 (by rw [hc0]; exact Nat.two_pow_pos _)
        omega
    have hs1 := C.s1
    have hcb := roundNearestTieEven_eq (fun isOdd isHalfway isAbove => isAbove || (isHalfway && tr) || (isOdd && isHalfway)) A P s A2 C.s1 C.s64
    rw [← C.hc] at hcb
    obtain ⟨up, eup⟩ : ∃ up : Bool, (decide (A % 2 ^ s > 2 ^ (s - 1)) || (decide (A % 2 ^ s = 2 ^ (s - 1)) && tr) ||
      (decide (c % 2 = 1) && decide (A % 2 ^ s = 2 ^ (s - 1)))) = up := ⟨_, rfl⟩
    rw [eup] at hcb
    obtain ⟨r1, r2⟩ := C.round _ up.toNat (Bool.toNat_le up) hcb
    refine ⟨?_, r2⟩
    rw [r1]
    obtain ⟨z, ez⟩ : ∃ z : ℚ, z = 2 ^ ((L : Int) - 64) := ⟨_, rfl⟩
    have zpos : 0 < z := by rw [ez]; exact zpow2_pos _
    have eL : (2 : ℚ) ^ L = z * 2 ^ 64 := by
      rw [ez, ← zpow_natCast, ← zpow_natCast, ← zpow_add₀ (by norm_num)]
      congr 1
      push_cast
      omega
    have g1 : (A : ℚ) * z ≤ n := by
      have : (A : ℚ) * 2 ^ L ≤ n * 2 ^ 64 := by exact_mod_cast h1
      rw [eL, ← mul_assoc] at this
      exact le_of_mul_le_mul_right this (by positivity)
    have g2 : (n : ℚ) < (A + 1) * z := by
      have : (n : ℚ) * 2 ^ 64 < (A + 1) * 2 ^ L := by exact_mod_cast h2
      rw [eL, ← mul_assoc] at this
      exact lt_of_mul_lt_mul_right this (by positivity)
    have g3 : tr = false ↔ (A : ℚ) * z = n := by
      rw [h3]
      constructor
      · intro h
        have : (A : ℚ) * 2 ^ L = n * 2 ^ 64 := by exact_mod_cast h
        rw [eL, ← mul_assoc] at this
        exact mul_right_cancel₀ (by positivity) this
      · intro h
        have : (A : ℚ) * 2 ^ L = n * 2 ^ 64 := by rw [eL, ← mul_assoc, h]
        exact_mod_cast this
    have eU : (2 : ℚ) ^ U = 2 * 2 ^ (s - 1) * z := by
      rw [hU, zpow_add₀ (by norm_num), ← ez, zpow_natCast]
      obtain ⟨k, rfl⟩ : ∃ k, s = k + 1 := ⟨s - 1, by omega⟩
      rw [Nat.add_sub_cancel, pow_succ]
      ring
    have hA := Nat.div_add_mod A (2 ^ s)
    rw [← C.hc] at hA
    have hlt := Nat.mod_lt A (Nat.two_pow_pos s)
    have e2 : 2 ^ s = 2 * 2 ^ (s - 1) := by rw [← Nat.pow_succ']; congr 1; omega
    rw [e2] at hA hlt eup
    obtain ⟨h, eh⟩ : ∃ h, 2 ^ (s - 1) = h := ⟨_, rfl⟩
    obtain ⟨ρ, eρ⟩ : ∃ ρ, A % (2 * h) = ρ := ⟨_, rfl⟩
    have ehq : (2 : ℚ) ^ (s - 1) = h := by rw [← eh]; push_cast; rfl
    rw [eh] at hA hlt eup
    rw [eρ] at hA hlt eup
    rw [ehq] at eU
    have v0 := C.val0
    have v1 := C.val1
    rw [eU] at v0 v1
    have hAq : (A : ℚ) = 2 * h * c + ρ := by exact_mod_cast hA.symm
    have hb0 : F.val b ≤ n := by
      rw [v0]
      refine le_trans ?_ g1
      rw [hAq]
      have : (0 : ℚ) ≤ ρ := by positivity
      nlinarith
    have hb1 : (n : ℚ) ≤ F.val (b + 1) := by
      rw [v1]
      refine le_trans g2.le ?_
      rw [hAq]
      have : (ρ : ℚ) + 1 ≤ 2 * h := by exact_mod_cast hlt
      nlinarith
    have hpar := C.par
    rcases Nat.lt_trichotomy ρ h with hlt | heq | hgt
    · have : up = false := by rw [← eup]; simp; omega
      rw [this, Bool.toNat_false, Nat.add_zero]
      refine nearest_down F C.binf hb0 (Or.inl ?_)
      rw [v0, v1]
      have : (ρ : ℚ) + 1 ≤ h := by exact_mod_cast hlt
      rw [hAq] at g2
      nlinarith
    · have heq' : (ρ : ℚ) = h := by exact_mod_cast heq
      rw [hAq, heq'] at g1 g2 g3
      cases htr : tr
      · have g := g3.mp htr
        have hmid : 2 * (n : ℚ) = F.val b + F.val (b + 1) := by rw [v0, v1, ← g]; ring
        by_cases hodd : c % 2 = 1
        · have : up = true := by rw [← eup]; simp [heq, hodd]
          rw [this]
          exact nearest_up F C.binf hb1 (Or.inr ⟨hmid, by omega⟩)
        · have : up = false := by rw [← eup]; simp [heq, hodd, htr]
          rw [this, Bool.toNat_false, Nat.add_zero]
          exact nearest_down F C.binf hb0 (Or.inr ⟨hmid, by omega⟩)
      · have : up = true := by rw [← eup]; simp [heq, htr]
        rw [this]
        refine nearest_up F C.binf hb1 (Or.inl ?_)
        have hne : ¬ ((2 * h * c + h : ℚ) * z = n) := by rw [← g3, htr]; simp
        have := lt_of_le_of_ne g1 hne
        rw [v0, v1]
        linarith
    · have : up = true := by rw [← eup]; simp [hgt]
      rw [this]
      refine nearest_up F C.binf hb1 (Or.inl ?_)
      rw [v0, v1]
      have : (h : ℚ) < ρ := by exact_mod_cast hgt
      rw [hAq] at g1
      nlinarith

theorem negativeDigitComp_nearest {f : Fmt} {F : Ieee} (hok : FmtOk f F) (hs : SlowOk f F) {A : Nat} {P : Int} {s b c : Nat} {U : Int}
    (C : Cell f F A P s b c U) (hA : A < 2 ^ 64) {x y : ℚ} (hy0 : F.val b ≤ y) (hy1 : y < F.val (b + 1)) (hyx : y ≤ x)
    (hx : x < y + y / 2 ^ (F.fracBits + 2)) {v : List Nat} {r : Nat} (hb : Big v r) (hr : 0 < r) (hr2 : r < 10 ^ (f.maxDigits + 1)) {e : Int} (he : e < 0)
    (he2 : -e ≤ f.maxDigits - 18 - f.smallestPowerOfTen) (hap : Approx x r e f.maxDigits)
    (hst : (∃ T : Nat, r = 10 * T + 1 ∧ 10 ^ (f.maxDigits - 1) ≤ T) → (10 : ℚ) ^ (e + f.maxDigits) ≤ y) :
    F.Nearest x (toFloat f false (negativeDigitComp f v ⟨A, P⟩ e)) ∧ Canon f (negativeDigitComp f v ⟨A, P⟩ e) := by
  have hfrac := hok.frac
  have hmb2 := hok.mb2
  have hU1 := C.U1
  have hc2 := C.c2
  have hc64 : 2 ^ (f.mantissaExplicitBits + 1) ≤ 2 ^ 53 := Nat.pow_le_pow_right (by omega) (by omega)
  obtain ⟨cmp1, cmp2⟩ := hap.cmp (h := (2 * c + 1 : ℚ) * 2 ^ (U - 1)) (fun h => halfway_digits hok hs C hy1 he (hst h))
  obtain ⟨n, hn⟩ : ∃ n : Nat, e = -(n : Int) := ⟨(-e).toNat, by omega⟩
  -- the number below
  have hdown : toFloat f false (roundAM f ⟨A, P⟩ roundDown) = b := by
    have := (C.round roundDown 0 (by omega) (by rw [roundDown_eq A P s hA, C.hc]; rfl)).1
    simpa using this
  have hmid : 2 * ((2 * c + 1 : ℚ) * 2 ^ (U - 1)) = F.val b + F.val (b + 1) := by
    rw [C.val0, C.val1, zpow_sub₀ (by norm_num), zpow_one]
    ring
  have hbt := bigintOf_spec (2 * c + 1) (by omega)
  have hca : 2 * c + 1 ≤ 2 ^ (f.mantissaExplicitBits + 2) := by rw [Nat.pow_succ]; omega
  have hcap5 := sci_cap hs (2 * c + 1) n 0 hca (by omega) (Or.inr rfl)
  rw [Nat.pow_zero, Nat.mul_one] at hcap5
  obtain ⟨_, hb5⟩ := hbt.pow5 (e := n) (cap32 hcap5)
  -- the comparison
  have hord : ∃ i j : Nat, U - 1 + n = (j : Int) - i ∧
      negativeDigitComp f v ⟨A, P⟩ e = roundAM f ⟨A, P⟩ (roundNearestTieEven fun isOdd _ _ =>
        if ordOf (r * 2 ^ i) ((2 * c + 1) * 5 ^ n * 2 ^ j) > 0 then true
        else if ordOf (r * 2 ^ i) ((2 * c + 1) * 5 ^ n * 2 ^ j) < 0 then false else isOdd) := by
    unfold negativeDigitComp
    dsimp only
    rw [hdown, C.half]
    dsimp only
    rw [show (-e).toNat = n by omega, if_pos (by omega : n ≠ 0), show U - 1 - e = U - 1 + n by omega]
    rcases lt_trichotomy (U - 1 + n) 0 with h | h | h
    · rw [if_neg (by omega), if_pos h]
      dsimp only
      obtain ⟨i, hi⟩ : ∃ i : Nat, -(U - 1 + n) = (i : Int) := ⟨(-(U - 1 + n)).toNat, by omega⟩
      rw [hi, Int.toNat_natCast]
      have hcap : r * 2 ^ i < (2 ^ 64) ^ 62 := by
        refine lt_of_le_of_lt ?_ hs.capReal
        exact Nat.mul_le_mul hr2.le (Nat.pow_le_pow_right (by omega) (by omega))
      obtain ⟨_, hbs⟩ := hb.shl hr (cap32 hcap)
      refine ⟨i, 0, by push_cast; omega, ?_⟩
      rw [Nat.pow_zero, Nat.mul_one, compareBig_spec hbs hb5]
    · rw [if_neg (by omega), if_neg (by omega)]
      dsimp only
      refine ⟨0, 0, by push_cast; omega, ?_⟩
      rw [Nat.pow_zero, Nat.mul_one, Nat.mul_one, compareBig_spec hb hb5]
    · rw [if_pos h]
      dsimp only
      obtain ⟨j, hj⟩ : ∃ j : Nat, U - 1 + n = (j : Int) := ⟨(U - 1 + n).toNat, by omega⟩
      rw [hj, Int.toNat_natCast]
      have hcap : (2 * c + 1) * 5 ^ n * 2 ^ j < (2 ^ 64) ^ 62 := by
        by_cases hc0 : c = 0
        · have := C.c0 (by rw [hc0]; exact Nat.two_pow_pos _)
          exact sci_cap hs (2 * c + 1) n j hca (by omega) (Or.inl (by omega))
        · refine lt_trans ?_ hs.capTheor2
          have hxr : x * 10 ^ n ≤ r + 9 := by
            have h10 : (10 : ℚ) ^ n * 10 ^ e = 1 := by
              rw [hn, zpow_neg, zpow_natCast]
              exact mul_inv_cancel₀ (by positivity)
            have hp10 : (0 : ℚ) < 10 ^ n := by positivity
            rcases hap with h | ⟨T, t1, t2, t3, t4⟩
            · have : x * 10 ^ n = r := by rw [h, mul_assoc, mul_comm ((10 : ℚ) ^ e), h10, mul_one]
              rw [this]
              linarith
            · have e1 : (10 : ℚ) ^ (e + 1) = 10 * 10 ^ e := by rw [zpow_add₀ (by norm_num), zpow_one]; ring
              rw [e1] at t4
              have : x * 10 ^ n ≤ (((T : ℚ) + 1) * (10 * 10 ^ e)) * 10 ^ n := mul_le_mul_of_nonneg_right t4.le hp10.le
              rw [show (((T : ℚ) + 1) * (10 * 10 ^ e)) * 10 ^ n = (10 * T + 10) * (10 ^ n * 10 ^ e) by ring, h10] at this
              rw [t1]
              push_cast
              linarith
          have hh : ((2 * c + 1) * 5 ^ n * 2 ^ j : ℕ) = ((2 * c + 1 : ℚ) * 2 ^ (U - 1)) * 10 ^ n := by
            have : (2 : ℚ) ^ j = 2 ^ (U - 1) * 2 ^ n := by
              rw [← zpow_natCast, ← zpow_natCast, ← zpow_add₀ (by norm_num), hj]
            push_cast
            rw [this, show (10 : ℚ) = 2 * 5 by norm_num, mul_pow]
            ring
          have hle : (((2 * c + 1) * 5 ^ n * 2 ^ j : ℕ) : ℚ) < ((10 ^ (f.maxDigits + 2) : ℕ) : ℚ) := by
            rw [hh]
            have h1 : (2 * c + 1 : ℚ) * 2 ^ (U - 1) ≤ 3 / 2 * x := by
              have : (1 : ℚ) ≤ c := by exact_mod_cast Nat.one_le_iff_ne_zero.mpr hc0
              have hv := C.val0
              have hz := zpow2_pos (U - 1)
              have eU : (2 : ℚ) ^ U = 2 * 2 ^ (U - 1) := by rw [zpow_sub₀ (by norm_num), zpow_one]; ring
              rw [eU] at hv
              nlinarith
            have h2 : (2 * c + 1 : ℚ) * 2 ^ (U - 1) * 10 ^ n ≤ 3 / 2 * (x * 10 ^ n) := by
              rw [← mul_assoc]
              exact mul_le_mul_of_nonneg_right h1 (by positivity)
            have h3 : (r : ℚ) + 1 ≤ 10 ^ (f.maxDigits + 1) := by exact_mod_cast hr2
            have h4 : (10 : ℚ) ^ 2 ≤ 10 ^ (f.maxDigits + 1) := pow_le_pow_right₀ (by norm_num) (by have := hs.d19; omega)
            have h5 : (10 : ℚ) ^ (f.maxDigits + 2) = 10 * 10 ^ (f.maxDigits + 1) := by rw [pow_succ]; ring
            push_cast
            rw [h5]
            norm_num at h4
            linarith
          exact_mod_cast hle
      obtain ⟨_, hbs⟩ := hb5.shl (k := j) (Nat.mul_pos (by omega) (Nat.pow_pos (by omega))) (cap32 hcap)
      refine ⟨0, j, by push_cast; omega, ?_⟩
      rw [Nat.pow_zero, Nat.mul_one, compareBig_spec hb hbs]
  obtain ⟨i, j, hij, hneg⟩ := hord
  rw [hneg]
  -- what the order says
  obtain ⟨S, eS⟩ : ∃ S : ℚ, S = 10 ^ n * 2 ^ i := ⟨_, rfl⟩
  have Spos : 0 < S := by rw [eS]; positivity
  have hR : ((r * 2 ^ i : ℕ) : ℚ) = (r : ℚ) * 10 ^ e * S := by
    rw [eS, hn, zpow_neg, zpow_natCast]
    push_cast
    field_simp
  have hT : (((2 * c + 1) * 5 ^ n * 2 ^ j : ℕ) : ℚ) = (2 * c + 1 : ℚ) * 2 ^ (U - 1) * S := by
    have : (2 : ℚ) ^ j = 2 ^ (U - 1) * 2 ^ n * 2 ^ i := by
      rw [← zpow_natCast, ← zpow_natCast, ← zpow_natCast, ← zpow_add₀ (by norm_num), ← zpow_add₀ (by norm_num)]
      congr 1
      omega
    rw [eS]
    push_cast
    rw [this, show (10 : ℚ) = 2 * 5 by norm_num, mul_pow]
    ring
  have hlt : r * 2 ^ i < (2 * c + 1) * 5 ^ n * 2 ^ j ↔ x < (2 * c + 1 : ℚ) * 2 ^ (U - 1) := by
    rw [cmp1, ← mul_lt_mul_iff_left₀ Spos, ← hR, ← hT]
    exact_mod_cast Iff.rfl
  have hgt : (2 * c + 1) * 5 ^ n * 2 ^ j < r * 2 ^ i ↔ (2 * c + 1 : ℚ) * 2 ^ (U - 1) < x := by
    rw [cmp2, ← mul_lt_mul_iff_left₀ Spos, ← hR, ← hT]
    exact_mod_cast Iff.rfl
  obtain ⟨R, eR⟩ : ∃ R, r * 2 ^ i = R := ⟨_, rfl⟩
  obtain ⟨Q, eQ⟩ : ∃ Q, (2 * c + 1) * 5 ^ n * 2 ^ j = Q := ⟨_, rfl⟩
  rw [eR, eQ] at hlt hgt ⊢
  obtain ⟨up, eup⟩ : ∃ up : Bool, (if ordOf R Q > 0 then true else if ordOf R Q < 0 then false else decide (c % 2 = 1)) = up := ⟨_, rfl⟩
  have hcb := roundNearestTieEven_eq (fun isOdd _ _ => if ordOf R Q > 0 then true else if ordOf R Q < 0 then false else isOdd) A P s hA C.s1 C.s64
  rw [← C.hc] at hcb
  rw [eup] at hcb
  obtain ⟨r1, r2⟩ := C.round _ up.toNat (Bool.toNat_le up) hcb
  refine ⟨?_, r2⟩
  rw [r1]
  have hpar := C.par
  have hxup : x < F.val (b + 1) + F.val (b + 1) / 2 ^ (F.fracBits + 2) := by
    refine lt_trans hx ?_
    have : y / 2 ^ (F.fracBits + 2) < F.val (b + 1) / 2 ^ (F.fracBits + 2) := div_lt_div_of_pos_right hy1 (by positivity)
    linarith
  rcases lt_trichotomy x ((2 * c + 1 : ℚ) * 2 ^ (U - 1)) with h | h | h
  · have h1 := hlt.mpr h
    have : up = false := by
      rw [← eup]
      unfold ordOf
      simp [h1, Nat.lt_asymm h1]
    rw [this, Bool.toNat_false, Nat.add_zero]
    exact nearest_down F C.binf (le_trans hy0 hyx) (Or.inl (by rw [← hmid]; linarith))
  · have h1 : R = Q := by
      have a := mt hlt.mp (by rw [h]; exact lt_irrefl _)
      have b := mt hgt.mp (by rw [h]; exact lt_irrefl _)
      omega
    have hup : up = decide (c % 2 = 1) := by
      rw [← eup]
      unfold ordOf
      simp [h1]
    have h2 : 2 * x = F.val b + F.val (b + 1) := by rw [← hmid, h]
    by_cases hodd : c % 2 = 1
    · rw [hup, decide_eq_true hodd]
      exact nearest_up' F C.binf hxup (Or.inr ⟨h2, by omega⟩)
    · rw [hup, decide_eq_false hodd, Bool.toNat_false, Nat.add_zero]
      exact nearest_down F C.binf (le_trans hy0 hyx) (Or.inr ⟨h2, by omega⟩)
  · have h1 := hgt.mpr h
    have : up = true := by
      rw [← eup]
      unfold ordOf
      simp [h1]
    rw [this]
    exact nearest_up' F C.binf hxup (Or.inl (by rw [← hmid]; linarith))

/-- `digit_comp` rounds correctly. -/
theorem digitComp_nearest {f : Fmt} {F : Ieee} (hok : FmtOk f F) (hso : SlowOk f F) (num : PNS) {s : List Nat} (e0 : Int)
    (hD : ∀ c ∈ num.integer ++ num.fraction.getD [], IsDigit c) (hs : (num.integer ++ num.fraction.getD []).dropWhile (· == 48) = s)
    (hlen : 19 < s.length) (hm : num.mantissa = digitsVal (s.take 19)) (he : num.exponent = e0 + (s.length - 19))
    (hq1 : f.smallestPowerOfTen ≤ num.exponent) (hq2 : num.exponent ≤ f.largestPowerOfTen)
    (hfin : (num.mantissa : ℚ) * 10 ^ num.exponent < F.val F.infBits) :
    F.Nearest ((digitsVal s : ℚ) * 10 ^ e0) (toFloat f false (digitComp f num (computeError f num.exponent num.mantissa))) ∧
    Canon f (digitComp f num (computeError f num.exponent num.mantissa)) := by
  have hsig : Sig s := by rw [← hs]; exact sig_of _ hD
  have hmb2 := hok.mb2
  have hinfb := hok.infb
  have hbias := hok.bias
  have hfrac := hok.frac
  have hsmall := hok.small
  have hlarge := hok.large
  have hw1 : 10 ^ 18 ≤ num.mantissa := by
    have := (hsig.take 19).ge (by intro h; have := congrArg List.length h; rw [List.length_take, Nat.min_eq_left hlen.le] at this; exact absurd this (by decide))
    rw [List.length_take, Nat.min_eq_left hlen.le] at this
    rw [hm]
    exact this
  have hw2 : num.mantissa < 10 ^ 19 := by
    have := digitsVal_lt _ (hsig.take 19).digits
    rw [List.length_take, Nat.min_eq_left hlen.le] at this
    rw [hm]
    exact this
  obtain ⟨c1, c2, -, -⟩ := cut_bounds s hsig.digits 19 hlen.le e0
  have hexp : e0 + ((s.length : Int) - (19 : Nat)) = num.exponent := by rw [he]; push_cast; ring
  rw [← hm, hexp] at c1 c2
  obtain ⟨p1, p2⟩ := parseMantissa_spec f.maxDigits hso.d1000 (by have := hso.d19; omega) num.integer num.fraction hD
  rw [hs] at p1 p2
  obtain ⟨t1, t2, t3, t4, t5⟩ := sticky_spec hsig f.maxDigits (by have := hso.d19; omega) (by omega) e0
  obtain ⟨A, P, M, E, ce, A1, A2, hM, hE, M1, M2, lo, hi⟩ := computeError_spec hok (q := num.exponent) (by omega) (by omega)
    (w := num.mantissa) (by omega) (by omega)
  rw [ce]
  unfold digitComp
  dsimp only
  rw [scientificExponent_eq _ _ hw1 hw2, Int.add_sub_cancel, p1]
  obtain ⟨r, er⟩ : ∃ r, (sticky f.maxDigits s).1 = r := ⟨_, rfl⟩
  obtain ⟨d, ed⟩ : ∃ d, (sticky f.maxDigits s).2 = d := ⟨_, rfl⟩
  rw [er] at p2
  rw [er, ed] at t2 t4 t5
  rw [er] at t1
  rw [ed] at t3 ⊢
  have hee : num.exponent + 18 + 1 - (d : Int) = e0 + s.length - d := by omega
  rw [hee]
  obtain ⟨e, ee⟩ : ∃ e : Int, e0 + s.length - (d : Int) = e := ⟨_, rfl⟩
  rw [ee] at t4 t5 ⊢
  have hl := hso.large
  by_cases hpos : e ≥ 0
  · rw [if_pos hpos]
    obtain ⟨k, rfl⟩ := Int.eq_ofNat_of_zero_le hpos
    rw [Int.toNat_natCast, t5 (by omega), zpow_natCast]
    have hcap : r * 10 ^ k < (2 ^ 64) ^ 62 := by
      refine lt_trans ?_ (lt_of_le_of_lt (Nat.pow_le_pow_right (by omega : 0 < 10) (by omega : d + k ≤ (f.largestPowerOfTen + 19).toNat)) hso.capPos)
      rw [Nat.pow_add]
      exact Nat.mul_lt_mul_of_pos_right t2 (Nat.pow_pos (by omega))
    have := positiveDigitComp_nearest hok p2 t1 (cap32 hcap)
    push_cast at this ⊢
    exact this
  · rw [if_neg hpos]
    have hPfin : P + 63 - f.mantissaExplicitBits < f.infinitePower := by
      by_contra hcon
      have h1 : F.val F.infBits ≤ (M : ℚ) * 2 ^ E := by
        rw [val_inf hok]
        have hM1' : (2 : ℚ) ^ (f.mantissaExplicitBits + 1) ≤ M := by exact_mod_cast M1
        calc (2 : ℚ) ^ (F.bias + 1) ≤ 2 ^ (((f.mantissaExplicitBits + 1 : Nat) : Int) + E) := zpow_le_zpow_right₀ (by norm_num) (by push_cast; omega)
          _ = 2 ^ (f.mantissaExplicitBits + 1) * 2 ^ E := by rw [zpow_add₀ (by norm_num), zpow_natCast]
          _ ≤ (M : ℚ) * 2 ^ E := mul_le_mul_of_nonneg_right hM1' (zpow2_pos E).le
      linarith
    obtain ⟨sh, b, c, U, C⟩ := round_cell hok A1 A2 hPfin
    obtain ⟨f1, f2⟩ := C.floor hok A2 hM hE lo hi
    have hz : (0 : ℚ) < 10 ^ num.exponent := by positivity
    have hwq : (10 : ℚ) ^ 18 ≤ num.mantissa := by exact_mod_cast hw1
    refine negativeDigitComp_nearest hok hso C A2 f1 f2 c1 ?_ p2 t1 ?_ (by omega) ?_ t4 ?_
    · refine lt_of_lt_of_le c2 ?_
      have h1 : (2 : ℚ) ^ (F.fracBits + 2) ≤ num.mantissa := by
        have : (2 : ℚ) ^ (F.fracBits + 2) ≤ 2 ^ 54 := pow_le_pow_right₀ (by norm_num) (by omega)
        refine le_trans this (le_trans ?_ hwq)
        norm_num
      have h2 : (10 : ℚ) ^ num.exponent ≤ num.mantissa * 10 ^ num.exponent / 2 ^ (F.fracBits + 2) := by
        rw [le_div_iff₀ (by positivity)]
        nlinarith
      linarith
    · exact lt_of_lt_of_le t2 (Nat.pow_le_pow_right (by omega) t3)
    · omega
    · rintro ⟨T, hT, hT2⟩
      have hd : d = f.maxDigits + 1 := by
        by_contra hcon
        have h1 : 10 ^ d ≤ 10 ^ f.maxDigits := Nat.pow_le_pow_right (by omega) (by omega)
        have h2 : 10 ^ f.maxDigits = 10 * 10 ^ (f.maxDigits - 1) := by
          rw [← Nat.pow_succ']
          congr 1
          have := hso.d19
          omega
        omega
      have : e + f.maxDigits = ((18 : Nat) : Int) + num.exponent := by push_cast; omega
      rw [this, zpow_add₀ (by norm_num), zpow_natCast]
      exact mul_le_mul_of_nonneg_right hwq hz.le

/-- The branch for zero gives what the others give. -/
theorem fastPath_eq {f : Fmt} {F : Ieee} (hf : IsFmt f F) (fpu : Fpu) (a : PNS) : fastPath f fpu a = FF.fastPath f fpu a := by
  have hF : F = binary32 ∨ F = binary64 := by rcases hf with ⟨-, h⟩ | ⟨-, h⟩ <;> simp [h]
  have hi : ieeeOf f = F := by rcases hf with ⟨rfl, rfl⟩ | ⟨rfl, rfl⟩ <;> decide
  have hround : ∀ x : ℚ, x = 0 → fpu.round F x = 0 := by
    intro x hx
    have h0 : F.val 0 = 0 := val_zero F
    have h := fpu.rounded F hF x hx.ge
    rw [hx] at h ⊢
    refine rounded_exact F (by rcases hF with rfl | rfl <;> decide) (mode := fpu.mode) ?_
    rw [h0]; exact h
  unfold fastPath FF.fastPath
  by_cases hm : a.mantissa = 0
  · have e : fpu.round (ieeeOf f) ((a.mantissa : ℕ) : ℚ) = 0 := by rw [hi, hm]; exact hround _ (by simp)
    have e2 : negate f a.negative 0 = if a.negative then 1 <<< f.signIndex else 0 := by unfold negate; simp
    simp only [hm, if_true]
    rw [hm] at e
    rw [e, hi, val_zero F, zero_mul, hround 0 rfl, e2]
  · simp only [hm, if_false]

theorem slowPath_nearest {f : Fmt} {F : Ieee} (hok : FmtOk f F) (hso : SlowOk f F) {a : PNS} {e : Int} (h : Handed a e) :
    F.Nearest ((digitsVal (a.integer ++ a.fraction.getD []) : ℚ) * 10 ^ e) (toFloat f false (slowPath f a)) ∧ Canon f (slowPath f a) := by
  have hmant : a.mantissa + 1 < 2 ^ 64 := by
    rcases h.cases with ⟨_, _, _, h⟩ | ⟨_, _, _, _, _, _, _, _, h⟩ <;> omega
  obtain ⟨n1, n2⟩ := computeFloat_nearest hok a.exponent a.mantissa (by omega)
  have c1 := computeFloat_canon hok a.exponent a.mantissa (by omega)
  obtain ⟨m1, m2⟩ := computeFloat_nearest hok a.exponent (a.mantissa + 1) hmant
  have d1 := computeFloat_canon hok a.exponent (a.mantissa + 1) hmant
  rcases h.cases with ⟨h1, h2, h3, h4⟩ | ⟨s, hs, h1, hlen, hsig, h2, h3, h4, h5⟩
  · have hsl : slowPath f a = computeFloat f a.exponent a.mantissa := by
      simp [slowPath, h1, not_lt.2 n2]
    rw [hsl, ← h2, ← h3]
    exact ⟨n1, c1⟩
  · rw [← digitsVal_sig, hs]
    obtain ⟨b1, b2, -, -⟩ := cut_bounds s hsig.digits 19 hlen.le e
    rw [← h2, show e + ((s.length : Int) - (19 : Nat)) = a.exponent by rw [h3]; push_cast; ring] at b1 b2
    by_cases heq : computeFloat f a.exponent a.mantissa = computeFloat f a.exponent (a.mantissa + 1)
    · have hsl : slowPath f a = computeFloat f a.exponent a.mantissa := by
        simp [slowPath, h1, n2, ← heq, not_lt.2 n2]
      rw [hsl]
      refine ⟨nearest_between F (by positivity) n1 (by rw [heq]; exact m1) b1 ?_, c1⟩
      push_cast
      exact b2.le
    · have hz : (0 : ℚ) < 10 ^ a.exponent := by positivity
      have hq1 : f.smallestPowerOfTen ≤ a.exponent := by
        by_contra hcon
        apply heq
        unfold computeFloat
        rw [if_pos (Or.inr (by omega)), if_pos (Or.inr (by omega))]
      have hq2 : a.exponent ≤ f.largestPowerOfTen := by
        by_contra hcon
        apply heq
        unfold computeFloat
        rw [if_neg (by omega), if_pos (by omega), if_neg (by omega), if_pos (by omega)]
      have hfin : (a.mantissa : ℚ) * 10 ^ a.exponent < F.val F.infBits := by
        by_contra hcon
        rw [not_lt] at hcon
        apply heq
        have i1 := nearest_unique F n1 (nearest_inf F hcon)
        have i2 := nearest_unique F m1 (nearest_inf F (by push_cast; linarith))
        rw [(c1.inf hok n1.1).2 i1, (d1.inf hok m1.1).2 i2]
      obtain ⟨A, P, M, E, ce, A1, A2, hM, hE, M1, M2, lo, hi⟩ := computeError_spec hok (q := a.exponent) (by have := hok.small; omega)
        (by have := hok.large; omega) (w := a.mantissa) (by omega) (by omega)
      have hneg : (computeError f a.exponent a.mantissa).power2 < 0 := by
        rw [ce]
        dsimp only
        unfold invalidAmBias
        have h1 := hok.bias
        have h2 := hok.emin'
        have h3 := hok.mb2
        have h4 := hok.frac
        -- the power is bounded, because the number is below infinity
        have : E ≤ 2000 := by
          by_contra hcon
          have v := val_inf hok
          have : (2 : ℚ) ^ (F.bias + 1) ≤ 2 ^ E := zpow_le_zpow_right₀ (by norm_num) (by omega)
          have hM1 : (1 : ℚ) ≤ M := by
            have := Nat.two_pow_pos (f.mantissaExplicitBits + 1)
            exact_mod_cast (by omega : 1 ≤ M)
          have := zpow2_pos E
          nlinarith
        omega
      have hsl : slowPath f a = digitComp f a (computeError f a.exponent a.mantissa) := by
        simp [slowPath, h1, n2, heq, hneg]
      rw [hsl]
      exact digitComp_nearest hok hso a e h.digits hs hlen h2 h3 hq1 hq2 hfin

theorem fromCharsPns_spec {f : Fmt} {F : Ieee} (hf : IsFmt f F) (fpu : Fpu) {a : PNS} {e : Int} (h : Handed a e) :
    ∃ b, F.Nearest ((digitsVal (a.integer ++ a.fraction.getD []) : ℚ) * 10 ^ e) b ∧
      fromCharsPns f fpu a = ⟨a.lastmatch,
        if b = F.infBits ∨ (b = 0 ∧ digitsVal (a.integer ++ a.fraction.getD []) ≠ 0) then .resultOutOfRange else .none,
        some (.bits (b + (if a.negative then F.signBit else 0)))⟩ := by
  have hok := hf.ok
  obtain ⟨K, hfo⟩ := hf.fast
  have hm := h.mantissa
  unfold fromCharsPns
  rw [fastPath_eq hf]
  cases hfp : FF.fastPath f fpu a with
  | some v =>
    obtain ⟨htm, b, hv, hn, hlt, hz⟩ := fastPath_nearest hfo fpu a hfp
    refine ⟨b, ?_, ?_⟩
    · rcases h.cases with ⟨_, h2, h3, _⟩ | ⟨s, hs, ht, _⟩
      · rw [← h2, ← h3]; exact hn
      · rw [htm] at ht; cases ht
    · dsimp only
      have hno : ¬ (b = F.infBits ∨ (b = 0 ∧ digitsVal (a.integer ++ a.fraction.getD []) ≠ 0)) := by
        rintro (h | h)
        · omega
        · exact h.2 (hm.1 (hz.1 h.1))
      rw [hv, negate_eq hok _ hlt.le, if_neg hno]
  | none =>
    obtain ⟨hn, hc⟩ := slowPath_nearest hok hf.slow h
    refine ⟨_, hn, ?_⟩
    dsimp only
    rw [toFloat_sign hok a.negative _ hn.1]
    have hzero := hc.zero
    have hinf := (hc.inf hok hn.1).1
    congr 1
    have hiff : (a.mantissa ≠ 0 ∧ (slowPath f a).mantissa = 0 ∧ (slowPath f a).power2 = 0 ∨ (slowPath f a).power2 = f.infinitePower) ↔
        (toFloat f false (slowPath f a) = F.infBits ∨ (toFloat f false (slowPath f a) = 0 ∧ digitsVal (a.integer ++ a.fraction.getD []) ≠ 0)) := by
      rw [hzero, hinf, Ne, Ne, hm]
      tauto
    simp only [hiff]

end C4.FF.L32
