import Verif.Props.IeeeRound
import Verif.Spec.Fpu
/-
Rounding exists in every direction, and does not change a number of the format.
-/
namespace C4
open Spec

/-- The floating point numbers around a number. -/
theorem val_around (F : Ieee) {x : ℚ} (h0 : 0 ≤ x) (h : x < F.val F.infBits) : ∃ b, b + 1 ≤ F.infBits ∧ F.val b ≤ x ∧ x < F.val (b + 1) := by
  have hex : ∃ b, x < F.val (b + 1) := by
    refine ⟨F.infBits, lt_trans h (val_lt_succ F _)⟩
  have h1 := Nat.find_spec hex
  obtain ⟨b, hb⟩ : ∃ b, Nat.find hex = b := ⟨_, rfl⟩
  rw [hb] at h1
  have h2 : F.val b ≤ x := by
    cases b with
    | zero => rw [val_zero]; exact h0
    | succ k => exact not_lt.mp (Nat.find_min hex (m := k) (by omega))
  refine ⟨b, ?_, h2, h1⟩
  by_contra hcon
  have := (val_strictMono F).monotone (by omega : F.infBits ≤ b)
  linarith

theorem nearest_exists (F : Ieee) {x : ℚ} (h0 : 0 ≤ x) : ∃ b, F.Nearest x b := by
  by_cases h : x < F.val F.infBits
  · obtain ⟨b, b1, b2, b3⟩ := val_around F h0 h
    rcases lt_trichotomy (2 * x) (F.val b + F.val (b + 1)) with h | h | h
    · exact ⟨b, nearest_down F b1 b2 (Or.inl h)⟩
    · by_cases hp : b % 2 = 0
      · exact ⟨b, nearest_down F b1 b2 (Or.inr ⟨h, hp⟩)⟩
      · exact ⟨b + 1, nearest_up F b1 b3.le (Or.inr ⟨h, by omega⟩)⟩
    · exact ⟨b + 1, nearest_up F b1 b3.le (Or.inl h)⟩
  · exact ⟨_, nearest_inf F (not_lt.mp h)⟩

/-- What lies between two numbers that are rounded to the same is rounded to it as well. -/
theorem nearest_between (F : Ieee) {x y z : ℚ} {b : Nat} (h0 : 0 ≤ x) (hy : F.Nearest y b) (hz : F.Nearest z b) (h1 : y ≤ x) (h2 : x ≤ z) : F.Nearest x b := by
  obtain ⟨c, hc⟩ := nearest_exists F h0
  have a := nearest_mono F hy hc h1
  have b' := nearest_mono F hc hz h2
  rwa [show c = b by omega] at hc

theorem nearest_self (F : Ieee) {b : Nat} (h : b ≤ F.infBits) : F.Nearest (F.val b) b := by
  refine ⟨h, fun c _ hc => Or.inl ?_⟩
  rw [sub_self, abs_zero, abs_pos, sub_ne_zero]
  exact fun h => hc ((val_strictMono F).injective h).symm

theorem rounded_exact (F : Ieee) {mode : Mode} {b c : Nat} (hb : b < F.infBits) (h : F.Rounded mode (F.val b) c) : c = b := by
  have mono := val_strictMono F
  cases mode with
  | nearest => exact nearest_unique F h (nearest_self F hb.le)
  | up =>
    obtain ⟨h1, h2, h3⟩ := h
    have hcb : c ≤ b := by
      by_contra hcon
      exact lt_irrefl _ (h3 b (by omega))
    rcases h2 with h2 | h2
    · have := mono.le_iff_le.mp h2; omega
    · omega
  | down =>
    obtain ⟨h1, h2, h3⟩ := h
    have := mono.le_iff_le.mp h2
    have := h3 b hb (le_refl _)
    omega
  | zero =>
    obtain ⟨h1, h2, h3⟩ := h
    have := mono.le_iff_le.mp h2
    have := h3 b hb (le_refl _)
    omega

theorem rounded_exists (F : Ieee) (hF : 0 < F.infBits) (mode : Mode) {x : ℚ} (h0 : 0 ≤ x) : ∃ b, F.Rounded mode x b := by
  have mono := val_strictMono F
  have hdown : ∃ b, b < F.infBits ∧ F.val b ≤ x ∧ ∀ c < F.infBits, F.val c ≤ x → c ≤ b := by
    by_cases h : x < F.val F.infBits
    · obtain ⟨b, b1, b2, b3⟩ := val_around F h0 h
      refine ⟨b, by omega, b2, fun c _ hc => ?_⟩
      have := mono.lt_iff_lt.mp (lt_of_le_of_lt hc b3)
      omega
    · refine ⟨F.infBits - 1, by omega, ?_, fun c hc _ => by omega⟩
      have := mono (by omega : F.infBits - 1 < F.infBits)
      linarith
  cases mode with
  | nearest => exact nearest_exists F h0
  | down => exact hdown
  | zero => exact hdown
  | up =>
    by_cases h : x < F.val F.infBits
    · obtain ⟨b, b1, b2, b3⟩ := val_around F h0 h
      rcases eq_or_lt_of_le b2 with e | hlt
      · exact ⟨b, by omega, Or.inl e.symm.le, fun c hc => lt_of_lt_of_le (mono hc) b2⟩
      · refine ⟨b + 1, b1, Or.inl b3.le, fun c hc => lt_of_le_of_lt (mono.monotone (by omega : c ≤ b)) hlt⟩
    · refine ⟨F.infBits, le_refl _, Or.inr rfl, fun c hc => ?_⟩
      have := mono hc
      linarith

/-- There is a floating point unit for every rounding direction. -/
theorem fpu_exists (mode : Mode) : ∃ fpu : Fpu, fpu.mode = mode := by
  have hex : ∀ F : Ieee, ∀ x : ℚ, ∃ b, F = binary32 ∨ F = binary64 → 0 ≤ x → F.Rounded mode x b := by
    intro F x
    by_cases h : (F = binary32 ∨ F = binary64) ∧ 0 ≤ x
    · have hF : 0 < F.infBits := by rcases h.1 with rfl | rfl <;> decide
      obtain ⟨b, hb⟩ := rounded_exists F hF mode h.2
      exact ⟨b, fun _ _ => hb⟩
    · exact ⟨0, fun h1 h2 => absurd ⟨h1, h2⟩ h⟩
  choose g hg using hex
  exact ⟨⟨mode, g, fun F hF x hx => hg F x hF hx⟩, rfl⟩

/-- Integers of one bit more than the fraction, times a power of two, are numbers of the format. -/
theorem val_of_int (F : Ieee) (hb : F.bias = 2 ^ (F.expBits - 1) - 1) (h2 : 2 ≤ F.expBits) (n : Nat) (hn : n ≤ 2 ^ (F.fracBits + 1)) (j : Int) (h1 : 1 - F.bias ≤ j)
    (hj : F.fracBits + j < F.bias) : ∃ b, b < F.infBits ∧ F.val b = (n : ℚ) * 2 ^ j := by
  have hinf : F.infBits = (2 * F.bias + 1).toNat * 2 ^ F.fracBits := by
    unfold Ieee.infBits
    congr 1
    obtain ⟨k, hk⟩ : ∃ k, F.expBits = k + 1 := ⟨F.expBits - 1, by omega⟩
    rw [hb, hk, Nat.add_sub_cancel]
    have : (2 : Int) ^ k = ((2 ^ k : Nat) : Int) := by push_cast; rfl
    rw [this, Nat.pow_succ]
    have := Nat.two_pow_pos k
    omega
  have hpos := Nat.two_pow_pos F.fracBits
  rcases Nat.eq_zero_or_pos n with rfl | hn0
  · refine ⟨0, ?_, by rw [val_zero]; simp⟩
    rw [hinf]
    exact Nat.mul_pos (by omega) hpos
  · -- the position of the highest bit
    have hlog := Nat.log2_self_le hn0.ne'
    have hlog2 := Nat.lt_log2_self (n := n)
    obtain ⟨k, hk⟩ : ∃ k, Nat.log2 n = k := ⟨_, rfl⟩
    rw [hk] at hlog hlog2
    by_cases hkm : k ≤ F.fracBits
    · obtain ⟨p, hp⟩ : ∃ p : Nat, F.bias - 1 + k + j = (p : Int) := ⟨(F.bias - 1 + k + j).toNat, by omega⟩
      have e1 : 2 ^ F.fracBits = 2 ^ k * 2 ^ (F.fracBits - k) := by rw [← Nat.pow_add]; congr 1; omega
      have e2 : 2 ^ (F.fracBits + 1) = 2 ^ (k + 1) * 2 ^ (F.fracBits - k) := by rw [← Nat.pow_add]; congr 1; omega
      have m1 : 2 ^ F.fracBits ≤ n * 2 ^ (F.fracBits - k) := by rw [e1]; exact Nat.mul_le_mul_right _ hlog
      have m2 : n * 2 ^ (F.fracBits - k) < 2 ^ (F.fracBits + 1) := by rw [e2]; exact Nat.mul_lt_mul_of_pos_right hlog2 (Nat.two_pow_pos _)
      refine ⟨p * 2 ^ F.fracBits + n * 2 ^ (F.fracBits - k), ?_, ?_⟩
      · rw [hinf]
        have : (p + 2) * 2 ^ F.fracBits ≤ (2 * F.bias + 1).toNat * 2 ^ F.fracBits := Nat.mul_le_mul_right _ (by omega)
        rw [Nat.add_mul] at this
        rw [Nat.pow_succ] at m2
        omega
      · rw [val_eq F p _ m2.le (Or.inl m1)]
        push_cast
        rw [mul_assoc, ← zpow_natCast, ← zpow_add₀ (by norm_num)]
        congr 2
        omega
    · have hke : k = F.fracBits + 1 := by
        have : 2 ^ k ≤ 2 ^ (F.fracBits + 1) := le_trans hlog hn
        have := (Nat.pow_le_pow_iff_right (by omega : 1 < 2)).mp this
        omega
      have hne : n = 2 ^ (F.fracBits + 1) := by rw [hke] at hlog; omega
      obtain ⟨p, hp⟩ : ∃ p : Nat, F.bias - 1 + F.fracBits + j = (p : Int) := ⟨(F.bias - 1 + F.fracBits + j).toNat, by omega⟩
      refine ⟨p * 2 ^ F.fracBits + n, ?_, ?_⟩
      · rw [hinf, hne, Nat.pow_succ]
        have : (p + 3) * 2 ^ F.fracBits ≤ (2 * F.bias + 1).toNat * 2 ^ F.fracBits := Nat.mul_le_mul_right _ (by omega)
        rw [Nat.add_mul] at this
        omega
      · rw [val_eq F p n hn (Or.inl (by rw [hne, Nat.pow_succ]; omega))]
        congr 2
        omega

end C4
