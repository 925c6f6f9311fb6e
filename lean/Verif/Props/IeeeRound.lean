import Verif.Spec.Ieee
import Mathlib.Tactic.Ring
import Mathlib.Tactic.Linarith
import Mathlib.Tactic.FieldSimp
import Mathlib.Tactic.Positivity
import Mathlib.Order.Monotone.Basic
/-
Lemmas on rounding to the nearest floating point number (used for C108 to C113).
-/
namespace C4
open Spec

theorem zpow2_pos (k : ℤ) : (0 : ℚ) < 2 ^ k := by positivity

theorem val_eq (F : Ieee) (p m : Nat) (h : m ≤ 2 ^ (F.fracBits + 1)) (h' : 2 ^ F.fracBits ≤ m ∨ p = 0) :
    F.val (p * 2 ^ F.fracBits + m) = m * 2 ^ ((p : ℤ) + 1 - F.bias - F.fracBits) := by
  have hpos := Nat.two_pow_pos F.fracBits
  rw [Nat.pow_succ] at h
  by_cases h1 : m < 2 ^ F.fracBits
  · rcases h' with h' | rfl
    · omega
    · unfold Ieee.val
      simp [Nat.div_eq_of_lt h1, Nat.mod_eq_of_lt h1]
  · by_cases h2 : m < 2 * 2 ^ F.fracBits
    · obtain ⟨r, rfl⟩ : ∃ r, m = 2 ^ F.fracBits + r := ⟨m - 2 ^ F.fracBits, by omega⟩
      have hr : r < 2 ^ F.fracBits := by omega
      have e1 : p * 2 ^ F.fracBits + (2 ^ F.fracBits + r) = r + 2 ^ F.fracBits * (p + 1) := by ring
      unfold Ieee.val
      rw [e1]
      simp only [Nat.add_mul_div_left _ _ hpos, Nat.div_eq_of_lt hr, Nat.add_mul_mod_self_left, Nat.mod_eq_of_lt hr]
      rw [if_neg (by omega)]
      push_cast
      simp
    · have e2 : m = 2 * 2 ^ F.fracBits := by omega
      subst e2
      have e1 : p * 2 ^ F.fracBits + 2 * 2 ^ F.fracBits = 0 + 2 ^ F.fracBits * (p + 2) := by ring
      unfold Ieee.val
      rw [e1]
      simp only [Nat.add_mul_div_left _ _ hpos, Nat.zero_div, Nat.add_mul_mod_self_left, Nat.zero_mod]
      rw [if_neg (by omega)]
      have : ((0 + (p + 2) : ℕ) : ℤ) - F.bias - F.fracBits = ((p : ℤ) + 1 - F.bias - F.fracBits) + 1 := by push_cast; ring
      rw [this, zpow_add_one₀ (by norm_num)]
      push_cast
      ring

/-- The position of a number in the format. -/
theorem bits_split (F : Ieee) (b : Nat) : ∃ p m, b = p * 2 ^ F.fracBits + m ∧ m < 2 ^ (F.fracBits + 1) ∧ (2 ^ F.fracBits ≤ m ∨ p = 0) := by
  have hpos := Nat.two_pow_pos F.fracBits
  have hd := Nat.div_add_mod b (2 ^ F.fracBits)
  have hm := Nat.mod_lt b hpos
  rw [Nat.pow_succ]
  by_cases h : b / 2 ^ F.fracBits = 0
  · have hb : b < 2 ^ F.fracBits := (Nat.div_eq_zero_iff_lt hpos).mp h
    exact ⟨0, b, by omega, by omega, Or.inr rfl⟩
  · obtain ⟨k, hk⟩ : ∃ k, b / 2 ^ F.fracBits = k + 1 := Nat.exists_eq_succ_of_ne_zero h
    refine ⟨k, 2 ^ F.fracBits + b % 2 ^ F.fracBits, ?_, by omega, by omega⟩
    rw [hk] at hd
    have : 2 ^ F.fracBits * (k + 1) = k * 2 ^ F.fracBits + 2 ^ F.fracBits := by ring
    omega

theorem val_lt_succ (F : Ieee) (b : Nat) : F.val b < F.val (b + 1) := by
  obtain ⟨p, m, rfl, hm, hp⟩ := bits_split F b
  rw [Nat.add_assoc, val_eq F p m (by omega) hp, val_eq F p (m + 1) (by omega) (by omega)]
  have := zpow2_pos ((p : ℤ) + 1 - F.bias - F.fracBits)
  push_cast
  nlinarith

theorem val_strictMono (F : Ieee) : StrictMono F.val := strictMono_nat_of_lt_succ (val_lt_succ F)

theorem val_zero (F : Ieee) : F.val 0 = 0 := by
  have := val_eq F 0 0 (Nat.zero_le _) (Or.inr rfl)
  simpa using this

theorem val_nonneg (F : Ieee) (b : Nat) : 0 ≤ F.val b := by
  rw [← val_zero F]; exact (val_strictMono F).monotone (Nat.zero_le b)

theorem nearest_down (F : Ieee) {x : ℚ} {b : Nat} (hb : b + 1 ≤ F.infBits) (h1 : F.val b ≤ x)
    (h2 : 2 * x < F.val b + F.val (b + 1) ∨ (2 * x = F.val b + F.val (b + 1) ∧ b % 2 = 0)) : F.Nearest x b := by
  refine ⟨by omega, fun c _ hcb => ?_⟩
  have hs := val_lt_succ F b
  rw [abs_of_nonneg (by linarith : 0 ≤ x - F.val b)]
  rcases Nat.lt_or_ge c b with h | h
  · have hc := val_strictMono F h
    left
    rw [abs_of_nonneg (by linarith : 0 ≤ x - F.val c)]
    linarith
  · have hc : F.val (b + 1) ≤ F.val c := (val_strictMono F).monotone (by omega)
    have h3 : x ≤ F.val c := by rcases h2 with h2 | h2 <;> linarith [h2]
    rw [abs_of_nonpos (by linarith : x - F.val c ≤ 0)]
    rcases h2 with h2 | ⟨h2, he⟩
    · left; linarith
    · by_cases hcc : c = b + 1
      · subst hcc; right; exact ⟨by linarith, he⟩
      · have hc' : F.val (b + 1) < F.val c := val_strictMono F (by omega)
        left; linarith

theorem nearest_up (F : Ieee) {x : ℚ} {b : Nat} (hb : b + 1 ≤ F.infBits) (h1 : x ≤ F.val (b + 1))
    (h2 : F.val b + F.val (b + 1) < 2 * x ∨ (2 * x = F.val b + F.val (b + 1) ∧ b % 2 = 1)) : F.Nearest x (b + 1) := by
  refine ⟨by omega, fun c _ hcb => ?_⟩
  have hs := val_lt_succ F b
  rw [abs_of_nonpos (by linarith : x - F.val (b + 1) ≤ 0)]
  rcases Nat.lt_or_ge (b + 1) c with h | h
  · have hc := val_strictMono F h
    left
    rw [abs_of_nonpos (by linarith : x - F.val c ≤ 0)]
    linarith
  · have hc : F.val c ≤ F.val b := (val_strictMono F).monotone (by omega)
    have h3 : F.val c ≤ x := by rcases h2 with h2 | h2 <;> linarith [h2]
    rw [abs_of_nonneg (by linarith : 0 ≤ x - F.val c)]
    rcases h2 with h2 | ⟨h2, he⟩
    · left; linarith
    · by_cases hcc : c = b
      · subst hcc; right; exact ⟨by linarith, by omega⟩
      · have hc' : F.val c < F.val b := val_strictMono F (by omega)
        left; linarith

theorem nearest_inf (F : Ieee) {x : ℚ} (h : F.val F.infBits ≤ x) : F.Nearest x F.infBits := by
  refine ⟨le_refl _, fun c hc hne => Or.inl ?_⟩
  have : F.val c < F.val F.infBits := val_strictMono F (by omega)
  rw [abs_of_nonneg (by linarith : 0 ≤ x - F.val F.infBits), abs_of_nonneg (by linarith : 0 ≤ x - F.val c)]
  linarith

/-- Rounding decides between the two floating point numbers around `x`: there is exactly one nearest. -/
theorem nearest_unique (F : Ieee) {x : ℚ} {b c : Nat} (hb : F.Nearest x b) (hc : F.Nearest x c) : b = c := by
  by_contra hne
  have h1 := hb.2 c hc.1 (Ne.symm hne)
  have h2 := hc.2 b hb.1 hne
  have hb2 : b % 2 = 0 := by
    rcases h1 with h1 | h1
    · rcases h2 with h2 | h2
      · exact absurd h1 (not_lt.mpr h2.le)
      · exact absurd h1 (by rw [h2.1]; exact lt_irrefl _)
    · exact h1.2
  have hc2 : c % 2 = 0 := by
    rcases h2 with h2 | h2
    · rcases h1 with h1 | h1
      · exact absurd h2 (not_lt.mpr h1.le)
      · exact absurd h2 (by rw [h1.1]; exact lt_irrefl _)
    · exact h2.2
  have heq : |x - F.val b| = |x - F.val c| := by
    rcases h1 with h1 | h1
    · rcases h2 with h2 | h2
      · exact absurd h1 (not_lt.mpr h2.le)
      · exact h2.1.symm
    · exact h1.1
  -- a number between two even ones is nearer
  wlog hlt : b < c generalizing b c
  · exact this hc hb (Ne.symm hne) h2 h1 hc2 hb2 heq.symm (by omega)
  have hd := hb.2 (b + 1) (by have := hc.1; omega) (by omega)
  have v1 := val_lt_succ F b
  have v2 : F.val (b + 1) < F.val c := val_strictMono F (by omega)
  have key : |x - F.val (b + 1)| < |x - F.val b| := by
    rcases le_total x (F.val b) with h | h
    · exfalso
      rw [abs_of_nonpos (by linarith : x - F.val b ≤ 0), abs_of_nonpos (by linarith : x - F.val c ≤ 0)] at heq
      linarith
    · rcases le_total (F.val c) x with h' | h'
      · exfalso
        rw [abs_of_nonneg (by linarith : 0 ≤ x - F.val b), abs_of_nonneg (by linarith : 0 ≤ x - F.val c)] at heq
        linarith
      · have heq' := heq
        rw [abs_of_nonneg (by linarith : 0 ≤ x - F.val b), abs_of_nonpos (by linarith : x - F.val c ≤ 0)] at heq'
        rw [abs_of_nonneg (by linarith : 0 ≤ x - F.val b)]
        rw [abs_lt]
        constructor <;> linarith
  rcases hd with hd | hd
  · linarith
  · linarith [hd.1]

/-- Rounding the number whose bits above the last half unit are `M`. -/
theorem nearest_of_floor (F : Ieee) {x : ℚ} {p M r : Nat}
    (h1 : (M : ℚ) * 2 ^ ((p : ℤ) - F.bias - F.fracBits) ≤ x) (h2 : x < ((M : ℚ) + 1) * 2 ^ ((p : ℤ) - F.bias - F.fracBits))
    (hM : M < 2 ^ (F.fracBits + 2)) (hp : 2 ^ (F.fracBits + 1) ≤ M ∨ p = 0) (hi : p * 2 ^ F.fracBits + M / 2 + 1 ≤ F.infBits)
    (hbig : 0 < F.fracBits)
    (hr : (M % 2 = 0 ∧ r = M / 2) ∨ (M % 2 = 1 ∧ r = M / 2 + 1 ∧ (M % 4 = 3 ∨ x ≠ (M : ℚ) * 2 ^ ((p : ℤ) - F.bias - F.fracBits))) ∨
      (M % 4 = 1 ∧ r = M / 2 ∧ x = (M : ℚ) * 2 ^ ((p : ℤ) - F.bias - F.fracBits))) :
    F.Nearest x (p * 2 ^ F.fracBits + r) := by
  obtain ⟨m, hm⟩ : ∃ m, M / 2 = m := ⟨_, rfl⟩
  have hpos := Nat.two_pow_pos F.fracBits
  have hM' : m < 2 ^ (F.fracBits + 1) := by simp only [Nat.pow_succ] at hM ⊢; omega
  have hp' : 2 ^ F.fracBits ≤ m ∨ p = 0 := by
    rcases hp with hp | hp
    · left; simp only [Nat.pow_succ] at hp ⊢; omega
    · exact Or.inr hp
  have v0 := val_eq F p m (by omega) hp'
  have v1 := val_eq F p (m + 1) (by omega) (by omega)
  have hu := zpow2_pos ((p : ℤ) - F.bias - F.fracBits)
  have hz : (2 : ℚ) ^ ((p : ℤ) + 1 - F.bias - F.fracBits) = 2 * 2 ^ ((p : ℤ) - F.bias - F.fracBits) := by
    have : (p : ℤ) + 1 - F.bias - F.fracBits = ((p : ℤ) - F.bias - F.fracBits) + 1 := by ring
    rw [this, zpow_add_one₀ (by norm_num)]; ring
  rw [hz] at v0 v1
  generalize (2 : ℚ) ^ ((p : ℤ) - F.bias - F.fracBits) = u at *
  push_cast at v1
  have hpar : (p * 2 ^ F.fracBits + m) % 2 = m % 2 := by
    obtain ⟨k, hk⟩ : ∃ k, F.fracBits = k + 1 := ⟨F.fracBits - 1, by omega⟩
    rw [hk, Nat.pow_succ, ← Nat.mul_assoc]
    omega
  rw [hm] at hi
  rcases hr with ⟨hmod, rfl⟩ | ⟨hmod, rfl, hc⟩ | ⟨hmod, rfl, hc⟩
  · have e : (M : ℚ) = 2 * m := by have : M = 2 * m := by omega
                                   rw [this]; push_cast; ring
    rw [e] at h1 h2
    rw [hm]
    refine nearest_down F hi (by rw [v0]; linarith) (Or.inl ?_)
    rw [Nat.add_assoc, v0, v1]
    nlinarith
  · have e : (M : ℚ) = 2 * m + 1 := by have : M = 2 * m + 1 := by omega
                                       rw [this]; push_cast; ring
    rw [hm, ← Nat.add_assoc]
    refine nearest_up F hi (by rw [Nat.add_assoc, v1]; rw [e] at h2; nlinarith) ?_
    rw [Nat.add_assoc, v0, v1, hpar]
    rw [e] at h1 hc
    rcases hc with hc | hc
    · rcases lt_or_eq_of_le h1 with h | h
      · left; nlinarith
      · right; exact ⟨by rw [← h]; ring, by omega⟩
    · left
      have := lt_of_le_of_ne h1 (Ne.symm hc)
      nlinarith
  · have e : (M : ℚ) = 2 * m + 1 := by have : M = 2 * m + 1 := by omega
                                       rw [this]; push_cast; ring
    rw [hm]
    rw [e] at h1 hc
    refine nearest_down F hi (by rw [v0]; nlinarith) (Or.inr ?_)
    rw [Nat.add_assoc, v0, v1, hpar]
    exact ⟨by rw [hc]; ring, by omega⟩

/-- Rounding keeps the order. -/
theorem nearest_mono (F : Ieee) {x y : ℚ} {b c : Nat} (hb : F.Nearest x b) (hc : F.Nearest y c) (h : x ≤ y) : b ≤ c := by
  rcases eq_or_lt_of_le h with rfl | h
  · exact (nearest_unique F hb hc).le
  by_contra hlt
  have hv : F.val c < F.val b := val_strictMono F (by omega)
  have h1 : |x - F.val b| ≤ |x - F.val c| := by
    rcases hb.2 c hc.1 (by omega) with h | h
    · exact h.le
    · exact h.1.le
  have h2 : |y - F.val c| ≤ |y - F.val b| := by
    rcases hc.2 b hb.1 (by omega) with h | h
    · exact h.le
    · exact h.1.le
  rw [← sq_le_sq] at h1 h2
  nlinarith

end C4
