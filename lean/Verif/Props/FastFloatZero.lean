import Verif.Props.FastFloatBigCap
import Verif.Props.FastFloat32
/-
C149 and C158 for the number zero, which the theorems on what fits leave out.
-/
namespace C4
open Spec FF

theorem norm_zero {v : List Nat} (hn : Norm v) (h : limbsVal v = 0) : v = [] := by
  induction v with
  | nil => rfl
  | cons a v ih =>
    simp only [limbsVal] at h
    have ha : a = 0 := by omega
    have hv : limbsVal v = 0 := by omega
    cases v with
    | nil => exact absurd (by simp [ha]) hn
    | cons b v =>
      have := ih (by simpa [Norm] using hn) hv
      cases this

theorem shl_nil (e : Nat) : (shl [] e).1 = [] ∧ ((shl [] e).2 = true ↔ e < 4032) := by
  have h62 : bigintLimbs = 62 := by decide
  unfold shl shlBits shlBitsLoop shlLimbs
  simp only [h62]
  by_cases h : e / 64 > 62
  · have h0 : ¬ e / 64 = 0 := by omega
    by_cases h1 : e % 64 = 0
    · simp only [h1, h0, ne_eq, not_true_eq_false, if_false, Bool.not_true, Bool.false_eq_true, not_false_eq_true, if_true,
        List.length_nil, Nat.add_zero, h]
      simp; omega
    · simp only [h1, h0, ne_eq, not_true_eq_false, if_false, Bool.not_true, Bool.false_eq_true, not_false_eq_true, if_true,
        List.length_nil, Nat.add_zero, h, Nat.zero_shiftRight]
      simp; omega
  · by_cases h1 : e % 64 ≠ 0
    · simp [h1, h]; omega
    · simp [h1, h]; omega

/-- C149 for zero: a product with a zero limb always fits and is zero. Zero times a power of five always fits; times a power of two or of
ten it is reported as not fitting, although it is zero, exactly if the exponent is 4032 or more (63 limbs of shift). -/
theorem C149_zero :
    (∀ v, Limbs v → (smallMul v 0).2 = true ∧ limbsVal (smallMul v 0).1 = 0) ∧
    (∀ v, Norm v → limbsVal v = 0 → v = []) ∧
    (∀ e, (pow5 [] e).2 = true ∧ (pow5 [] e).1 = []) ∧
    (∀ e, (shl [] e).1 = [] ∧ ((shl [] e).2 = true ↔ e < 4032)) ∧
    (∀ e, (pow10 [] e).1 = [] ∧ ((pow10 [] e).2 = true ↔ e < 4032)) := by
  have h5 : ∀ e, (pow5 [] e).2 = true ∧ (pow5 [] e).1 = [] := by
    intro e
    have h := (C112_powers [] (by simp [Limbs]) (by simp [Norm]) e).1 (by simp [limbsVal])
    exact ⟨h.1, norm_zero h.2.2.1 (by rw [h.2.2.2]; simp [limbsVal])⟩
  refine ⟨fun v hl => ?_, fun v => norm_zero, h5, shl_nil, fun e => ?_⟩
  · have h := smallMulLoop_spec 0 (by omega) v 0 hl (by omega)
    have hs := h.2.2.2
    simp only [Nat.mul_zero, Nat.add_zero] at hs
    have hp : 0 < (2 ^ 64) ^ v.length := Nat.pow_pos (by omega)
    have hz : limbsVal (smallMulLoop 0 v 0).1 = 0 := by omega
    have hm : (2 ^ 64) ^ v.length * (smallMulLoop 0 v 0).2 = 0 := by omega
    have hc : (smallMulLoop 0 v 0).2 = 0 := by
      rcases Nat.mul_eq_zero.mp hm with h | h
      · omega
      · exact h
    simp only [smallMul, hc]
    exact ⟨rfl, hz⟩
  · have he : pow10 [] e = shl [] e := by
      unfold pow10
      rw [show pow5 [] e = ([], true) from Prod.ext (h5 e).2 (h5 e).1]
      rfl
    rw [he]
    exact shl_nil e

example : (shl [] 4031).2 = true ∧ (shl [] 4032).2 = false ∧ (pow10 [] 5000).2 = false ∧ smallMul [7, 9] 0 = ([0, 0], true) := by
  decide +kernel

end C4

namespace C4.FF.L32
open Spec (Norm)
open Spec.L32

theorem norm_zero {v : List Nat} (hn : Norm v) (h : limbsVal v = 0) : v = [] := by
  induction v with
  | nil => rfl
  | cons a v ih =>
    simp only [limbsVal] at h
    have ha : a = 0 := by omega
    have hv : limbsVal v = 0 := by omega
    cases v with
    | nil => exact absurd (by simp [ha]) hn
    | cons b v =>
      have := ih (by simpa [Norm] using hn) hv
      cases this

theorem shl_nil (e : Nat) : (shl [] e).1 = [] ∧ ((shl [] e).2 = true ↔ e < 4032) := by
  have h62 : bigintLimbs = 125 := by decide
  unfold shl shlBits shlBitsLoop shlLimbs
  simp only [h62]
  by_cases h : e / 32 > 125
  · have h0 : ¬ e / 32 = 0 := by omega
    by_cases h1 : e % 32 = 0
    · simp only [h1, h0, ne_eq, not_true_eq_false, if_false, Bool.not_true, Bool.false_eq_true, not_false_eq_true, if_true,
        List.length_nil, Nat.add_zero, h]
      simp; omega
    · simp only [h1, h0, ne_eq, not_true_eq_false, if_false, Bool.not_true, Bool.false_eq_true, not_false_eq_true, if_true,
        List.length_nil, Nat.add_zero, h, Nat.zero_shiftRight]
      simp; omega
  · by_cases h1 : e % 32 ≠ 0
    · simp [h1, h]; omega
    · simp [h1, h]; omega

/-- C158 for zero: as `C149_zero`, with the same bound on the exponent (126 limbs of shift). -/
theorem C158_zero :
    (∀ v, Limbs v → (smallMul v 0).2 = true ∧ limbsVal (smallMul v 0).1 = 0) ∧
    (∀ v, Norm v → limbsVal v = 0 → v = []) ∧
    (∀ e, (pow5 [] e).2 = true ∧ (pow5 [] e).1 = []) ∧
    (∀ e, (shl [] e).1 = [] ∧ ((shl [] e).2 = true ↔ e < 4032)) ∧
    (∀ e, (pow10 [] e).1 = [] ∧ ((pow10 [] e).2 = true ↔ e < 4032)) := by
  have h5 : ∀ e, (pow5 [] e).2 = true ∧ (pow5 [] e).1 = [] := by
    intro e
    have h := (C158_powers [] (by simp [Limbs]) (by simp [Norm]) e).1 (by simp [limbsVal])
    exact ⟨h.1, norm_zero h.2.2.1 (by rw [h.2.2.2]; simp [limbsVal])⟩
  refine ⟨fun v hl => ?_, fun v => norm_zero, h5, shl_nil, fun e => ?_⟩
  · have h := smallMulLoop_spec 0 (by omega) v 0 hl (by omega)
    have hs := h.2.2.2
    simp only [Nat.mul_zero, Nat.add_zero] at hs
    have hp : 0 < (2 ^ 32) ^ v.length := Nat.pow_pos (by omega)
    have hz : limbsVal (smallMulLoop 0 v 0).1 = 0 := by omega
    have hm : (2 ^ 32) ^ v.length * (smallMulLoop 0 v 0).2 = 0 := by omega
    have hc : (smallMulLoop 0 v 0).2 = 0 := by
      rcases Nat.mul_eq_zero.mp hm with h | h
      · omega
      · exact h
    simp only [smallMul, hc]
    exact ⟨rfl, hz⟩
  · have he : pow10 [] e = shl [] e := by
      unfold pow10
      rw [show pow5 [] e = ([], true) from Prod.ext (h5 e).2 (h5 e).1]
      rfl
    rw [he]
    exact shl_nil e

example : (shl [] 4031).2 = true ∧ (shl [] 4032).2 = false ∧ (pow10 [] 5000).2 = false ∧ smallMul [7, 9] 0 = ([0, 0], true) := by
  decide +kernel

end C4.FF.L32
