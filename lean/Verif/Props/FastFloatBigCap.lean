import Verif.Props.FFBigCap
import Verif.Props.FastFloatBig
/-
C149: the big numbers of fast_float keep within their memory, and say so when a result does not fit.
-/
namespace C4
open Spec FF

/-- C149: whatever the limbs of a number within its memory are (zeros on top included), no operation gives more limbs than the memory has, and the value
is exact if the operation says that it went well. -/
theorem C149_memory (v : List Nat) (hl : Limbs v) (h62 : v.length ≤ 62) :
    (∀ y, y < 2 ^ 64 → (smallMul v y).1.length ≤ 62 ∧ ((smallMul v y).2 = true → limbsVal (smallMul v y).1 = limbsVal v * y)) ∧
    (∀ y, y < 2 ^ 64 → (smallAddFrom v y 0).1.length ≤ 62 ∧ ((smallAddFrom v y 0).2 = true → limbsVal (smallAddFrom v y 0).1 = limbsVal v + y)) ∧
    (∀ w, Limbs w → w ≠ [] → (largeMul v w).1.length ≤ 62 ∧ ((largeMul v w).2 = true → limbsVal (largeMul v w).1 = limbsVal v * limbsVal w)) ∧
    (∀ e, (shl v e).1.length ≤ 62 ∧ ((shl v e).2 = true → limbsVal (shl v e).1 = limbsVal v * 2 ^ e)) ∧
    (∀ e, (pow5 v e).1.length ≤ 62 ∧ ((pow5 v e).2 = true → limbsVal (pow5 v e).1 = limbsVal v * 5 ^ e)) ∧
    (∀ e, (pow10 v e).1.length ≤ 62 ∧ ((pow10 v e).2 = true → limbsVal (pow10 v e).1 = limbsVal v * 10 ^ e)) := by
  refine ⟨fun y hy => ?_, fun y hy => ?_, fun w hw hne => ?_, fun e => ?_, fun e => ?_, fun e => ?_⟩
  · have h := smallMul_cap hl h62 hy; exact ⟨h.len, h.exact⟩
  · have h := smallAddFrom_cap hl h62 hy (Nat.zero_le _)
    rw [Nat.pow_zero, Nat.one_mul] at h
    exact ⟨h.len, h.exact⟩
  · have h := largeMul_cap hl h62 hw hne; exact ⟨h.len, h.exact⟩
  · have h := shl_cap hl h62 e; exact ⟨h.len, h.exact⟩
  · have h := pow5_cap hl h62 e; exact ⟨h.len, h.exact⟩
  · have h := pow10_cap hl h62 e; exact ⟨h.len, h.exact⟩

example : (smallMul (List.replicate 62 (2 ^ 64 - 1)) 2).1.length = 62 ∧ (smallMul (List.replicate 62 (2 ^ 64 - 1)) 2).2 = false ∧
    (pow5 [1, 0, 0] 100).2 = true ∧ limbsVal (pow5 [1, 0, 0] 100).1 = 5 ^ 100 := by decide +kernel

/-- C149: without zeros on top, an operation goes well exactly if the result is less than 2^3968, the first number that needs one limb more. -/
theorem C149_fits (v : List Nat) (hl : Limbs v) (hn : Norm v) (h62 : v.length ≤ 62) :
    (∀ y, 0 < y → y < 2 ^ 64 → ((smallMul v y).2 = true ↔ limbsVal v * y < 2 ^ 3968)) ∧
    (∀ y, y < 2 ^ 64 → ((smallAddFrom v y 0).2 = true ↔ limbsVal v + y < 2 ^ 3968)) ∧
    (∀ w, Limbs w → 0 < limbsVal w → w.length ≤ 62 → ((largeMul v w).2 = true ↔ limbsVal v * limbsVal w < 2 ^ 3968)) ∧
    (0 < limbsVal v → ∀ e, ((shl v e).2 = true ↔ limbsVal v * 2 ^ e < 2 ^ 3968)) ∧
    (∀ e, ((pow5 v e).2 = true ↔ limbsVal v * 5 ^ e < 2 ^ 3968)) ∧
    (0 < limbsVal v → ∀ e, ((pow10 v e).2 = true ↔ limbsVal v * 10 ^ e < 2 ^ 3968)) := by
  rw [show (2 : Nat) ^ 3968 = (2 ^ 64) ^ 62 from (Nat.pow_mul 2 64 62)]
  have hb := big_of hl hn
  have hv : limbsVal v < (2 ^ 64) ^ 62 := lt_of_lt_of_le (limbsVal_lt hl) (Nat.pow_le_pow_right (by omega) h62)
  refine ⟨fun y h0 hy => ?_, fun y hy => ?_, fun w hw h0 hw62 => ?_, fun h0 e => ?_, fun e => ?_, fun h0 e => ?_⟩
  · exact (smallMul_cap hl h62 hy).iff fun hs => (hb.mul hy h0 hs).1
  · have h := smallAddFrom_cap hl h62 hy (Nat.zero_le _)
    rw [Nat.pow_zero, Nat.one_mul] at h
    exact h.iff fun hs => (hb.add hy hs).1
  · have hne : w ≠ [] := by rintro rfl; simp [limbsVal] at h0
    exact (largeMul_cap hl h62 hw hne).iff fun hs => (largeMul_spec hb hw hw62 hne h0 hs hv).1
  · exact (shl_cap hl h62 e).iff fun hs => (hb.shl h0 hs).1
  · exact (pow5_cap hl h62 e).iff fun hs => (hb.pow5 hs).1
  · exact (pow10_cap hl h62 e).iff fun hs => (hb.pow10 h0 hs).1

example : (shl [1] 3967).2 = true ∧ (shl [1] 3968).2 = false ∧ (pow5 [1] 1708).2 = true ∧ (pow5 [1] 1709).2 = false ∧ (pow10 [1] 1194).2 = true ∧
    (pow10 [1] 1195).2 = false ∧ (smallAddFrom (List.replicate 62 (2 ^ 64 - 1)) 1 0).2 = false ∧
    (smallAddFrom (List.replicate 62 (2 ^ 64 - 1)) 0 0).2 = true := by decide +kernel

end C4
