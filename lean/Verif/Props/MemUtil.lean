import Verif.MemUtil
/-
Properties C23-C27 (memory_util).
-/
namespace C4

/-! ### Helper lemmas -/

theorem and_mask_ne_zero {v s : Nat} (h : v < 2 ^ (2 * s)) :
    (v &&& ((2 ^ s - 1) <<< s) ≠ 0) ↔ 2 ^ s ≤ v := by
  have hs : (2 ^ s - 1) <<< s = 2 ^ s * (2 ^ s - 1) := by
    rw [Nat.shiftLeft_eq, Nat.mul_comm]
  have h1 : v &&& ((2 ^ s - 1) <<< s) = (v >>> s) <<< s := by
    apply Nat.eq_of_testBit_eq
    intro i
    simp only [Nat.testBit_and, Nat.testBit_shiftLeft, Nat.testBit_shiftRight, Nat.testBit_two_pow_sub_one]
    by_cases hi : s ≤ i
    · simp only [hi, decide_true, Bool.true_and]
      have : s + (i - s) = i := by omega
      rw [this]
      by_cases hi2 : i - s < s
      · simp [hi2]
      · simp only [hi2, decide_false, Bool.and_false]
        symm
        apply Nat.testBit_lt_two_pow
        exact Nat.lt_of_lt_of_le h (Nat.pow_le_pow_right (by omega) (by omega))
    · simp [hi]
  rw [h1, Nat.shiftRight_eq_div_pow, Nat.shiftLeft_eq]
  have hp : 0 < 2 ^ s := Nat.pow_pos (by omega)
  constructor
  · intro h
    apply Nat.le_of_not_lt
    intro hlt
    rw [Nat.div_eq_of_lt hlt] at h; simp at h
  · intro h
    have : 1 ≤ v / 2 ^ s := Nat.div_pos h hp
    have : 1 * 2 ^ s ≤ v / 2 ^ s * 2 ^ s := Nat.mul_le_mul_right _ this
    omega

theorem msbStep_eq {mask s : Nat} (hm : mask = (2 ^ s - 1) <<< s) {v n : Nat} (h : v < 2 ^ (2 * s)) :
    msbStep mask s (v, n) = if 2 ^ s ≤ v then (v / 2 ^ s, n ||| s) else (v, n) := by
  subst hm
  unfold msbStep
  simp only [and_mask_ne_zero h, Nat.shiftRight_eq_div_pow]

/-- What `msb*` computes after the step handling blocks of `s` bits. -/
theorem log2_div {v s : Nat} (h : 2 ^ s ≤ v) : Nat.log2 v = Nat.log2 (v / 2 ^ s) + s := by
  have hp : 0 < 2 ^ s := Nat.pow_pos (by omega)
  have h1 : 1 ≤ v / 2 ^ s := Nat.div_pos h hp
  have hv : v ≠ 0 := by omega
  rw [Nat.log2_eq_iff hv]
  have h2 : 2 ^ (v / 2 ^ s).log2 ≤ v / 2 ^ s := Nat.log2_self_le (by omega)
  have h3 : v / 2 ^ s < 2 ^ ((v / 2 ^ s).log2 + 1) := Nat.lt_log2_self
  constructor
  · rw [Nat.pow_add]
    have := Nat.mul_le_mul_right (2 ^ s) h2
    have := Nat.div_mul_le_self v (2 ^ s)
    omega
  · have e : (v / 2 ^ s).log2 + s + 1 = ((v / 2 ^ s).log2 + 1) + s := by omega
    rw [e, Nat.pow_add 2 _ s]
    exact (Nat.div_lt_iff_lt_mul hp).mp h3

theorem msb_log2_2 {v n : Nat} (h : v < 4) :
    (msbStep 2 1 (v, n)).2 = if 2 ≤ v then n ||| 1 else n := by
  rw [msbStep_eq (by decide) (by simpa using h)]
  split <;> simp_all

/-- Step: dropping `s` bits. -/
theorem msbStep_cases {mask s : Nat} (hm : mask = (2 ^ s - 1) <<< s) {v n : Nat}
    (h : v < 2 ^ (2 * s)) (h0 : v ≠ 0) :
    ∃ v', v' < 2 ^ s ∧ v' ≠ 0 ∧
      ((msbStep mask s (v, n) = (v', n ||| s) ∧ Nat.log2 v = Nat.log2 v' + s) ∨
       (msbStep mask s (v, n) = (v', n) ∧ Nat.log2 v = Nat.log2 v')) := by
  rw [msbStep_eq hm h]
  have hp : 0 < 2 ^ s := Nat.pow_pos (by omega)
  split
  · rename_i hle
    refine ⟨v / 2 ^ s, ?_, ?_, Or.inl ⟨rfl, log2_div hle⟩⟩
    · rw [Nat.div_lt_iff_lt_mul hp, ← Nat.pow_add]
      rwa [Nat.two_mul] at h
    · have : 1 ≤ v / 2 ^ s := Nat.div_pos hle hp
      omega
  · exact ⟨v, by omega, h0, Or.inr ⟨rfl, rfl⟩⟩

theorem log2_one' {v : Nat} (h : v < 2 ^ 1) (h0 : v ≠ 0) : Nat.log2 v = 0 := by
  have : v = 1 := by omega
  subst this; rfl

theorem msb8_eq {v : Nat} (h : v < 2 ^ 8) (h0 : v ≠ 0) : msb8 v = Nat.log2 v := by
  unfold msb8
  obtain ⟨v1, h1, n1, c1⟩ := msbStep_cases (mask := 0xf0) (s := 4) (n := 0) (by decide) h h0
  rcases c1 with ⟨e1, l1⟩ | ⟨e1, l1⟩ <;> rw [e1, l1] <;>
  obtain ⟨v2, h2, n2, c2⟩ := msbStep_cases (mask := 0x0c) (s := 2) (by decide) h1 n1 <;>
  rcases c2 with ⟨e2, l2⟩ | ⟨e2, l2⟩ <;> rw [e2, l2] <;>
  obtain ⟨v3, h3, n3, c3⟩ := msbStep_cases (mask := 0x02) (s := 1) (by decide) h2 n2 <;>
  rcases c3 with ⟨e3, l3⟩ | ⟨e3, l3⟩ <;> rw [e3, l3, log2_one' h3 n3] <;> rfl

theorem msb16_eq {v : Nat} (h : v < 2 ^ 16) (h0 : v ≠ 0) : msb16 v = Nat.log2 v := by
  unfold msb16
  obtain ⟨v1, h1, n1, c1⟩ := msbStep_cases (mask := 0xff00) (s := 8) (n := 0) (by decide) h h0
  rcases c1 with ⟨e1, l1⟩ | ⟨e1, l1⟩ <;> rw [e1, l1] <;>
  obtain ⟨v2, h2, n2, c2⟩ := msbStep_cases (mask := 0xf0) (s := 4) (by decide) h1 n1 <;>
  rcases c2 with ⟨e2, l2⟩ | ⟨e2, l2⟩ <;> rw [e2, l2] <;>
  obtain ⟨v3, h3, n3, c3⟩ := msbStep_cases (mask := 0x0c) (s := 2) (by decide) h2 n2 <;>
  rcases c3 with ⟨e3, l3⟩ | ⟨e3, l3⟩ <;> rw [e3, l3] <;>
  obtain ⟨v4, h4, n4, c4⟩ := msbStep_cases (mask := 0x02) (s := 1) (by decide) h3 n3 <;>
  rcases c4 with ⟨e4, l4⟩ | ⟨e4, l4⟩ <;> rw [e4, l4, log2_one' h4 n4] <;> rfl

theorem msb32_eq {v : Nat} (h : v < 2 ^ 32) (h0 : v ≠ 0) : msb32 v = Nat.log2 v := by
  unfold msb32
  obtain ⟨v1, h1, n1, c1⟩ := msbStep_cases (mask := 0xffff0000) (s := 16) (n := 0) (by decide) h h0
  rcases c1 with ⟨e1, l1⟩ | ⟨e1, l1⟩ <;> rw [e1, l1] <;>
  obtain ⟨v2, h2, n2, c2⟩ := msbStep_cases (mask := 0xff00) (s := 8) (by decide) h1 n1 <;>
  rcases c2 with ⟨e2, l2⟩ | ⟨e2, l2⟩ <;> rw [e2, l2] <;>
  obtain ⟨v3, h3, n3, c3⟩ := msbStep_cases (mask := 0xf0) (s := 4) (by decide) h2 n2 <;>
  rcases c3 with ⟨e3, l3⟩ | ⟨e3, l3⟩ <;> rw [e3, l3] <;>
  obtain ⟨v4, h4, n4, c4⟩ := msbStep_cases (mask := 0x0c) (s := 2) (by decide) h3 n3 <;>
  rcases c4 with ⟨e4, l4⟩ | ⟨e4, l4⟩ <;> rw [e4, l4] <;>
  obtain ⟨v5, h5, n5, c5⟩ := msbStep_cases (mask := 0x02) (s := 1) (by decide) h4 n4 <;>
  rcases c5 with ⟨e5, l5⟩ | ⟨e5, l5⟩ <;> rw [e5, l5, log2_one' h5 n5] <;> rfl

theorem msb64_eq {v : Nat} (h : v < 2 ^ 64) (h0 : v ≠ 0) : msb64 v = Nat.log2 v := by
  unfold msb64
  obtain ⟨v0, h0', n0, c0⟩ := msbStep_cases (mask := 0xffffffff00000000) (s := 32) (n := 0) (by decide) h h0
  rcases c0 with ⟨e0, l0⟩ | ⟨e0, l0⟩ <;> rw [e0, l0] <;>
  obtain ⟨v1, h1, n1, c1⟩ := msbStep_cases (mask := 0xffff0000) (s := 16) (by decide) h0' n0 <;>
  rcases c1 with ⟨e1, l1⟩ | ⟨e1, l1⟩ <;> rw [e1, l1] <;>
  obtain ⟨v2, h2, n2, c2⟩ := msbStep_cases (mask := 0xff00) (s := 8) (by decide) h1 n1 <;>
  rcases c2 with ⟨e2, l2⟩ | ⟨e2, l2⟩ <;> rw [e2, l2] <;>
  obtain ⟨v3, h3, n3, c3⟩ := msbStep_cases (mask := 0xf0) (s := 4) (by decide) h2 n2 <;>
  rcases c3 with ⟨e3, l3⟩ | ⟨e3, l3⟩ <;> rw [e3, l3] <;>
  obtain ⟨v4, h4, n4, c4⟩ := msbStep_cases (mask := 0x0c) (s := 2) (by decide) h3 n3 <;>
  rcases c4 with ⟨e4, l4⟩ | ⟨e4, l4⟩ <;> rw [e4, l4] <;>
  obtain ⟨v5, h5, n5, c5⟩ := msbStep_cases (mask := 0x02) (s := 1) (by decide) h4 n4 <;>
  rcases c5 with ⟨e5, l5⟩ | ⟨e5, l5⟩ <;> rw [e5, l5, log2_one' h5 n5] <;> rfl

theorem msb_eq_log2 (w : W) {v : Nat} (h : v < 2 ^ w.bits) (h0 : v ≠ 0) : msb w v = Nat.log2 v := by
  cases w
  · exact msb8_eq h h0
  · exact msb16_eq h h0
  · exact msb32_eq h h0
  · exact msb64_eq h h0

/-! ### lsb -/

theorem xor_pred_odd (u : Nat) : (2 * u + 1) ^^^ (2 * u + 1 - 1) = 1 := by
  apply Nat.eq_of_testBit_eq
  intro i
  simp only [Nat.add_sub_cancel, Nat.testBit_xor]
  cases i with
  | zero => simp
  | succ i =>
    simp only [Nat.testBit_succ]
    have h1 : (2 * u + 1) / 2 = u := by omega
    have h2 : (2 * u) / 2 = u := by omega
    rw [h1, h2]; simp

theorem xor_pred_even {u : Nat} (h : u ≠ 0) :
    (2 * u) ^^^ (2 * u - 1) = 2 * (u ^^^ (u - 1)) + 1 := by
  apply Nat.eq_of_testBit_eq
  intro i
  simp only [Nat.testBit_xor]
  cases i with
  | zero =>
    have : (2 * u - 1) % 2 = 1 := by omega
    simp [Nat.testBit_zero, this]
  | succ i =>
    simp only [Nat.testBit_succ]
    have h1 : (2 * u) / 2 = u := by omega
    have h2 : (2 * u - 1) / 2 = u - 1 := by omega
    have h3 : (2 * (u ^^^ (u-1)) + 1) / 2 = u ^^^ (u - 1) := by omega
    rw [h1, h2, h3, Nat.testBit_xor]

theorem lsbLoop_ones (k : Nat) : ∀ f c, 2 ^ k - 1 < f → lsbLoop f (2 ^ k - 1) c = .ok (c + k) := by
  induction k with
  | zero =>
    intro f c h
    cases f with
    | zero => omega
    | succ f => simp [lsbLoop]
  | succ k ih =>
    intro f c h
    cases f with
    | zero => omega
    | succ f =>
      have hp : 0 < 2 ^ k := Nat.pow_pos (by omega)
      have e : 2 ^ (k+1) = 2 * 2 ^ k := by rw [Nat.pow_succ]; omega
      have hne : 2 ^ (k+1) - 1 ≠ 0 := by omega
      have hs : (2 ^ (k+1) - 1) >>> 1 = 2 ^ k - 1 := by
        rw [Nat.shiftRight_eq_div_pow]; omega
      rw [lsbLoop, if_neg hne, hs, ih f (c+1) (by omega)]
      congr 1; omega

theorem two_mul_or (v : Nat) : ∃ u, v = 2 * u ∨ v = 2 * u + 1 := ⟨v / 2, by omega⟩

theorem xor_pred_exists (v : Nat) (h : v ≠ 0) :
    ∃ k, v ^^^ (v - 1) = 2 ^ (k+1) - 1 ∧ v.testBit k = true ∧ ∀ i < k, v.testBit i = false := by
  induction v using Nat.strongRecOn with
  | ind v ih =>
    rcases two_mul_or v with ⟨u, hu | hu⟩
    · have hu0 : u ≠ 0 := by omega
      obtain ⟨k, e, hb, hl⟩ := ih u (by omega) hu0
      refine ⟨k+1, ?_, ?_, ?_⟩
      · rw [hu, xor_pred_even hu0, e]
        have hp : 0 < 2 ^ (k+1) := Nat.pow_pos (by omega)
        have e : 2 ^ (k+1+1) = 2 * 2 ^ (k+1) := by rw [Nat.pow_succ]; omega
        omega
      · rw [Nat.testBit_succ, hu]; simpa using hb
      · intro i hi
        cases i with
        | zero => rw [hu]; simp
        | succ i => rw [Nat.testBit_succ, hu]; simpa using hl i (by omega)
    · refine ⟨0, ?_, ?_, ?_⟩
      · rw [hu, xor_pred_odd]
      · rw [hu]; simp
      · intro i hi; omega

theorem lsb11Aux_spec (k : Nat) : ∀ f val num, k < f → val.testBit k = true →
    (∀ i < k, val.testBit i = false) →
    lsb11Aux f val num ((val &&& 1) != 0) = .ok (num + k) := by
  induction k with
  | zero =>
    intro f val num hf hb _
    cases f with
    | zero => omega
    | succ f =>
      have : ((val &&& 1) != 0) = true := by
        rw [Nat.testBit_zero] at hb; simp at hb; simp [hb]
      rw [this, lsb11Aux]; simp
  | succ k ih =>
    intro f val num hf hb hl
    cases f with
    | zero => omega
    | succ f =>
      have : ((val &&& 1) != 0) = false := by
        have := hl 0 (by omega)
        rw [Nat.testBit_zero] at this; simp at this; simp [this]
      rw [this, lsb11Aux, ih f (val >>> 1) (num+1) (by omega)]
      · congr 1; omega
      · rw [Nat.testBit_shiftRight, Nat.add_comm]; exact hb
      · intro i hi
        rw [Nat.testBit_shiftRight, Nat.add_comm]; exact hl (i+1) (by omega)

theorem msb11Aux_spec : ∀ (val f num : Nat), val ≠ 0 → val + 1 < f →
    msb11Aux f val num (val == 0) = .ok (num + Nat.log2 val) := by
  intro val
  induction val using Nat.strongRecOn with
  | ind val ih =>
    intro f num h hf
    cases f with
    | zero => omega
    | succ f =>
      have : (val == 0) = false := by simpa using h
      rw [this, msb11Aux]
      have hs : val >>> 1 = val / 2 := by rw [Nat.shiftRight_eq_div_pow]
      rw [hs]
      by_cases h1 : val / 2 = 0
      · have : val = 1 := by omega
        subst this
        cases f with
        | zero => omega
        | succ f =>
          simp only [Nat.reduceDiv, BEq.rfl, msb11Aux, Nat.add_sub_cancel]
          have : Nat.log2 1 = 0 := rfl
          rw [this]; rfl
      · rw [ih (val/2) (by omega) f (num+1) h1 (by omega)]
        have := log2_div (v := val) (s := 1) (by omega)
        rw [this]; congr 1; simp only [Nat.pow_one]; omega

/-! ### C23 -/

/-- C23: `msb` returns the index of the highest set bit. -/
theorem C23_msb (w : W) (v : Nat) (h : v < 2 ^ w.bits) (h0 : v ≠ 0) :
    v.testBit (msb w v) = true ∧ ∀ i, msb w v < i → v.testBit i = false := by
  rw [msb_eq_log2 w h h0]
  constructor
  · exact Nat.testBit_log2 h0
  · intro i hi
    apply Nat.testBit_lt_two_pow
    exact Nat.lt_of_lt_of_le Nat.lt_log2_self (Nat.pow_le_pow_right (by omega) hi)

example : msb .w64 0x8000000000000001 = 63 := by decide
example : msb .w8 0x2a = 5 := by decide

/-- C23: `lsb` returns the index of the lowest set bit. -/
theorem C23_lsb (v : Nat) (h0 : v ≠ 0) :
    ∃ k, lsb v = .ok k ∧ v.testBit k = true ∧ ∀ i < k, v.testBit i = false := by
  obtain ⟨k, e, hb, hl⟩ := xor_pred_exists v h0
  refine ⟨k, ?_, hb, hl⟩
  unfold lsb
  have hp : 0 < 2 ^ k := Nat.pow_pos (by omega)
  have e2 : 2 ^ (k+1) = 2 * 2 ^ k := by rw [Nat.pow_succ]; omega
  have hs : (v ^^^ (v - 1)) >>> 1 = 2 ^ k - 1 := by
    rw [e, Nat.shiftRight_eq_div_pow]; omega
  simp only [hs]
  rw [lsbLoop_ones k _ _ (by omega)]; simp

example : lsb 0x50 = .ok 4 := by decide

theorem takeWhile_range {n k : Nat} {p : Nat → Bool} (hk : k < n) (h1 : ∀ i < k, p i = true) (h2 : p k = false) :
    ((List.range n).takeWhile p).length = k := by
  obtain ⟨m, rfl⟩ : ∃ m, n = k + (m + 1) := ⟨n - k - 1, by omega⟩
  rw [List.range_add, List.takeWhile_append_of_pos (by intro i hi; exact h1 i (List.mem_range.1 hi))]
  rw [List.range_succ_eq_map]
  simp [h2]

/-- C23: the intrinsics give the same index of the lowest set bit. -/
theorem C23_lsb_builtin (w : W) (v : Nat) (h : v < 2 ^ w.bits) (h0 : v ≠ 0) : lsb v = .ok (lsbBuiltin w v) := by
  obtain ⟨k, e, hb, hl⟩ := C23_lsb v h0
  have hk : k < w.bits := by
    rcases Nat.lt_or_ge k w.bits with hk | hk
    · exact hk
    have := Nat.testBit_lt_two_pow (x := v) (i := k) (Nat.lt_of_lt_of_le h (Nat.pow_le_pow_right (by omega) hk))
    rw [this] at hb
    cases hb
  have key : ∀ n, k < n → ctz n v = k := fun n hn => takeWhile_range hn (by intro i hi; rw [hl i hi]; rfl) (by rw [hb]; rfl)
  rw [e]
  cases w <;> simp only [W.bits] at hk <;> simp only [lsbBuiltin] <;> rw [key _ (by omega)]

/-- C23: the intrinsics give the same index of the highest set bit. -/
theorem C23_msb_builtin (w : W) (v : Nat) (h : v < 2 ^ w.bits) (h0 : v ≠ 0) : msbBuiltin w v = msb w v := by
  obtain ⟨hb, hl⟩ := C23_msb w v h h0
  generalize msb w v = k at hb hl
  have hk : k < w.bits := by
    rcases Nat.lt_or_ge k w.bits with hk | hk
    · exact hk
    have := Nat.testBit_lt_two_pow (x := v) (i := k) (Nat.lt_of_lt_of_le h (Nat.pow_le_pow_right (by omega) hk))
    rw [this] at hb
    cases hb
  have hrev : ∀ n, (List.range n).reverse = (List.range n).map (fun i => n - 1 - i) := by
    intro n
    refine List.ext_getElem (by simp) fun i h1 h2 => ?_
    simp only [List.getElem_reverse, List.getElem_range, List.getElem_map, List.length_range]
  have key : ∀ n, k < n → clz n v = n - 1 - k := by
    intro n hn
    unfold clz
    rw [hrev, List.takeWhile_map, List.length_map]
    refine takeWhile_range (by omega) (fun i hi => ?_) ?_
    · simp only [Function.comp_apply]
      rw [hl _ (by omega)]; rfl
    · simp only [Function.comp_apply]
      have : n - 1 - (n - 1 - k) = k := by omega
      rw [this, hb]; rfl
  cases w <;> simp only [W.bits] at hk <;> simp only [msbBuiltin] <;> rw [key _ (by omega)] <;> omega

example : lsbBuiltin .w8 0x50 = 4 ∧ msbBuiltin .w8 0x50 = 6 ∧ msbBuiltin .w64 1 = 0 := by decide +kernel

/-- C23: the compile-time `msb11` agrees with `msb`. -/
theorem C23_msb11 (w : W) (v : Nat) (h : v < 2 ^ w.bits) (h0 : v ≠ 0) : msb11 v = .ok (msb w v) := by
  unfold msb11
  rw [msb11Aux_spec v _ 0 h0 (by omega), msb_eq_log2 w h h0]; simp

/-- C23: the compile-time `lsb11` agrees with `lsb`. -/
theorem C23_lsb11 (v : Nat) (h0 : v ≠ 0) : lsb11 v = lsb v := by
  obtain ⟨k, e, hb, hl⟩ := C23_lsb v h0
  rw [e]
  unfold lsb11
  have : k < v + 1 := by
    have h1 : 2 ^ k ≤ v := Nat.ge_two_pow_of_testBit hb
    have : k < 2 ^ k := Nat.lt_two_pow_self
    omega
  rw [lsb11Aux_spec k _ _ _ this hb hl]; simp

example : lsb11 0x50 = .ok 4 ∧ msb11 0x50 = .ok 6 := by decide

/-! ### C25 -/

theorem cmaskLoop_spec (bits : Nat) : ∀ n i r, i + n ≤ bits →
    ∃ r', cmaskLoop bits n i r = .ok r' ∧
      ∀ j, r'.testBit j = (r.testBit j || (decide (i ≤ j) && decide (j < i + n))) := by
  intro n
  induction n with
  | zero =>
    intro i r h
    refine ⟨r, rfl, fun j => ?_⟩
    have : (decide (i ≤ j) && decide (j < i + 0)) = false := by simp
    rw [this]; simp
  | succ n ih =>
    intro i r h
    obtain ⟨r', e, hr⟩ := ih (i+1) (r ||| (1 <<< i)) (by omega)
    refine ⟨r', ?_, fun j => ?_⟩
    · rw [cmaskLoop, if_pos (by omega), e]
    · rw [hr j, Nat.testBit_or, Nat.one_shiftLeft, Nat.testBit_two_pow]
      rw [Bool.or_assoc]
      congr 1
      by_cases hij : i = j
      · subst hij; simp
      · have : i + (n+1) = i + 1 + n := by omega
        rw [this, Bool.eq_iff_iff]
        simp only [hij, decide_false, Bool.false_or, Bool.and_eq_true, decide_eq_true_eq]
        omega

/-- C25: bit `j` of the mask is set iff `first ≤ j < last`. -/
theorem C25_contiguous_mask (w : W) (first last : Nat) (h : last ≤ w.bits) :
    ∃ r, contiguousMask w.bits first last = .ok r ∧
      ∀ j, r.testBit j = true ↔ (first ≤ j ∧ j < last) := by
  unfold contiguousMask
  by_cases hfl : first ≤ last
  · obtain ⟨r, e, hr⟩ := cmaskLoop_spec w.bits (last - first) first 0 (by omega)
    refine ⟨r, e, fun j => ?_⟩
    rw [hr j]; simp; omega
  · have : last - first = 0 := by omega
    rw [this]
    refine ⟨0, rfl, fun j => ?_⟩
    simp; omega

theorem cmask11_eq (bits : Nat) : ∀ n f val first, n < f → first + n ≤ bits →
    cmask11Aux bits f val first (first + n) (first != first + n) = cmaskLoop bits n first val := by
  intro n
  induction n with
  | zero =>
    intro f val first hf _
    cases f with
    | zero => omega
    | succ f => simp [cmask11Aux, cmaskLoop]
  | succ n ih =>
    intro f val first hf hb
    cases f with
    | zero => omega
    | succ f =>
      have : (first != first + (n+1)) = true := by simp
      rw [this, cmask11Aux, if_pos (by omega), cmaskLoop, if_pos (by omega), ← ih f _ _ (by omega) (by omega)]
      congr 1 <;> (try omega)
      have : first + (n + 1) = first + 1 + n := by omega
      rw [this]

/-- C25: the compile-time version agrees. -/
theorem C25_contiguous_mask11 (w : W) (first last : Nat) (h : last ≤ w.bits) (hfl : first ≤ last) :
    contiguousMask11 w.bits first last = contiguousMask w.bits first last := by
  unfold contiguousMask11 contiguousMask
  have := cmask11_eq w.bits (last - first) (last - first + 1) 0 first (by omega) (by omega)
  have e : first + (last - first) = last := by omega
  rw [e] at this
  exact this

example : contiguousMask 8 2 5 = .ok 0b11100 ∧ contiguousMask11 8 2 5 = .ok 0b11100 := by decide

/-! ### C26 -/

/-- Specification: `n` copies of a pattern. -/
def Spec.tile (pattern : List α) : Nat → List α
  | 0 => []
  | n+1 => pattern ++ Spec.tile pattern n

theorem tile_length (p : List α) (n : Nat) : (Spec.tile p n).length = n * p.length := by
  induction n with
  | zero => simp [Spec.tile]
  | succ n ih => simp [Spec.tile, ih, Nat.add_mul]; omega

theorem tile_add (p : List α) (a b : Nat) : Spec.tile p (a + b) = Spec.tile p a ++ Spec.tile p b := by
  induction a with
  | zero => simp [Spec.tile]
  | succ a ih => rw [Nat.add_right_comm]; simp [Spec.tile, ih]

theorem memcpyIn_prefix {pre post : List α} {n : Nat} (hn : n ≤ pre.length) (hp : n ≤ post.length) :
    memcpyIn (pre ++ post) pre.length 0 n = .ok (pre ++ pre.take n ++ post.drop n) := by
  unfold memcpyIn
  by_cases h0 : n = 0
  · simp [h0]
  · rw [if_neg h0, if_pos (by right; omega), memmove, if_pos (by simp; omega), memcpyTo_ok (by simp; omega)]
    congr 1
    have h1 : n - pre.length = 0 := by omega
    have h2 : min n pre.length = n := by omega
    have h3 : pre.drop (pre.length + n) = [] := List.drop_eq_nil_of_le (by omega)
    simp [List.take_append, List.drop_append, h1, h2, h3]

theorem memRepeatLoop_spec (p : List α) (hp : 0 < p.length) (t : Nat) : ∀ f k post,
    1 ≤ k → k ≤ t → t * p.length ≤ k * p.length + post.length → t < f + k →
    ∃ k' post', memRepeatLoop f (Spec.tile p k ++ post) (k * p.length) (t * p.length)
        = .ok (k' * p.length, Spec.tile p k' ++ post') ∧ 1 ≤ k' ∧ k' ≤ t ∧ t ≤ 2 * k' ∧
      (Spec.tile p k' ++ post').length = (Spec.tile p k ++ post).length ∧
      (Spec.tile p k' ++ post').drop (t * p.length) = (Spec.tile p k ++ post).drop (t * p.length) := by
  intro f
  induction f with
  | zero => intro k post h1 h2 h3 h4; omega
  | succ f ih =>
    intro k post h1 h2 h3 h4
    rw [memRepeatLoop]
    split
    · rename_i hlt
      have hlt' : 2 * k < t := by
        rw [← Nat.mul_assoc] at hlt
        exact Nat.lt_of_mul_lt_mul_right hlt
      have hk : k * p.length = (Spec.tile p k).length := (tile_length p k).symm
      have hle : (2 * k) * p.length ≤ t * p.length := Nat.mul_le_mul_right _ (by omega)
      have e2 : (2 * k) * p.length = k * p.length + k * p.length := by rw [Nat.two_mul, Nat.add_mul]
      have hcp : memcpyIn (Spec.tile p k ++ post) (k * p.length) 0 (k * p.length)
          = .ok (Spec.tile p k ++ Spec.tile p k ++ post.drop (k * p.length)) := by
        rw [hk, memcpyIn_prefix (by omega) (by omega)]; simp
      rw [hcp, Res.ok_bind]
      have hsh : (k * p.length) <<< 1 = (2 * k) * p.length := by
        rw [Nat.shiftLeft_eq, Nat.pow_one, Nat.mul_comm 2 k, Nat.mul_assoc, Nat.mul_assoc]
        congr 1; rw [Nat.mul_comm]
      have ht : Spec.tile p k ++ Spec.tile p k = Spec.tile p (2 * k) := by
        rw [Nat.two_mul, tile_add]
      rw [hsh, ht]
      obtain ⟨k', post', e, a1, a2, a3, a4, a5⟩ := ih (2 * k) (post.drop (k * p.length)) (by omega) (by omega)
        (by rw [List.length_drop]; omega) (by omega)
      refine ⟨k', post', e, a1, a2, a3, ?_, ?_⟩
      · rw [a4]; simp [tile_length, e2]; omega
      · rw [a5, List.drop_append, List.drop_append, List.drop_drop]
        have b1 : (Spec.tile p (2*k)).length ≤ t * p.length := by rw [tile_length]; omega
        have b2 : (Spec.tile p k).length ≤ t * p.length := by rw [tile_length]; omega
        rw [List.drop_eq_nil_of_le b1, List.drop_eq_nil_of_le b2, tile_length, tile_length]
        congr 2; omega
    · rename_i hge
      refine ⟨k, post, rfl, h1, h2, ?_, rfl, rfl⟩
      rw [← Nat.mul_assoc] at hge
      apply Nat.le_of_not_lt
      intro hlt
      have : (2 * k) * p.length < t * p.length := Nat.mul_lt_mul_of_pos_right hlt hp
      exact hge this

/-- C26: `mem_repeat` writes exactly `n` copies of the pattern at the destination and nothing else
(`post` is what follows the destination), and no `memcpy` has overlapping operands (that would be `ub`). -/
theorem C26_mem_repeat (p dest post : List α) (n : Nat) (hd : dest.length = n * p.length) :
    memRepeat (dest ++ post) p n = .ok (Spec.tile p n ++ post) := by
  unfold memRepeat
  by_cases hn : n = 0
  · subst hn; simp at hd; subst hd; simp [Spec.tile]
  · rw [if_neg hn]
    by_cases hp0 : p.length = 0
    · have : p = [] := List.length_eq_zero_iff.mp hp0
      subst this
      simp at hd; subst hd
      have ht : Spec.tile ([] : List α) n = [] := List.length_eq_zero_iff.mp (by simp [tile_length])
      simp [memcpyTo, memRepeatLoop, ht]
    · have hp : 0 < p.length := by omega
      have h1 : 1 * p.length ≤ n * p.length := Nat.mul_le_mul_right _ (by omega)
      rw [Nat.one_mul] at h1
      have hc : memcpyTo (dest ++ post) 0 p = .ok (Spec.tile p 1 ++ (dest ++ post).drop p.length) := by
        rw [memcpyTo_ok (by simp; omega)]; simp [Spec.tile]
      simp only [hc, Res.ok_bind]
      obtain ⟨k, post', e, a1, a2, a3, a4, a5⟩ := memRepeatLoop_spec p hp n (n * p.length + 1) 1
        ((dest ++ post).drop p.length) (by omega) (by omega) (by simp; omega)
        (by have := Nat.le_mul_of_pos_right n hp; omega)
      rw [Nat.one_mul] at e
      simp only [e, Res.ok_bind]
      have hlen : (Spec.tile p k ++ post').length = dest.length + post.length := by
        rw [a4]; simp [tile_length]; omega
      have hdrop : (Spec.tile p k ++ post').drop (n * p.length) = post := by
        rw [a5, List.drop_append, tile_length, List.drop_eq_nil_of_le (by rw [tile_length]; omega),
          List.drop_drop, List.nil_append]
        have : p.length + (n * p.length - 1 * p.length) = dest.length := by omega
        rw [this]; simp
      rw [List.length_append, tile_length] at hlen
      by_cases hk : k = n
      · subst hk
        rw [if_neg (by omega)]
        congr 2
        rw [List.drop_append, tile_length, List.drop_eq_nil_of_le (by rw [tile_length]; omega)] at hdrop
        simpa using hdrop
      · have hkn : k * p.length < n * p.length := Nat.mul_lt_mul_of_pos_right (by omega) hp
        have h2k : n * p.length ≤ 2 * k * p.length := Nat.mul_le_mul_right _ a3
        rw [Nat.mul_assoc] at h2k
        rw [if_pos hkn]
        have hk' : k * p.length = (Spec.tile p k).length := (tile_length p k).symm
        have := memcpyIn_prefix (pre := Spec.tile p k) (post := post') (n := n * p.length - k * p.length)
          (by omega) (by omega)
        rw [← hk'] at this
        rw [this]
        congr 1
        have ht : Spec.tile p k ++ (Spec.tile p k).take (n * p.length - k * p.length) = Spec.tile p n := by
          have h3 : n = k + (n - k) := by omega
          have h4 : k = (n - k) + (k - (n - k)) := by omega
          conv => rhs; rw [h3, tile_add]
          congr 1
          conv => lhs; rw [h4, tile_add]
          rw [List.take_append_of_le_length (by rw [tile_length, Nat.sub_mul]; rw [← h4]; omega)]
          apply List.take_of_length_le
          rw [tile_length, Nat.sub_mul, ← h4]; omega
        rw [ht]
        congr 1
        rw [List.drop_append, List.drop_eq_nil_of_le (by omega), List.nil_append, ← hk'] at hdrop
        exact hdrop

example : memRepeat ([0,0,0,0,0,0,0,0,0,0] ++ [7]) [1,2] 5 = .ok [1,2,1,2,1,2,1,2,1,2,7] := by decide

/-! ### C27 -/

/-- C27: for non-empty ranges, `mem_overlaps` holds iff they share an address. -/
theorem C27_mem_overlaps (a b sza szb : Nat) (ha : 0 < sza) (hb : 0 < szb) :
    memOverlaps a b sza szb = true ↔
      ∃ x, (a ≤ x ∧ x < a + sza) ∧ (b ≤ x ∧ x < b + szb) := by
  simp only [memOverlaps, Bool.and_eq_true, decide_eq_true_eq]
  constructor
  · intro ⟨h1, h2⟩
    refine ⟨max a b, ?_, ?_⟩ <;> omega
  · rintro ⟨x, h1, h2⟩; omega

example : memOverlaps 10 12 3 5 = true ∧ memOverlaps 10 13 3 5 = false := by decide

/-- **C142**: `is_aligned` for a power-of-two alignment is divisibility. -/
theorem C142_is_aligned (ptr k : Nat) : isAligned ptr (2 ^ k) = true ↔ 2 ^ k ∣ ptr := by
  unfold isAligned
  rw [Nat.and_two_pow_sub_one_eq_mod]
  simp [Nat.dvd_iff_mod_eq_zero]

example : isAligned 4104 8 = true ∧ isAligned 4104 16 = false ∧ isAligned 0 64 = true := by decide

end C4
