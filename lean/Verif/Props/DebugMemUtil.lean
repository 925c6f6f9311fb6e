import Verif.Debug.MemUtil
import Verif.Props.MemUtil
import Verif.Props.DebugCtorDtor
/-
Property C176: the assertions of the memory helpers.
-/
namespace C4

/-- The memory `m` with `times` copies of its `psz` bytes at `pat` written to `dest`. -/
def Spec.repeated {α : Type} (m : List α) (dest pat psz times : Nat) : List α :=
  m.take dest ++ Spec.tile ((m.drop pat).take psz) times ++ m.drop (dest + times * psz)

open Spec

theorem repeatTail_eq {α : Type} (p post : List α) (n : Nat) (hn : n ≠ 0) (hd : (n - 1) * p.length ≤ post.length) (h64 : n * p.length < 2 ^ 64) :
    memRepeatRest (p ++ post) p.length (n * p.length) = .ok ((), Spec.tile p n ++ post.drop ((n - 1) * p.length)) := by
  have e : n * p.length = p.length + (n - 1) * p.length := by
    obtain ⟨k, rfl⟩ : ∃ k, n = k + 1 := ⟨n - 1, by omega⟩
    rw [Nat.add_sub_cancel, Nat.add_mul]; omega
  have h := C26_mem_repeat p (p ++ post.take ((n - 1) * p.length)) (post.drop ((n - 1) * p.length)) n (by simp; omega)
  unfold memRepeat at h
  rw [if_neg hn] at h
  have hb : (p ++ post.take ((n - 1) * p.length)) ++ post.drop ((n - 1) * p.length) = p ++ post := by simp
  rw [hb] at h
  have hc : memcpyTo (p ++ post) 0 p = .ok (p ++ post) := by
    rw [memcpyTo_ok (by simp)]; simp
  simp only [hc, Res.ok_bind] at h
  unfold memRepeatRest
  cases hl : memRepeatLoop (n * p.length + 1) (p ++ post) p.length (n * p.length) with
  | ok r =>
    rw [hl, Res.ok_bind] at h
    rw [Res.ok_bind]
    simp only at h ⊢
    by_cases hk : r.1 < n * p.length
    · rw [if_pos hk] at h ⊢; rw [h]; rfl
    · rw [if_neg hk] at h ⊢; rw [h]; rfl
  | ub => rw [hl] at h; cases h
  | abort => rw [hl] at h; cases h
  | loop => rw [hl] at h; cases h

/-- **C176**, `mem_repeat` without assertions, for a pattern that may be in the destination: it works if and only if the pattern does not overlap its first copy. -/
theorem C176_repeat_release {α : Type} (base : Nat) (m : List α) (dest pat psz times : Nat) (h64 : m.length < 2 ^ 64) (hd : dest + times * psz ≤ m.length) (hp : pat + psz ≤ m.length) (ht : times ≠ 0) :
    memRepeatAt false base m dest pat psz times = if psz = 0 ∨ dest + psz ≤ pat ∨ pat + psz ≤ dest then .ok (repeated m dest pat psz times) else .ub := by
  unfold memRepeatAt
  rw [if_neg ht, Nat.mod_eq_of_lt (by omega)]
  simp only [Bool.false_eq_true, if_false, Res.ok_bind]
  have e : times * psz = psz + (times - 1) * psz := by
    obtain ⟨k, rfl⟩ : ∃ k, times = k + 1 := ⟨times - 1, by omega⟩
    rw [Nat.add_sub_cancel, Nat.add_mul]; omega
  generalize hP : (m.drop pat).take psz = P
  have hPl : P.length = psz := by rw [← hP]; simp; omega
  have key : ∀ m1, memcpyIn m dest pat psz = .ok m1 → m1 = m.take dest ++ (P ++ m.drop (dest + psz)) →
      (do let mem ← memcpyIn m dest pat psz
          let (_, mem) ← onSub mem dest (fun buf => memRepeatRest buf psz (times * psz))
          Res.ok mem) = .ok (repeated m dest pat psz times) := by
    intro m1 h1 h2
    rw [h1, Res.ok_bind, h2]
    unfold onSub
    have hl : (m.take dest).length = dest := by simp; omega
    rw [if_pos (by rw [List.length_append, hl]; omega), List.drop_left' hl, List.take_left' hl]
    have := repeatTail_eq P (m.drop (dest + psz)) times ht (by rw [hPl]; simp; omega) (by rw [hPl]; omega)
    rw [hPl] at this
    simp only [this, Res.ok_bind]
    unfold repeated
    rw [hP, List.drop_drop, List.append_assoc, show dest + psz + (times - 1) * psz = dest + times * psz by omega]
  by_cases h0 : psz = 0
  · rw [if_pos (.inl h0)]
    apply key m
    · unfold memcpyIn; rw [if_pos h0]
    · have : P = [] := List.length_eq_zero_iff.mp (by omega)
      rw [this, h0]; simp
  · by_cases hc : dest + psz ≤ pat ∨ pat + psz ≤ dest
    · rw [if_pos (.inr hc)]
      apply key _ ?_ rfl
      unfold memcpyIn memmove
      rw [if_neg h0, if_pos hc, if_pos hp, hP, memcpyTo_ok (by omega), hPl, List.append_assoc]
    · rw [if_neg (by omega)]
      unfold memcpyIn
      rw [if_neg h0, if_neg hc]; rfl

example : memRepeatAt false 4096 [0, 0, 0, 0, 7, 8] 0 4 2 3 = .ok [7, 8, 7, 8, 7, 8] ∧ memRepeatAt true 4096 [0, 0, 0, 0, 7, 8] 0 4 2 3 = .abort ∧
    memRepeatAt false 4096 [0, 7, 8, 0] 0 1 2 2 = .ub := by decide

/-- **C176**, `mem_repeat`: with assertions it stops if and only if pattern and destination share a byte, and fills the destination otherwise. -/
theorem C176_repeat {α : Type} (base : Nat) (m : List α) (dest pat psz times : Nat) (h64 : m.length < 2 ^ 64) (hd : dest + times * psz ≤ m.length) (hp : pat + psz ≤ m.length) :
    ((∃ i, (dest ≤ i ∧ i < dest + times * psz) ∧ (pat ≤ i ∧ i < pat + psz)) → memRepeatAt true base m dest pat psz times = .abort) ∧
    ((¬ ∃ i, (dest ≤ i ∧ i < dest + times * psz) ∧ (pat ≤ i ∧ i < pat + psz)) → memRepeatAt true base m dest pat psz times = .ok (repeated m dest pat psz times)) := by
  by_cases ht : times = 0
  · subst ht
    constructor
    · rintro ⟨i, h1, h2⟩; omega
    · intro _
      unfold memRepeatAt repeated
      simp [Spec.tile]
  · have hr := C176_repeat_release base m dest pat psz times h64 hd hp ht
    have hle : psz ≤ times * psz := Nat.le_mul_of_pos_left _ (by omega)
    have e : memRepeatAt true base m dest pat psz times =
        if memOverlaps (base + dest) (base + pat) (times * psz) psz = false then memRepeatAt false base m dest pat psz times else .abort := by
      unfold memRepeatAt
      rw [if_neg ht, if_neg ht, Nat.mod_eq_of_lt (show times * psz < 2 ^ 64 by omega)]
      simp only [if_true, Bool.false_eq_true, if_false, Res.ok_bind]
      rw [assert_bind]
    rw [e]
    have hm : memOverlaps (base + dest) (base + pat) (times * psz) psz = false ↔ ¬ (pat + psz > dest ∧ pat < dest + times * psz) := by
      unfold memOverlaps
      simp only [Bool.and_eq_false_iff, decide_eq_false_iff_not]; omega
    constructor
    · rintro ⟨i, h1, h2⟩
      rw [if_neg (by rw [hm]; omega)]
    · intro hn
      have hd' : psz = 0 ∨ dest + times * psz ≤ pat ∨ pat + psz ≤ dest := by
        by_cases h0 : psz = 0
        · exact .inl h0
        · by_cases h1 : dest + times * psz ≤ pat ∨ pat + psz ≤ dest
          · exact .inr h1
          · exact absurd ⟨max dest pat, by omega, by omega⟩ hn
      rw [if_pos ?_, hr, if_pos (by omega)]
      rw [hm]
      rcases hd' with h0 | h1
      · subst h0; simp; omega
      · omega

example : memRepeatAt true 4096 [0, 0, 0, 0, 0, 0, 7, 8] 0 6 2 3 = .ok [7, 8, 7, 8, 7, 8, 7, 8] := by decide

/-- **C176**, raw data: the alignments that are accepted are the powers of two. -/
theorem C176_raw (data n al : Nat) : (rawWrapperD data n al = .ok (data, n, al) ↔ ∃ k, al = 2 ^ k) ∧ (rawWrapperD data n al = .abort ↔ ¬ ∃ k, al = 2 ^ k) := by
  have key : (al > 0 ∧ al &&& (al - 1) = 0) ↔ ∃ k, al = 2 ^ k := by
    constructor
    · rintro ⟨h0, h⟩
      refine ⟨al.log2, ?_⟩
      have hlt : al < 2 ^ (al.log2 + 1) := Nat.lt_log2_self
      have hle : 2 ^ al.log2 ≤ al := Nat.log2_self_le (by omega)
      rcases Nat.lt_or_ge (2 ^ al.log2) al with hg | hg
      · exfalso
        have hb : (al &&& (al - 1)).testBit al.log2 = true := by
          rw [Nat.testBit_and, Nat.testBit_log2 (by omega)]
          have : (al - 1).log2 = al.log2 := by
            rw [Nat.log2_eq_iff (by omega)]; omega
          rw [← this, Nat.testBit_log2 (by have := Nat.pow_pos (n := al.log2) (show 0 < 2 by omega); omega)]; rfl
        rw [h] at hb; simp at hb
      · omega
    · rintro ⟨k, rfl⟩
      have := Nat.pow_pos (n := k) (show 0 < 2 by omega)
      exact ⟨this, by rw [Nat.and_two_pow_sub_one_eq_mod, Nat.mod_self]⟩
  unfold rawWrapperD
  rw [assert_bind, ← key]
  by_cases h : al > 0 ∧ al &&& (al - 1) = 0
  · rw [if_pos h]; simp [h]
  · rw [if_neg h]; simp [h]

example : rawWrapperD 4096 3 16 = .ok (4096, 3, 16) ∧ rawWrapperD 4096 3 12 = .abort ∧ rawWrapperD 4096 3 0 = .abort := by decide

/-- **C176**, blobs of objects: the pointer has to be aligned for the type. -/
theorem C176_blob (ptr size k n : Nat) (h : size * n < 2 ^ 64) : (2 ^ k ∣ ptr → blobPtrD ptr size (2 ^ k) n = .ok (ptr, size * n)) ∧ (¬ 2 ^ k ∣ ptr → blobPtrD ptr size (2 ^ k) n = .abort) := by
  unfold blobPtrD
  rw [assert_bind, Nat.mod_eq_of_lt h]
  constructor
  · intro h; rw [if_pos ((C142_is_aligned ptr k).mpr h)]
  · intro h; rw [if_neg (fun h' => h ((C142_is_aligned ptr k).mp h'))]

example : blobPtrD 4100 8 (2 ^ 3) 2 = .abort ∧ blobPtrD 4104 8 (2 ^ 3) 2 = .ok (4104, 16) := by decide

/-- **C176**, lowest and highest bit: zero is rejected, and other numbers have their bit found. -/
theorem C176_bits (w : W) (v : Nat) (h : v < 2 ^ w.bits) :
    (v = 0 → lsbD w v = .abort ∧ msbD w v = .abort) ∧
    (v ≠ 0 → ∃ l m, lsbD w v = .ok l ∧ msbD w v = .ok m ∧ v.testBit l = true ∧ (∀ i < l, v.testBit i = false) ∧ v.testBit m = true ∧ ∀ i, m < i → v.testBit i = false) := by
  unfold lsbD msbD
  rw [assert_bind, assert_bind]
  constructor
  · intro h0; rw [if_neg (by simpa using h0), if_neg (by simpa using h0)]; exact ⟨rfl, rfl⟩
  · intro h0
    rw [if_pos h0, if_pos h0]
    obtain ⟨l, hl, a1, a2⟩ := C23_lsb v h0
    obtain ⟨b1, b2⟩ := C23_msb w v h h0
    refine ⟨l, _, ?_, rfl, a1, a2, b1, b2⟩
    have hx : (v ^^^ (v - 1)) < 2 ^ w.bits := Nat.xor_lt_two_pow h (by omega)
    rw [← hl]
    unfold lsbFallback lsb
    have e1 : ((v ^^^ (v - 1)) >>> 1) % 2 ^ w.bits = (v ^^^ (v - 1)) >>> 1 := by
      rw [Nat.mod_eq_of_lt]; rw [Nat.shiftRight_eq_div_pow]; omega
    have e2 : (v + 2 ^ w.bits - 1) % 2 ^ w.bits = v - 1 := by
      rw [show v + 2 ^ w.bits - 1 = (v - 1) + 2 ^ w.bits by omega, Nat.add_mod_right, Nat.mod_eq_of_lt (by omega)]
    rw [if_neg h0, e1, e2, ite_self]

example : lsbD .w8 0 = .abort ∧ lsbD .w8 96 = .ok 5 ∧ msbD .w8 96 = .ok 6 := by decide +kernel

/-- Without assertions and intrinsics `lsb` of zero is the number of bits for narrow types, and one less for the others. -/
theorem C176_lsb_zero (w : W) : lsbFallback w 0 = .ok (if w.bits < 32 then w.bits else w.bits - 1) := by
  have key : ∀ k f c, k < f → lsbLoop f (2 ^ k - 1) c = .ok (c + k) := by
    intro k
    induction k with
    | zero => intro f c hf; obtain ⟨f, rfl⟩ : ∃ g, f = g + 1 := ⟨f - 1, by omega⟩; simp [lsbLoop]
    | succ k ih =>
      intro f c hf
      obtain ⟨f, rfl⟩ : ∃ g, f = g + 1 := ⟨f - 1, by omega⟩
      have hp : 0 < 2 ^ k := Nat.pow_pos (by omega)
      have e : 2 ^ (k + 1) = 2 * 2 ^ k := by rw [Nat.pow_succ]; omega
      rw [lsbLoop, if_neg (by omega)]
      have : (2 ^ (k + 1) - 1) >>> 1 = 2 ^ k - 1 := by rw [Nat.shiftRight_eq_div_pow]; omega
      rw [this, ih f (c + 1) (by omega)]
      congr 1; omega
  have lt : ∀ k, k < 2 ^ k := fun k => Nat.lt_two_pow_self
  cases w
  · exact key 8 _ 0 (by decide)
  · exact key 16 _ 0 (by decide)
  · exact key 31 (2 ^ 31 - 1 + 1) 0 (by decide)
  · exact key 63 (2 ^ 63 - 1 + 1) 0 (by decide)

end C4
