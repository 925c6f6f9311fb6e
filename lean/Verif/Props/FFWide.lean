import Verif.FastFloat.Wide
import Verif.Props.FFMantissa
/-
The reads of eight characters at once, for all character types, SIMD instructions and byte orders.
-/
namespace C4.FF
open Spec

/-- The code units of the type. -/
def Uc.InRange (u : Uc) (s : List Nat) : Prop := ∀ c ∈ s, c < 256 ^ u.bytes

theorem byteField (v a : Nat) : v &&& (255 <<< a) = (v / 2 ^ a % 256) * 2 ^ a := by
  apply Nat.eq_of_testBit_eq
  intro i
  rw [Nat.testBit_and, Nat.testBit_shiftLeft, Nat.testBit_mul_two_pow, show (255 : Nat) = 2 ^ 8 - 1 by rfl, show (256 : Nat) = 2 ^ 8 by rfl,
    Nat.testBit_two_pow_sub_one, Nat.testBit_mod_two_pow, Nat.testBit_div_two_pow]
  by_cases h : a ≤ i
  · simp only [h, decide_true, Bool.true_and]
    rw [Nat.sub_add_cancel h, Bool.and_comm]
  · simp [h]

theorem or_shift_add (a b n : Nat) (h : a < 2 ^ n) : a ||| (b <<< n) = a + b * 2 ^ n := by
  rw [Nat.or_comm, ← Nat.shiftLeft_add_eq_or_of_lt h, Nat.shiftLeft_eq, Nat.add_comm]

theorem orBytes_eq : ∀ (s : List Nat) (i val : Nat), val < 2 ^ (i * 8) → orBytes s i val = val + 2 ^ (i * 8) * read8 (s.map (· % 256)) := by
  intro s
  induction s with
  | nil => intro i val _; simp [orBytes, read8]
  | cons c s ih =>
    intro i val h
    rw [orBytes, or_shift_add _ _ _ h]
    have hc : c % 256 < 256 := Nat.mod_lt _ (by omega)
    have hp : 2 ^ ((i + 1) * 8) = 2 ^ (i * 8) * 256 := by rw [Nat.add_mul, Nat.pow_add]
    rw [ih (i + 1) _ (by rw [hp]; nlinarith), hp, List.map_cons, read8]
    ring

theorem map_mod (s : List Nat) (h : ∀ c ∈ s, c < 256) : s.map (· % 256) = s := by
  exact (List.map_congr_left (f := (· % 256)) (g := id) (fun c hc => Nat.mod_eq_of_lt (h c hc))).trans (List.map_id s)

theorem read8_byte : ∀ (s : List Nat), (∀ c ∈ s, c < 256) → ∀ i, read8 s / 2 ^ (8 * i) % 256 = s.getD i 0 := by
  intro s
  induction s with
  | nil => intro _ i; simp [read8]
  | cons c s ih =>
    intro h i
    have hc := h c (by simp)
    rw [read8]
    cases i with
    | zero => simp; omega
    | succ i =>
      rw [show 8 * (i + 1) = 8 + 8 * i by omega, Nat.pow_add, ← Nat.div_div_eq_div_mul, show (c + 256 * read8 s) / 2 ^ 8 = read8 s by omega,
        ih (fun x hx => h x (List.mem_cons_of_mem _ hx)), List.getD_cons_succ]

theorem byteswap_read8 (b0 b1 b2 b3 b4 b5 b6 b7 : Nat) (h0 : b0 < 256) (h1 : b1 < 256) (h2 : b2 < 256) (h3 : b3 < 256) (h4 : b4 < 256) (h5 : b5 < 256)
    (h6 : b6 < 256) (h7 : b7 < 256) : byteswap (read8 [b7, b6, b5, b4, b3, b2, b1, b0]) = read8 [b0, b1, b2, b3, b4, b5, b6, b7] := by
  unfold byteswap
  obtain ⟨v, hv⟩ : ∃ v, read8 [b7, b6, b5, b4, b3, b2, b1, b0] = v := ⟨_, rfl⟩
  rw [hv]
  simp only [read8] at hv ⊢
  rw [show 0xFF00000000000000 = 255 <<< 56 by rfl, show 0x00FF000000000000 = 255 <<< 48 by rfl, show 0x0000FF0000000000 = 255 <<< 40 by rfl,
    show 0x000000FF00000000 = 255 <<< 32 by rfl, show 0x00000000FF000000 = 255 <<< 24 by rfl, show 0x0000000000FF0000 = 255 <<< 16 by rfl,
    show 0x000000000000FF00 = 255 <<< 8 by rfl, show v &&& 0x00000000000000FF = v / 2 ^ 0 % 256 * 2 ^ 0 by rw [← byteField]; rfl]
  simp only [byteField]
  have hb := read8_byte [b7, b6, b5, b4, b3, b2, b1, b0] (by simp [h0, h1, h2, h3, h4, h5, h6, h7])
  simp only [read8, hv] at hb
  have e0 : v / 2 ^ 56 % 256 = b0 := hb 7
  have e1 : v / 2 ^ 48 % 256 = b1 := hb 6
  have e2 : v / 2 ^ 40 % 256 = b2 := hb 5
  have e3 : v / 2 ^ 32 % 256 = b3 := hb 4
  have e4 : v / 2 ^ 24 % 256 = b4 := hb 3
  have e5 : v / 2 ^ 16 % 256 = b5 := hb 2
  have e6 : v / 2 ^ 8 % 256 = b6 := hb 1
  have e7 : v / 2 ^ 0 % 256 = b7 := hb 0
  rw [e0, e1, e2, e3, e4, e5, e6, e7]
  clear hb e0 e1 e2 e3 e4 e5 e6 e7 hv
  have s0 : (b0 * 2 ^ 56) >>> 56 = b0 := by rw [Nat.shiftRight_eq_div_pow]; omega
  have s1 : (b1 * 2 ^ 48) >>> 40 = b1 <<< 8 := by rw [Nat.shiftRight_eq_div_pow, Nat.shiftLeft_eq]; omega
  have s2 : (b2 * 2 ^ 40) >>> 24 = b2 <<< 16 := by rw [Nat.shiftRight_eq_div_pow, Nat.shiftLeft_eq]; omega
  have s3 : (b3 * 2 ^ 32) >>> 8 = b3 <<< 24 := by rw [Nat.shiftRight_eq_div_pow, Nat.shiftLeft_eq]; omega
  have s4 : (b4 * 2 ^ 24) <<< 8 = b4 <<< 32 := by rw [Nat.shiftLeft_eq, Nat.shiftLeft_eq]; omega
  have s5 : (b5 * 2 ^ 16) <<< 24 = b5 <<< 40 := by rw [Nat.shiftLeft_eq, Nat.shiftLeft_eq]; omega
  have s6 : (b6 * 2 ^ 8) <<< 40 = b6 <<< 48 := by rw [Nat.shiftLeft_eq, Nat.shiftLeft_eq]; omega
  have s7 : (b7 * 2 ^ 0) <<< 56 = b7 <<< 56 := by rw [Nat.pow_zero, Nat.mul_one]
  rw [s0, s1, s2, s3, s4, s5, s6, s7]
  rw [or_shift_add b0 b1 8 (by omega), or_shift_add _ b2 16 (by omega), or_shift_add _ b3 24 (by omega), or_shift_add _ b4 32 (by omega), or_shift_add _ b5 40 (by omega),
    or_shift_add _ b6 48 (by omega), or_shift_add _ b7 56 (by omega)]
  ring

theorem leBytes_one (c : Nat) (h : c < 256) : leBytes 1 c = [c] := by
  simp [leBytes, Nat.mod_eq_of_lt h]

/-- `read8_to_u64` of eight characters is the number with their low bytes, the first one being the lowest. -/
theorem cfg_read8 (k : Cfg) (c0 c1 c2 c3 c4 c5 c6 c7 : Nat) (h : k.uc.InRange [c0, c1, c2, c3, c4, c5, c6, c7]) :
    k.read8 [c0, c1, c2, c3, c4, c5, c6, c7] = read8 ([c0, c1, c2, c3, c4, c5, c6, c7].map (· % 256)) := by
  unfold Cfg.read8
  by_cases hu : k.uc = .char
  · rw [if_neg (by simp [hu])]
    have hb : ∀ c ∈ [c0, c1, c2, c3, c4, c5, c6, c7], c < 256 := by
      intro c hc
      have := h c hc
      rw [hu] at this
      simpa [Uc.bytes] using this
    rw [map_mod _ hb]
    simp only [List.mem_cons, List.not_mem_nil, or_false, forall_eq_or_imp, forall_eq] at hb
    obtain ⟨h0, h1, h2, h3, h4, h5, h6, h7⟩ := hb
    unfold Cfg.memcpyU64 Cfg.unitBytes
    rw [hu]
    cases hbe : k.bigEndian
    · simp [Uc.bytes, leBytes_one, h0, h1, h2, h3, h4, h5, h6, h7]
    · simp [Uc.bytes, leBytes_one, h0, h1, h2, h3, h4, h5, h6, h7, byteswap_read8]
  · rw [if_pos hu, orBytes_eq _ _ _ (by simp)]
    simp

theorem map_digits_eq (f : Nat → Nat) (hf : ∀ c, IsDigit c → f c = c) (s : List Nat) (h : ∀ c ∈ s, IsDigit c) : s.map f = s := by
  exact (List.map_congr_left (f := f) (g := id) (fun c hc => hf c (h c hc))).trans (List.map_id s)

theorem digits_inRange (u : Uc) (s : List Nat) (h : ∀ c ∈ s, IsDigit c) : u.InRange s := by
  intro c hc
  have := h c hc
  unfold IsDigit at this
  cases u <;> simp only [Uc.bytes] <;> omega

/-- Eight digits are converted to their value. -/
theorem cfg_parseEight (k : Cfg) (c0 c1 c2 c3 c4 c5 c6 c7 : Nat) (h : ∀ c ∈ [c0, c1, c2, c3, c4, c5, c6, c7], IsDigit c) :
    k.parseEight [c0, c1, c2, c3, c4, c5, c6, c7] = digitsVal [c0, c1, c2, c3, c4, c5, c6, c7] := by
  rw [← eight_value _ _ _ _ _ _ _ _ h]
  have hm := map_digits_eq (· % 256) (fun c hc => by unfold IsDigit at hc; omega) _ h
  unfold Cfg.parseEight
  split
  · rename_i hs
    congr 1
    unfold Cfg.simdRead8
    cases hk : k.simd with
    | none => simp [Cfg.hasSimdOpt, hk] at hs
    | sse2 =>
      dsimp only
      rw [map_digits_eq packus (fun c hc => by unfold IsDigit at hc; unfold packus sgn16; split <;> (try split) <;> (try split) <;> omega) _ h]
    | neon => dsimp only; rw [hm]
  · rw [cfg_read8 k _ _ _ _ _ _ _ _ (digits_inRange _ _ h), hm]

/-- The test for eight digits only lets digits pass. -/
theorem cfg_isEight (k : Cfg) (c0 c1 c2 c3 c4 c5 c6 c7 : Nat) (hr : k.uc.InRange [c0, c1, c2, c3, c4, c5, c6, c7])
    (h : k.isEight [c0, c1, c2, c3, c4, c5, c6, c7] = true) : ∀ c ∈ [c0, c1, c2, c3, c4, c5, c6, c7], IsDigit c := by
  unfold Cfg.isEight at h
  split at h
  · rename_i hu
    have hb : ∀ c ∈ [c0, c1, c2, c3, c4, c5, c6, c7], c < 256 := by
      intro c hc
      have := hr c hc
      rw [hu] at this
      simpa [Uc.bytes] using this
    rw [cfg_read8 k _ _ _ _ _ _ _ _ hr, map_mod _ hb] at h
    intro c hc
    exact (isInteger_iff c).1 ((isMadeOfEightDigitsFast_iff _ rfl hb).1 h c hc)
  · rw [Bool.and_eq_true] at h
    obtain ⟨hs, h⟩ := h
    have hu : k.uc = .char16 := by
      unfold Cfg.hasSimdOpt at hs
      rw [Bool.and_eq_true] at hs
      exact beq_iff_eq.1 hs.2
    intro c hc
    have hc2 := hr c hc
    rw [hu] at hc2
    simp only [Uc.bytes] at hc2
    unfold Cfg.simdIsEight at h
    cases hk : k.simd with
    | none => simp [hk] at h
    | sse2 =>
      rw [hk] at h
      have := List.all_eq_true.1 h c hc
      simp only [Bool.not_eq_true', decide_eq_false_iff_not, gt_iff_lt, not_lt] at this
      unfold sgn16 at this
      unfold IsDigit
      split at this <;> omega
    | neon =>
      rw [hk] at h
      have := List.all_eq_true.1 h c hc
      simp only [decide_eq_true_eq] at this
      unfold IsDigit
      omega

theorem step_mod (x d : Nat) : (10 * (x % 2 ^ 64) + d) % 2 ^ 64 = (10 * x + d) % 2 ^ 64 := by omega

/-- The loop over eight digits at a time does what a loop over single digits does. -/
theorem loopEight_then (k : Cfg) (L : List Nat → Nat → List Nat × Nat) (hL : ∀ c s i, IsDigit c → L (c :: s) i = L s ((10 * i + (c - 48)) % 2 ^ 64))
    (s : List Nat) (i : Nat) (hr : k.uc.InRange s) : L (k.loopEight s i).1 (k.loopEight s i).2 = L s i := by
  fun_induction Cfg.loopEight k s i with
  | case1 c0 c1 c2 c3 c4 c5 c6 c7 s i h ih =>
    rw [ih (fun c hc => hr c (by simp [hc]))]
    have hd := cfg_isEight k c0 c1 c2 c3 c4 c5 c6 c7 (fun c hc => hr c (by
      simp only [List.mem_cons, List.not_mem_nil, or_false] at hc ⊢
      tauto)) h
    rw [cfg_parseEight k _ _ _ _ _ _ _ _ hd]
    simp only [List.mem_cons, List.not_mem_nil, or_false, forall_eq_or_imp, forall_eq] at hd
    obtain ⟨h0, h1, h2, h3, h4, h5, h6, h7⟩ := hd
    rw [hL c0 _ _ h0, hL c1 _ _ h1, hL c2 _ _ h2, hL c3 _ _ h3, hL c4 _ _ h4, hL c5 _ _ h5, hL c6 _ _ h6, hL c7 _ _ h7]
    simp only [step_mod]
    congr 2
    simp only [digitsVal_cons, digitsVal_nil, List.length_cons, List.length_nil]
    ring
  | case2 => rfl
  | case3 => rfl

/-- A chunk of `skip_zeros` is all zeros if it compares so. -/
theorem cfg_zeros (k : Cfg) (s : List Nat) (hd : ∀ c ∈ s, IsDigit c) (hl : s.length = k.uc.cmpLen) :
    k.memcpyU64 s = k.uc.cmpZeros ↔ ∀ c ∈ s, c = 48 := by
  have hle : ∀ c, IsDigit c → leBytes 1 c = [c] ∧ leBytes 2 c = [c, 0] ∧ leBytes 4 c = [c, 0, 0, 0] := by
    intro c hc
    unfold IsDigit at hc
    have h1 : c % 256 = c := by omega
    have h2 : c / 256 = 0 := by omega
    simp [leBytes, h1, h2]
  unfold Cfg.memcpyU64 Cfg.unitBytes
  cases hu : k.uc <;> rw [hu] at hl <;> simp only [Uc.cmpLen, Uc.bytes] at hl
  · match s, hl with
    | [c0, c1, c2, c3, c4, c5, c6, c7], _ =>
      simp only [List.mem_cons, List.not_mem_nil, or_false, forall_eq_or_imp, forall_eq] at hd ⊢
      obtain ⟨h0, h1, h2, h3, h4, h5, h6, h7⟩ := hd
      cases k.bigEndian <;> simp [hle _ h0, hle _ h1, hle _ h2, hle _ h3, hle _ h4, hle _ h5, hle _ h6, hle _ h7, Uc.bytes, read8, Uc.cmpZeros] <;>
        unfold IsDigit at * <;> omega
  · match s, hl with
    | [c0, c1, c2, c3], _ =>
      simp only [List.mem_cons, List.not_mem_nil, or_false, forall_eq_or_imp, forall_eq] at hd ⊢
      obtain ⟨h0, h1, h2, h3⟩ := hd
      cases k.bigEndian <;> simp [hle _ h0, hle _ h1, hle _ h2, hle _ h3, Uc.bytes, read8, Uc.cmpZeros] <;>
        unfold IsDigit at * <;> omega
  · match s, hl with
    | [c0, c1], _ =>
      simp only [List.mem_cons, List.not_mem_nil, or_false, forall_eq_or_imp, forall_eq] at hd ⊢
      obtain ⟨h0, h1⟩ := hd
      cases k.bigEndian <;> simp [hle _ h0, hle _ h1, Uc.bytes, read8, Uc.cmpZeros] <;>
        unfold IsDigit at * <;> omega

theorem cmpLen_pos (u : Uc) : 2 ≤ u.cmpLen := by cases u <;> decide

theorem cfg_skipZeros (k : Cfg) : ∀ (fuel : Nat) (s : List Nat), (∀ c ∈ s, IsDigit c) → k.skipZeros fuel s = s.dropWhile (· == 48) := by
  intro fuel
  induction fuel with
  | zero => intro s _; exact skipZeros1_eq s
  | succ n ih =>
    intro s hd
    rw [Cfg.skipZeros]
    split
    · rename_i hl
      split
      · exact skipZeros1_eq s
      · rename_i hz
        have hz := (cfg_zeros k (s.take k.uc.cmpLen) (fun c hc => hd c (List.mem_of_mem_take hc)) (by rw [List.length_take]; omega)).1 (not_not.1 hz)
        rw [ih _ (fun c hc => hd c (List.mem_of_mem_drop hc))]
        conv_rhs => rw [← List.take_append_drop k.uc.cmpLen s]
        rw [(takeWhile_append_all (· == 48) _ _ (fun c hc => by simp [hz c hc])).2]
    · exact skipZeros1_eq s

theorem cfg_isTruncated (k : Cfg) : ∀ (fuel : Nat) (s : List Nat), (∀ c ∈ s, IsDigit c) → (k.isTruncated fuel s = true ↔ ∃ c ∈ s, c ≠ 48) := by
  intro fuel
  induction fuel with
  | zero => intro s _; exact isTruncated1_iff s
  | succ n ih =>
    intro s hd
    rw [Cfg.isTruncated]
    split
    · rename_i hl
      have hz := cfg_zeros k (s.take k.uc.cmpLen) (fun c hc => hd c (List.mem_of_mem_take hc)) (by rw [List.length_take]; omega)
      split
      · rename_i h
        rw [Ne, hz] at h
        push Not at h
        obtain ⟨c, hc, h⟩ := h
        simp only [true_iff]
        exact ⟨c, List.mem_of_mem_take hc, h⟩
      · rename_i h
        have h := hz.1 (not_not.1 h)
        rw [ih _ (fun c hc => hd c (List.mem_of_mem_drop hc))]
        constructor
        · rintro ⟨c, hc, h⟩
          exact ⟨c, List.mem_of_mem_drop hc, h⟩
        · rintro ⟨c, hc, hne⟩
          rw [← List.take_append_drop k.uc.cmpLen s, List.mem_append] at hc
          rcases hc with hc | hc
          · exact absurd (h c hc) hne
          · exact ⟨c, hc, hne⟩
    · exact isTruncated1_iff s

theorem cfg_isTruncated_eq (k : Cfg) (fuel : Nat) (s : List Nat) (h : ∀ c ∈ s, IsDigit c) : k.isTruncated fuel s = isTruncated s := by
  rw [Bool.eq_iff_iff, cfg_isTruncated k fuel s h, isTruncated_iff s (fun c hc => by have := h c hc; unfold IsDigit at this; omega)]

theorem cfg_skipZeros_eq (k : Cfg) (fuel : Nat) (s : List Nat) (h : ∀ c ∈ s, IsDigit c) : k.skipZeros fuel s = skipZeros s := by
  rw [cfg_skipZeros k fuel s h, skipZeros_eq s (fun c hc => by have := h c hc; unfold IsDigit at this; omega)]

theorem cfg_eightLoop (k : Cfg) (m : Nat) (p : List Nat) (v c d : Nat) (h : ∀ x ∈ p, IsDigit x) : k.eightLoop m p v c d = eightLoop m p v c d := by
  fun_induction eightLoop m p v c d with
  | case1 c0 c1 c2 c3 c4 c5 c6 c7 s v c d hc ih =>
    have hd : ∀ x ∈ [c0, c1, c2, c3, c4, c5, c6, c7], IsDigit x := fun x hx => h x (by
      simp only [List.mem_cons, List.not_mem_nil, or_false] at hx ⊢
      tauto)
    rw [← ih (fun x hx => h x (by simp [hx])), Cfg.eightLoop, if_pos hc, cfg_parseEight k _ _ _ _ _ _ _ _ hd, eight_value _ _ _ _ _ _ _ _ hd]
  | case2 c0 c1 c2 c3 c4 c5 c6 c7 s v c d hc => rw [Cfg.eightLoop, if_neg hc]
  | case3 s v c d hs =>
    unfold Cfg.eightLoop
    split
    · exact absurd rfl (hs _ _ _ _ _ _ _ _ _)
    · rfl

theorem eightLoop_suffix (m : Nat) (p : List Nat) (v c d : Nat) : (eightLoop m p v c d).1 <:+ p := by
  fun_induction eightLoop m p v c d with
  | case1 c0 c1 c2 c3 c4 c5 c6 c7 s v c d hc ih => exact ih.trans ⟨[c0, c1, c2, c3, c4, c5, c6, c7], rfl⟩
  | case2 => exact List.suffix_refl _
  | case3 => exact List.suffix_refl _

theorem oneLoop_suffix (m : Nat) (p : List Nat) (v c d : Nat) : (oneLoop m p v c d).1 <:+ p := by
  fun_induction oneLoop m p v c d with
  | case1 => exact List.suffix_refl _
  | case2 c s v n d h ih => exact ih.trans (List.suffix_cons _ _)
  | case3 => exact List.suffix_refl _

theorem cfg_mantissaLoop (k : Cfg) (m : Nat) (more : List Nat) (hm : ∀ c ∈ more, IsDigit c) : ∀ (fuel : Nat) (p result : List Nat) (d : Nat),
    (∀ c ∈ p, IsDigit c) → k.mantissaLoop m more fuel p result d = mantissaLoop m more fuel p result d := by
  intro fuel
  induction fuel with
  | zero => intro p r d _; rfl
  | succ n ih =>
    intro p r d hp
    rw [Cfg.mantissaLoop, mantissaLoop, cfg_eightLoop k m p 0 0 d hp]
    have hs1 := eightLoop_suffix m p 0 0 d
    generalize eightLoop m p 0 0 d = q at hs1 ⊢
    obtain ⟨p1, v1, c1, d1⟩ := q
    dsimp only at hs1 ⊢
    have hs2 := (oneLoop_suffix m p1 v1 c1 d1).trans hs1
    generalize oneLoop m p1 v1 c1 d1 = q at hs2 ⊢
    obtain ⟨p2, v2, c2, d2⟩ := q
    dsimp only at hs2 ⊢
    have hp2 : ∀ c ∈ p2, IsDigit c := fun c hc => hp c (hs2.subset hc)
    rw [cfg_isTruncated_eq k _ _ hp2, cfg_isTruncated_eq k _ _ hm, ih _ _ _ hp2]

theorem cfg_parseMantissa (k : Cfg) (m : Nat) (integer : List Nat) (fraction : Option (List Nat)) (hi : ∀ c ∈ integer, IsDigit c)
    (hf : ∀ c ∈ fraction.getD [], IsDigit c) : k.parseMantissa m integer fraction = parseMantissa m integer fraction := by
  have hz : ∀ s : List Nat, (∀ c ∈ s, IsDigit c) → ∀ c ∈ skipZeros s, IsDigit c := by
    intro s h c hc
    rw [skipZeros_eq s (fun c hc => by have := h c hc; unfold IsDigit at this; omega)] at hc
    exact h c ((List.dropWhile_suffix _).subset hc)
  unfold Cfg.parseMantissa parseMantissa
  dsimp only
  rw [cfg_skipZeros_eq k _ _ hi, cfg_mantissaLoop k m _ hf _ _ _ _ (hz _ hi)]
  cases fraction with
  | none => rfl
  | some fr =>
    simp only [Option.getD_some] at hf
    dsimp only
    rw [cfg_skipZeros_eq k _ _ hf, cfg_mantissaLoop k m [] (by simp) _ _ _ _ (by split; exacts [hz _ hf, hf])]

/-- The conversion of what was parsed does not depend on the character type. -/
theorem cfg_fromCharsPns (k : Cfg) (f : Fmt) (fpu : Fpu) (a : PNS) (hi : ∀ c ∈ a.integer, IsDigit c) (hf : ∀ c ∈ a.fraction.getD [], IsDigit c) :
    k.fromCharsPns f fpu a = fromCharsPns f fpu a := by
  have h : k.slowPath f a = slowPath f a := by
    unfold Cfg.slowPath slowPath Cfg.digitComp digitComp
    rw [cfg_parseMantissa k _ _ _ hi hf]
  unfold Cfg.fromCharsPns fromCharsPns
  rw [h]
  rfl

end C4.FF
