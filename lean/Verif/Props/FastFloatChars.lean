import Verif.Props.FFResult
import Verif.Spec.FloatText
/-
Properties of `fast_float::from_chars` for `float` and `double`.
-/
namespace C4
open Spec FF

/-- What `parse_number_string` does with a text whose longest prefix that is a number is known. -/
theorem parse_longest {s : List Nat} {t : Decimal} {rest : List Nat} (h : Longest s t rest) (hb : ∀ c ∈ s, c < 256) :
    s ≠ [] ∧ ∃ a, parseNumberString s = .ok a ∧ Parsed a t rest := by
  obtain ⟨a, h1, h2, h3⟩ := parse_complete t rest h.wf (by rw [← h.split]; exact hb)
  rw [← h.split] at h1
  obtain ⟨u, hu, hs, hp⟩ := parse_sound s hb a h1 h2
  have hl := h.longest u _ hu hs
  have he : t.text = u.text ∧ rest = a.lastmatch := List.append_inj' (h.split.symm.trans hs) (by omega)
  have htu := text_inj h.wf hu he.1
  refine ⟨?_, a, h1, ?_⟩
  · intro hnil
    rw [hnil] at h1
    cases h1
  · rw [htu, he.2]
    exact hp

theorem parse_none {s : List Nat} (hne : s ≠ []) (h : NoNumber s) (hb : ∀ c ∈ s, c < 256) : ∃ a, parseNumberString s = .ok a ∧ a.valid = false := by
  have hok : ∃ a, parseNumberString s = .ok a := by
    cases s with
    | nil => exact absurd rfl hne
    | cons c s =>
      unfold parseNumberString
      dsimp only
      split
      · cases s with
        | nil => exact ⟨_, rfl⟩
        | cons d s =>
          dsimp only
          split <;> exact ⟨_, rfl⟩
      · exact ⟨_, rfl⟩
  obtain ⟨a, ha⟩ := hok
  refine ⟨a, ha, ?_⟩
  cases hv : a.valid with
  | false => rfl
  | true =>
    obtain ⟨t, ht, hs, -⟩ := parse_sound s hb a ha hv
    exact absurd hs (h t _ ht)

/-- The result for a text that begins with a number, with the exponent that was read. -/
theorem fromChars_read {f : Fmt} {F : Ieee} (hf : IsFmt f F) (fpu : Fpu) {s : List Nat} {t : Decimal} {rest : List Nat} (h : Longest s t rest)
    (hb : ∀ c ∈ s, c < 256) :
    ∃ b, F.Nearest ((digitsVal t.digits : ℚ) * 10 ^ (capExp t.exp - ((t.frac.getD []).length : Int))) b ∧
      fromChars f fpu s = .ok ⟨rest, if b = F.infBits ∨ (b = 0 ∧ digitsVal t.digits ≠ 0) then .resultOutOfRange else .none,
        some (.bits (b + (if t.neg then F.signBit else 0)))⟩ := by
  obtain ⟨hne, a, ha, hp⟩ := parse_longest h hb
  obtain ⟨b, h1, h2⟩ := fromCharsPns_spec hf fpu (hp.handed h.wf)
  have e : a.integer ++ a.fraction.getD [] = t.digits := by rw [hp.integer, hp.fraction]; rfl
  rw [e] at h1
  simp only [e] at h2
  refine ⟨b, h1, ?_⟩
  unfold fromChars
  rw [if_neg hne, ha]
  dsimp only
  rw [if_pos hp.valid, h2, hp.rest, hp.negative]

theorem mag_eq_zero (t : Decimal) : t.mag = 0 ↔ digitsVal t.digits = 0 := by
  unfold Decimal.mag
  rw [mul_eq_zero]
  constructor
  · rintro (h | h)
    · exact_mod_cast h
    · exact absurd h (by positivity)
  · intro h
    left
    exact_mod_cast h

/-- C113: if some prefix of the text is a number, the longest one is read: `ptr` points behind it, a number or infinity is assigned, and its sign is the one
that is written. -/
theorem C113_longest {f : Fmt} {F : Ieee} (hf : (f = dbl ∧ F = binary64) ∨ (f = flt ∧ F = binary32)) (fpu : Fpu) (s : List Nat) (t : Decimal) (rest : List Nat)
    (h : Longest s t rest) (hb : ∀ c ∈ s, c < 256) :
    ∃ ec b, fromChars f fpu s = .ok ⟨rest, ec, some (.bits (b + (if t.neg then F.signBit else 0)))⟩ ∧ b ≤ F.infBits ∧ ec ≠ .invalidArgument := by
  obtain ⟨b, h1, h2⟩ := fromChars_read hf fpu h hb
  refine ⟨_, b, h2, h1.1, ?_⟩
  split <;> simp

/-- C113: a text that begins with a number has a longest prefix that is one, and it is a number in one way only. -/
theorem C113_exists (s : List Nat) (hb : ∀ c ∈ s, c < 256) (t : Decimal) (r : List Nat) (ht : t.WF) (hs : s = t.text ++ r) :
    (∃ u rest, Longest s u rest) ∧ ∀ u u' rest rest', Longest s u rest → Longest s u' rest' → u = u' ∧ rest = rest' := by
  constructor
  · obtain ⟨a, h1, h2, -⟩ := parse_complete t r ht (by rw [← hs]; exact hb)
    rw [← hs] at h1
    obtain ⟨u, hu, hs', hp⟩ := parse_sound s hb a h1 h2
    refine ⟨u, a.lastmatch, hu, hs', ?_⟩
    intro v r' hv hs''
    obtain ⟨a', h1', -, h3'⟩ := parse_complete v r' hv (by rw [← hs'']; exact hb)
    rw [← hs'', h1] at h1'
    cases h1'
    exact h3'
  · intro u u' rest rest' h h'
    have l1 := h.longest u' rest' h'.wf h'.split
    have l2 := h'.longest u rest h.wf h.split
    have he := List.append_inj' (h.split.symm.trans h'.split) (by omega)
    exact ⟨text_inj h.wf h'.wf he.1, he.2⟩

/-- "-1.5e" is the number -1.5 and the letter e. -/
example : Longest (S "-1.5e") ⟨true, S "1", some (S "5"), none⟩ (S "e") := by
  refine ⟨⟨by decide, by decide, by intro _ _ _ h; cases h⟩, by decide, ?_⟩
  intro u r hu hs
  obtain ⟨a, h1, -, h3⟩ := parse_complete u r hu (by rw [← hs]; decide)
  rw [← hs] at h1
  have : parseNumberString (S "-1.5e") = .ok ⟨-1, 15, S "e", true, true, false, S "1", some (S "5")⟩ := by decide +kernel
  rw [this] at h1
  cases h1
  exact h3

/-- C114, as far as it holds: the result is the number nearest to the one that is written, ties to even, whatever the rounding direction of the thread is.
Missing: texts with about 2^28 digits or more before an exponent that is not less than 2^28. -/
theorem C114_rounded_partial {f : Fmt} {F : Ieee} (hf : (f = dbl ∧ F = binary64) ∨ (f = flt ∧ F = binary32)) (fpu : Fpu) (s : List Nat) (t : Decimal) (rest : List Nat)
    (h : Longest s t rest) (hb : ∀ c ∈ s, c < 256) (hl : t.digits.length + 400 ≤ 2 ^ 28 ∨ |t.expVal| < 2 ^ 28) :
    ∃ ec b, fromChars f fpu s = .ok ⟨rest, ec, some (.bits (b + (if t.neg then F.signBit else 0)))⟩ ∧ F.Nearest t.mag b := by
  obtain ⟨b, h1, h2⟩ := fromChars_read hf fpu h hb
  exact ⟨_, b, h2, cap_nearest (IsFmt.ok hf) h.wf hl b h1⟩

/-- C114 fails: "0.00…01e2684354560" with 2^28 digits after the point is far beyond the largest number, but is read as 1, because the exponent is read as
268435456. -/
theorem C114_refuted {f : Fmt} {F : Ieee} (hf : (f = dbl ∧ F = binary64) ∨ (f = flt ∧ F = binary32)) (fpu : Fpu) :
    ¬ ∀ (s : List Nat) (t : Decimal) (rest : List Nat), Longest s t rest → (∀ c ∈ s, c < 256) →
      ∃ ec b, fromChars f fpu s = .ok ⟨rest, ec, some (.bits (b + (if t.neg then F.signBit else 0)))⟩ ∧ F.Nearest t.mag b := by
  intro hall
  obtain ⟨N, hN⟩ : ∃ N, N + 1 = 2 ^ 28 := ⟨2 ^ 28 - 1, by omega⟩
  have hexp : ∀ c ∈ S "2684354560", IsDigit c := by decide
  have hfr : ∀ c ∈ List.replicate N 48 ++ [49], IsDigit c := by
    intro c hc
    rcases List.mem_append.1 hc with h | h
    · rw [(List.mem_replicate.1 h).2]; decide
    · rw [List.mem_singleton.1 h]; decide
  obtain ⟨t, ht⟩ : ∃ t : Decimal, t = ⟨false, [48], some (List.replicate N 48 ++ [49]), some (101, none, S "2684354560")⟩ := ⟨_, rfl⟩
  have hneg : t.neg = false := by rw [ht]
  have hdig : t.digits = 48 :: (List.replicate N 48 ++ [49]) := by rw [ht]; rfl
  have hlen : ((t.frac.getD []).length : Int) = 2 ^ 28 := by
    rw [ht]
    simp only [Option.getD_some, List.length_append, List.length_replicate, List.length_singleton]
    exact_mod_cast hN
  have hcap : capExp t.exp = 2 ^ 28 := by rw [ht]; exact (by decide +kernel : (capVal (S "2684354560") : Int) = 2 ^ 28)
  have hval : t.expVal = 2684354560 := by rw [ht]; exact (by decide +kernel : (digitsVal (S "2684354560") : Int) = 2684354560)
  have hwf : t.WF := by
    refine ⟨?_, by rw [hdig]; simp, ?_⟩
    · rw [hdig]
      intro c hc
      rcases List.mem_cons.1 hc with rfl | hc
      · decide
      · exact hfr c hc
    · rw [ht]
      intro e sg ds h
      cases h
      exact ⟨Or.inl rfl, Or.inl rfl, by decide, hexp⟩
  have hone : digitsVal t.digits = 1 := by
    rw [hdig, ← digitsVal_sig, List.dropWhile_cons_of_pos (by decide), List.dropWhile_append_of_pos (by
      intro c hc
      rw [(List.mem_replicate.1 hc).2]
      decide)]
    decide
  have hb : ∀ c ∈ t.text, c < 256 := by
    rw [ht]
    simp only [Decimal.text, Decimal.fracText, Decimal.expText, List.mem_append, List.mem_cons]
    intro c hc
    rcases hc with hc | hc | hc | hc
    · cases hc
    · rcases hc with rfl | hc
      · decide
      · cases hc
    · rcases hc with rfl | hc
      · decide
      · have := hfr c (by simpa using hc)
        unfold IsDigit at this
        omega
    · rcases hc with rfl | hc | hc
      · decide
      · cases hc
      · have := hexp c hc
        unfold IsDigit at this
        omega
  have hL : Longest t.text t [] := ⟨hwf, (List.append_nil _).symm, fun _ _ _ _ => Nat.zero_le _⟩
  obtain ⟨ec, b, h1, h2⟩ := hall _ t [] hL hb
  obtain ⟨b', h3, h4⟩ := fromChars_read hf fpu hL hb
  rw [h4] at h1
  simp only [Res.ok.injEq, FCResult.mk.injEq, Option.some.injEq, FVal.bits.injEq, Nat.add_right_cancel_iff, true_and] at h1
  obtain ⟨-, rfl⟩ := h1
  rw [hone, hcap, hlen, sub_self, zpow_zero, Nat.cast_one, one_mul] at h3
  have hinf := val_inf (IsFmt.ok hf)
  have hbias : (127 : Int) ≤ F.bias := by rcases hf with ⟨-, rfl⟩ | ⟨-, rfl⟩ <;> decide
  have hmag : F.val F.infBits ≤ t.mag := by
    rw [hinf, Decimal.mag, hone, hval, hlen, Nat.cast_one, one_mul]
    have hb2 : F.bias ≤ 1023 := by rcases hf with ⟨-, rfl⟩ | ⟨-, rfl⟩ <;> decide
    calc (2 : ℚ) ^ (F.bias + 1) ≤ 2 ^ (1024 : ℤ) := zpow_le_zpow_right₀ (by norm_num) (by omega)
      _ ≤ 10 ^ (1024 : ℤ) := zpow_le_zpow_left₀ (by norm_num) (by norm_num) (by norm_num)
      _ ≤ 10 ^ (2684354560 - 2 ^ 28 : ℤ) := zpow_le_zpow_right₀ (by norm_num) (by norm_num)
  have hbi := nearest_unique F h2 (nearest_inf F hmag)
  rw [hbi] at h3
  obtain ⟨c, c1, c2⟩ : ∃ c, c < F.infBits ∧ F.val c = 1 := by
    rcases hf with ⟨-, rfl⟩ | ⟨-, rfl⟩
    · exact ⟨0x3FF0000000000000, by decide, by decide +kernel⟩
    · exact ⟨0x3F800000, by decide, by decide +kernel⟩
  rw [← c2] at h3
  have := nearest_unique F h3 (nearest_self F c1.le)
  omega

/-- C118: `result_out_of_range` is reported if and only if the result is infinite, or 0 for a number that is not 0. -/
theorem C118_out_of_range {f : Fmt} {F : Ieee} (hf : (f = dbl ∧ F = binary64) ∨ (f = flt ∧ F = binary32)) (fpu : Fpu) (s : List Nat) (t : Decimal) (rest : List Nat)
    (h : Longest s t rest) (hb : ∀ c ∈ s, c < 256) :
    ∃ ec b, fromChars f fpu s = .ok ⟨rest, ec, some (.bits (b + (if t.neg then F.signBit else 0)))⟩ ∧
      (ec = .resultOutOfRange ↔ b = F.infBits ∨ (b = 0 ∧ t.mag ≠ 0)) ∧ (ec ≠ .resultOutOfRange → ec = .none) := by
  obtain ⟨b, -, h2⟩ := fromChars_read hf fpu h hb
  refine ⟨_, b, h2, ?_, ?_⟩
  · have hm : t.mag ≠ 0 ↔ digitsVal t.digits ≠ 0 := not_congr (mag_eq_zero t)
    rw [hm]
    split <;> simp_all
  · split <;> simp

/-- C119: the test of the rounding direction, by one sum and one difference of floats, is right. -/
theorem C119_rounds_to_nearest (fpu : Fpu) : roundsToNearest fpu = true ↔ fpu.mode = .nearest := roundsToNearest_iff fpu

example : ∃ fpu : Fpu, roundsToNearest fpu = false := by
  obtain ⟨fpu, h⟩ := fpu_exists .up
  refine ⟨fpu, ?_⟩
  have := roundsToNearest_iff fpu
  rw [h] at this
  simpa using this

/-- C119: hence the result does not depend on the rounding direction of the thread, for any text. -/
theorem C119_any_direction {f : Fmt} {F : Ieee} (hf : (f = dbl ∧ F = binary64) ∨ (f = flt ∧ F = binary32)) (fpu fpu' : Fpu) (s : List Nat) (hb : ∀ c ∈ s, c < 256) :
    fromChars f fpu s = fromChars f fpu' s := by
  by_cases hex : ∃ t r, Decimal.WF t ∧ s = t.text ++ r
  · obtain ⟨t, r, ht, hs⟩ := hex
    obtain ⟨u, rest, hL⟩ := (C113_exists s hb t r ht hs).1
    obtain ⟨b, h1, h2⟩ := fromChars_read hf fpu hL hb
    obtain ⟨b', h1', h2'⟩ := fromChars_read hf fpu' hL hb
    rw [h2, h2', nearest_unique F h1 h1']
  · by_cases hne : s = []
    · unfold fromChars
      rw [if_pos hne, if_pos hne]
    · obtain ⟨a, h1, h2⟩ := parse_none hne (fun t r ht hs => hex ⟨t, r, ht, hs⟩) hb
      unfold fromChars
      rw [if_neg hne, if_neg hne, h1]
      dsimp only
      rw [h2]
      simp

theorem zero_or_32 (n : Nat) : (n = 0 ∨ n = 32) ↔ ∀ i, i ≠ 5 → n.testBit i = false := by
  constructor
  · rintro (rfl | rfl) i hi
    · simp
    · rw [show 32 = 2 ^ 5 by rfl, Nat.testBit_two_pow]
      simpa using fun h => hi h.symm
  · intro h
    cases hb : n.testBit 5 with
    | false =>
      left
      apply Nat.eq_of_testBit_eq
      intro i
      by_cases hi : i = 5
      · rw [hi, hb]; rfl
      · rw [h i hi, Nat.zero_testBit]
    | true =>
      right
      apply Nat.eq_of_testBit_eq
      intro i
      by_cases hi : i = 5
      · rw [hi, hb]; rfl
      · rw [h i hi, show 32 = 2 ^ 5 by rfl, Nat.testBit_two_pow]
        simpa using fun h => hi h.symm

theorem or_zero_or_32 (a b : Nat) : (a ||| b = 0 ∨ a ||| b = 32) ↔ (a = 0 ∨ a = 32) ∧ (b = 0 ∨ b = 32) := by
  rw [zero_or_32, zero_or_32, zero_or_32]
  simp only [Nat.testBit_or, Bool.or_eq_false_iff]
  exact ⟨fun h => ⟨fun i hi => (h i hi).1, fun i hi => (h i hi).2⟩, fun h i hi => ⟨h.1 i hi, h.2 i hi⟩⟩

/-- Comparing letters. -/
theorem strncasecmp_iff (w : List Nat) : ∀ (a : List Nat), (∀ l ∈ w, 97 ≤ l ∧ l ≤ 122) → a.length = w.length → (strncasecmp a w = true ↔ SameWord a w) := by
  have one : ∀ c l : Nat, 97 ≤ l → l ≤ 122 → ((c ^^^ l = 0 ∨ c ^^^ l = 32) ↔ (c = l ∨ c + 32 = l)) := by
    intro c l h1 h2
    have hl : l ^^^ 32 = l - 32 := by
      have : ∀ l < 123, 97 ≤ l → l ^^^ 32 = l - 32 := by decide
      exact this l (by omega) h1
    constructor
    · rintro (h | h)
      · left
        have := congrArg (· ^^^ l) h
        simpa [Nat.xor_assoc] using this
      · right
        have := congrArg (· ^^^ l) h
        simp only [Nat.xor_assoc, Nat.xor_self, Nat.xor_zero] at this
        rw [Nat.xor_comm, hl] at this
        omega
    · rintro (h | h)
      · left; rw [h, Nat.xor_self]
      · right
        have hc : c = l ^^^ 32 := by omega
        rw [hc, Nat.xor_comm l 32, Nat.xor_assoc, Nat.xor_self, Nat.xor_zero]
  have gen : ∀ (w a : List Nat) (d : Nat), (∀ l ∈ w, 97 ≤ l ∧ l ≤ 122) → a.length = w.length →
      (((a.zip w).foldl (fun d p => d ||| (p.1 ^^^ p.2)) d = 0 ∨ (a.zip w).foldl (fun d p => d ||| (p.1 ^^^ p.2)) d = 32) ↔ (d = 0 ∨ d = 32) ∧ SameWord a w) := by
    intro w
    induction w with
    | nil =>
      intro a d _ hlen
      rw [List.length_eq_zero_iff.1 hlen]
      simp [SameWord]
    | cons l w ih =>
      intro a d hw hlen
      cases a with
      | nil => cases hlen
      | cons c a =>
        rw [List.zip_cons_cons, List.foldl_cons, ih a _ (fun x hx => hw x (List.mem_cons_of_mem _ hx)) (by simpa using hlen), or_zero_or_32]
        dsimp only
        rw [one c l (hw l (by simp)).1 (hw l (by simp)).2]
        simp only [SameWord, List.forall₂_cons, and_assoc]
  intro a hw hlen
  unfold strncasecmp
  dsimp only
  rw [Bool.or_eq_true, beq_iff_eq, beq_iff_eq, gen w a 0 hw hlen]
  simp

/-- The characters in parentheses after "nan". -/
theorem nanSeq_iff (s r : List Nat) : nanSeq s = some r ↔ ∃ body, s = body ++ 41 :: r ∧ ∀ c ∈ body, IsNanChar c := by
  have char : ∀ c, ((97 ≤ c && c ≤ 122) || (65 ≤ c && c ≤ 90) || (48 ≤ c && c ≤ 57) || c == 95) = true ↔ IsNanChar c := by
    intro c
    simp only [Bool.or_eq_true, Bool.and_eq_true, decide_eq_true_eq, beq_iff_eq, IsNanChar]
    tauto
  have h41 : ¬ IsNanChar 41 := by unfold IsNanChar; omega
  induction s with
  | nil => simp [nanSeq]
  | cons c s ih =>
    unfold nanSeq
    by_cases hc : c = 41
    · rw [if_pos hc]
      constructor
      · intro h
        exact ⟨[], by rw [hc, Option.some.inj h]; rfl, by simp⟩
      · rintro ⟨body, h1, h2⟩
        cases body with
        | nil => simp at h1; rw [h1.2]
        | cons d body =>
          simp only [List.cons_append, List.cons.injEq] at h1
          have := h2 d (by simp)
          rw [← h1.1, hc] at this
          exact absurd this h41
    · rw [if_neg hc]
      by_cases hn : IsNanChar c
      · rw [(char c).2 hn, if_neg (by decide)]
        refine ih.trans ?_
        constructor
        · rintro ⟨body, h1, h2⟩
          exact ⟨c :: body, by rw [h1]; rfl, by
            intro x hx
            rcases List.mem_cons.1 hx with rfl | hx
            · exact hn
            · exact h2 x hx⟩
        · rintro ⟨body, h1, h2⟩
          cases body with
          | nil => simp at h1; exact absurd h1.1 hc
          | cons d body =>
            simp only [List.cons_append, List.cons.injEq] at h1
            exact ⟨body, h1.2, fun x hx => h2 x (List.mem_cons_of_mem _ hx)⟩
      · rw [Bool.eq_false_iff.2 (mt (char c).1 hn), if_pos (by decide)]
        constructor
        · intro h; cases h
        · rintro ⟨body, h1, h2⟩
          cases body with
          | nil => simp at h1; exact absurd h1.1 hc
          | cons d body =>
            simp only [List.cons_append, List.cons.injEq] at h1
            have := h2 d (by simp)
            rw [← h1.1] at this
            exact absurd this hn

/-- A text whose first character after an optional minus sign is a letter is no number. -/
theorem noNumber_letter (neg : Bool) (c : Nat) (r : List Nat) (hc : 65 ≤ c) : NoNumber (minus neg ++ c :: r) := by
  intro t rest ht hs
  have hhead : ∃ d s, t.int ++ (Decimal.fracText t.frac ++ Decimal.expText t.exp) = d :: s ∧ (IsDigit d ∨ d = 46) := by
    have hne := ht.nonempty
    unfold Decimal.digits at hne
    cases hi : t.int with
    | cons d s => exact ⟨d, _, rfl, Or.inl (ht.digits d (by simp [Decimal.digits, hi]))⟩
    | nil =>
      cases hf : t.frac with
      | none => rw [hi, hf] at hne; exact absurd rfl hne
      | some f => exact ⟨46, _, rfl, Or.inr rfl⟩
  obtain ⟨d, s, h1, h2⟩ := hhead
  unfold IsDigit at h2
  unfold Decimal.text minus at hs
  rw [h1] at hs
  cases neg <;> cases hn : t.neg <;> rw [hn] at hs <;> simp at hs <;> omega

theorem sameWord_length {s w : List Nat} (h : SameWord s w) : s.length = w.length := h.length_eq

theorem fromChars_infnan (f : Fmt) (fpu : Fpu) (s : List Nat) (hne : s ≠ []) (h : NoNumber s) (hb : ∀ c ∈ s, c < 256) : fromChars f fpu s = parseInfnan f s := by
  obtain ⟨a, h1, h2⟩ := parse_none hne h hb
  unfold fromChars
  rw [if_neg hne, h1]
  dsimp only
  rw [h2]
  simp

/-- Removing the minus sign before a word. -/
theorem parseInfnan_minus (f : Fmt) (neg : Bool) (c : Nat) (r : List Nat) (hc : c ≠ 45) :
    parseInfnan f (minus neg ++ c :: r) =
      (let s := c :: r
       if s.length ≥ 3 then
        if strncasecmp (s.take 3) (S "nan") then
          let s := s.drop 3
          let ptr := match s with
            | d :: t => if d = 40 then (nanSeq t).getD s else s
            | [] => s
          .ok ⟨ptr, .none, some (.nan neg)⟩
        else if strncasecmp (s.take 3) (S "inf") then
          let ptr := if s.length ≥ 8 && strncasecmp ((s.drop 3).take 5) (S "inity") then s.drop 8 else s.drop 3
          .ok ⟨ptr, .none, some (.bits (toFloat f neg ⟨0, f.infinitePower⟩))⟩
        else .ok ⟨minus neg ++ c :: r, .invalidArgument, none⟩
      else .ok ⟨minus neg ++ c :: r, .invalidArgument, none⟩) := by
  cases neg
  · have : (c == 45) = false := by simpa using hc
    simp only [minus, Bool.false_eq_true, if_false, List.nil_append, parseInfnan, this]
    rfl
  · rfl

/-- C115: the letters n, a, n in any case, after an optional minus sign, are a NaN with that sign; characters in parentheses after it, if they are letters,
digits and '_', belong to it. -/
theorem C115_nan (f : Fmt) (fpu : Fpu) (neg : Bool) (w rest : List Nat) (hw : SameWord w wordNan) (hb : ∀ c ∈ minus neg ++ (w ++ rest), c < 256) :
    ∃ ptr, fromChars f fpu (minus neg ++ (w ++ rest)) = .ok ⟨ptr, .none, some (.nan neg)⟩ ∧
      ((∃ body, rest = 40 :: body ++ 41 :: ptr ∧ ∀ c ∈ body, IsNanChar c) ∨
       (ptr = rest ∧ ¬ ∃ body r, rest = 40 :: body ++ 41 :: r ∧ ∀ c ∈ body, IsNanChar c)) := by
  have hlen := sameWord_length hw
  obtain ⟨c, w', rfl⟩ : ∃ c w', w = c :: w' := by
    cases w with
    | nil => cases hlen
    | cons c w' => exact ⟨c, w', rfl⟩
  have hc : 65 ≤ c := by
    have := (List.forall₂_cons.1 hw).1
    omega
  rw [List.cons_append, fromChars_infnan f fpu _ (by simp) (noNumber_letter neg c _ hc) (by simpa using hb), parseInfnan_minus f neg c _ (by omega)]
  have htake : (c :: (w' ++ rest)).take 3 = c :: w' := by rw [← List.cons_append, List.take_append_of_le_length (by rw [hlen]; decide), List.take_of_length_le (by rw [hlen]; decide)]
  have hdrop : (c :: (w' ++ rest)).drop 3 = rest := by rw [← List.cons_append, List.drop_append_of_le_length (by rw [hlen]; decide), List.drop_of_length_le (by rw [hlen]; decide), List.nil_append]
  have hcmp : strncasecmp (c :: w') (S "nan") = true := (strncasecmp_iff (S "nan") _ (by decide) (by rw [hlen]; decide)).2 hw
  have hl3 : (c :: (w' ++ rest)).length ≥ 3 := by
    rw [← List.cons_append, List.length_append, hlen]
    exact Nat.le_add_right 3 _
  dsimp only
  rw [if_pos hl3, htake, hdrop, if_pos hcmp]
  refine ⟨_, rfl, ?_⟩
  cases rest with
  | nil =>
    right
    refine ⟨rfl, ?_⟩
    rintro ⟨body, r, h, -⟩
    cases h
  | cons d t =>
    dsimp only
    by_cases hd : d = 40
    · rw [if_pos hd]
      cases hs : nanSeq t with
      | none =>
        right
        refine ⟨rfl, ?_⟩
        rintro ⟨body, r, h, hbody⟩
        simp only [List.cons_append, List.cons.injEq] at h
        rw [(nanSeq_iff t r).2 ⟨body, h.2, hbody⟩] at hs
        cases hs
      | some r =>
        left
        obtain ⟨body, h1, h2⟩ := (nanSeq_iff t r).1 hs
        exact ⟨body, by rw [hd, h1]; rfl, h2⟩
    · rw [if_neg hd]
      right
      refine ⟨rfl, ?_⟩
      rintro ⟨body, r, h, -⟩
      simp only [List.cons_append, List.cons.injEq] at h
      exact hd h.1

/-- C115: the letters i, n, f in any case, after an optional minus sign, are infinity with that sign; the letters i, n, i, t, y after it belong to it. -/
theorem C115_inf {f : Fmt} {F : Ieee} (hf : (f = dbl ∧ F = binary64) ∨ (f = flt ∧ F = binary32)) (fpu : Fpu) (neg : Bool) (w rest : List Nat) (hw : SameWord w wordInf)
    (hb : ∀ c ∈ minus neg ++ (w ++ rest), c < 256) :
    ∃ ptr, fromChars f fpu (minus neg ++ (w ++ rest)) = .ok ⟨ptr, .none, some (.bits (F.infBits + (if neg then F.signBit else 0)))⟩ ∧
      ((∃ v, rest = v ++ ptr ∧ SameWord v wordInity) ∨ (ptr = rest ∧ ¬ ∃ v r, rest = v ++ r ∧ SameWord v wordInity)) := by
  have hlen := sameWord_length hw
  obtain ⟨c, w', rfl⟩ : ∃ c w', w = c :: w' := by
    cases w with
    | nil => cases hlen
    | cons c w' => exact ⟨c, w', rfl⟩
  have hc : 65 ≤ c ∧ (c = 105 ∨ c = 73) := by
    have := (List.forall₂_cons.1 hw).1
    omega
  rw [List.cons_append, fromChars_infnan f fpu _ (by simp) (noNumber_letter neg c _ hc.1) (by simpa using hb), parseInfnan_minus f neg c _ (by omega)]
  have htake : (c :: (w' ++ rest)).take 3 = c :: w' := by rw [← List.cons_append, List.take_append_of_le_length (by rw [hlen]; decide), List.take_of_length_le (by rw [hlen]; decide)]
  have hdrop : (c :: (w' ++ rest)).drop 3 = rest := by rw [← List.cons_append, List.drop_append_of_le_length (by rw [hlen]; decide), List.drop_of_length_le (by rw [hlen]; decide), List.nil_append]
  have hnan : ¬ strncasecmp (c :: w') (S "nan") = true := by
    rw [strncasecmp_iff (S "nan") _ (by decide) (by rw [hlen]; decide)]
    intro h
    have : c = 110 ∨ c + 32 = 110 := (List.forall₂_cons.1 h).1
    omega
  have hcmp : strncasecmp (c :: w') (S "inf") = true := (strncasecmp_iff (S "inf") _ (by decide) (by rw [hlen]; decide)).2 hw
  have hl : (c :: (w' ++ rest)).length = 3 + rest.length := by
    rw [← List.cons_append, List.length_append, hlen]
    rfl
  have hinf : toFloat f neg ⟨0, f.infinitePower⟩ = F.infBits + (if neg then F.signBit else 0) := by
    rcases hf with ⟨rfl, rfl⟩ | ⟨rfl, rfl⟩ <;> cases neg <;> decide
  have hdrop8 : (c :: (w' ++ rest)).drop 8 = rest.drop 5 := by
    rw [show 8 = 3 + 5 by rfl, ← List.drop_drop, hdrop]
  dsimp only
  rw [if_pos (by omega), htake, hdrop, if_neg hnan, if_pos hcmp, hinf, hdrop8, hl]
  refine ⟨_, rfl, ?_⟩
  by_cases h : (decide (3 + rest.length ≥ 8) && strncasecmp (rest.take 5) (S "inity")) = true
  · rw [if_pos h]
    rw [Bool.and_eq_true, decide_eq_true_eq] at h
    left
    refine ⟨rest.take 5, (List.take_append_drop 5 rest).symm, ?_⟩
    exact (strncasecmp_iff (S "inity") _ (by decide) (by rw [List.length_take, Nat.min_eq_left (by omega)]; decide)).1 h.2
  · rw [if_neg h]
    right
    refine ⟨rfl, ?_⟩
    rintro ⟨v, r, hv, hs⟩
    apply h
    have hvl : v.length = 5 := sameWord_length hs
    have ht : rest.take 5 = v := by rw [hv, ← hvl]; exact List.take_left
    rw [ht, Bool.and_eq_true, decide_eq_true_eq]
    refine ⟨?_, (strncasecmp_iff (S "inity") _ (by decide) (by rw [hvl]; decide)).2 hs⟩
    rw [hv, List.length_append]
    omega

/-- C115: any other text is refused: nothing is assigned, and `ptr` is where it was. -/
theorem C115_refused (f : Fmt) (fpu : Fpu) (s : List Nat) (hb : ∀ c ∈ s, c < 256) (h1 : NoNumber s)
    (h2 : ¬ ∃ neg w r, s = minus neg ++ (w ++ r) ∧ (SameWord w wordNan ∨ SameWord w wordInf)) :
    fromChars f fpu s = .ok ⟨s, .invalidArgument, none⟩ := by
  by_cases hne : s = []
  · unfold fromChars
    rw [if_pos hne]
  rw [fromChars_infnan f fpu s hne h1 hb]
  obtain ⟨c, r, rfl⟩ : ∃ c r, s = c :: r := by
    cases s with
    | nil => exact absurd rfl hne
    | cons c r => exact ⟨c, r, rfl⟩
  unfold parseInfnan
  dsimp only
  obtain ⟨s', hs'⟩ : ∃ s', (if (c == 45) = true then r else c :: r) = s' := ⟨_, rfl⟩
  obtain ⟨neg, hneg⟩ : ∃ neg, (c == 45) = neg := ⟨_, rfl⟩
  have hsplit : c :: r = minus neg ++ s' := by
    cases neg
    · rw [← hs', hneg]; rfl
    · rw [← hs', hneg, beq_iff_eq.1 hneg]; rfl
  rw [hs']
  split
  · rename_i hl
    have hlen : (s'.take 3).length = 3 := by rw [List.length_take, Nat.min_eq_left hl]
    have hno : ∀ w, SameWord (s'.take 3) w → w ≠ wordNan ∧ w ≠ wordInf := by
      intro w hw
      constructor
      · rintro rfl
        exact h2 ⟨neg, s'.take 3, s'.drop 3, by rw [List.take_append_drop, hsplit], Or.inl hw⟩
      · rintro rfl
        exact h2 ⟨neg, s'.take 3, s'.drop 3, by rw [List.take_append_drop, hsplit], Or.inr hw⟩
    rw [if_neg, if_neg]
    · rw [strncasecmp_iff (S "inf") _ (by decide) (by rw [hlen]; decide)]
      intro h
      exact (hno _ h).2 rfl
    · rw [strncasecmp_iff (S "nan") _ (by decide) (by rw [hlen]; decide)]
      intro h
      exact (hno _ h).1 rfl
  · rfl

/-- "-iNf", "nan(a_1)x" and "+1": the last one is refused, because a plus sign is. -/
example (fpu : Fpu) : fromChars dbl fpu (S "-iNf") = .ok ⟨[], .none, some (.bits 0xFFF0000000000000)⟩ ∧
    fromChars dbl fpu (S "nan(a_1)x") = .ok ⟨S "x", .none, some (.nan false)⟩ ∧ fromChars dbl fpu (S "+1") = .ok ⟨S "+1", .invalidArgument, none⟩ := ⟨rfl, rfl, rfl⟩

example : SameWord (S "iNf") wordInf ∧ NoNumber (S "+1") := by
  refine ⟨by unfold SameWord; decide, ?_⟩
  intro t r ht hs
  obtain ⟨a, h1, h2, -⟩ := parse_complete t r ht (by rw [← hs]; decide)
  rw [← hs] at h1
  have : parseNumberString (S "+1") = .ok invalidPNS := by decide +kernel
  rw [this] at h1
  cases h1
  cases h2

/-- C120 for `float`: the bound for the power of ten `p` is the largest integer whose product with 5^p is at most 2^24. -/
theorem C120_float (p : Nat) (hp : p ≤ 10) (v : Nat) : v ≤ maxMantissaFastPathPower flt p ↔ v * 5 ^ p ≤ 2 ^ 24 := by
  have : ∀ p ≤ 10, maxMantissaFastPathPower flt p = 2 ^ 24 / 5 ^ p := by decide +kernel
  rw [this p hp]
  exact Nat.le_div_iff_mul_le (by positivity)

/-- C120 for `double`, as far as it holds: no integer up to the bound has a product with 5^p above 2^53.
Missing: the bound is not the largest such integer. -/
theorem C120_double_partial (p : Nat) (hp : p ≤ 22) (v : Nat) (h : v ≤ maxMantissaFastPathPower dbl p) : v * 5 ^ p ≤ 2 ^ 53 :=
  le_trans (Nat.mul_le_mul_right _ h) (dbl_fast.table p hp)

/-- C120 fails for `double`: the constant is 2^52, not 2^53, and from the power 14 on the bound is the one of the next power. -/
theorem C120_double_refuted : ¬ (∀ p ≤ 22, ∀ v, v ≤ maxMantissaFastPathPower dbl p ↔ v * 5 ^ p ≤ 2 ^ 53) ∧
    ¬ (∀ p ≤ 22, ∀ v, v ≤ maxMantissaFastPathPower dbl p ↔ v * 5 ^ p ≤ 2 ^ 52) := by
  constructor
  · intro h
    exact absurd ((h 0 (by omega) (2 ^ 53)).2 (by decide)) (by decide +kernel)
  · intro h
    exact absurd ((h 14 (by omega) (2 ^ 52 / 5 ^ 14)).2 (by decide)) (by decide +kernel)

example : (3 * 10 ^ 5) * 5 ^ 14 ≤ 2 ^ 52 ∧ ¬ 10 ^ 6 * 5 ^ 14 ≤ 2 ^ 52 := by decide

end C4
