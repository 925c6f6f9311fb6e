import Verif.Debug.Utf
import Verif.Props.Utf
import Verif.Props.SubstrTrim
import Verif.Props.DebugRead
/-
C164: the assertions of the decoding of code points.
-/
namespace C4
open Spec

/-- C164: the form with a number asserts room for four bytes, and nothing else. -/
theorem C164_number (code : Nat) (buf : List Nat) :
    (4 ≤ buf.length → decodeCodePointD code buf = decodeCodePoint code buf) ∧ (buf.length < 4 → decodeCodePointD code buf = .abort) := by
  unfold decodeCodePointD
  refine ⟨fun h => ?_, fun h => ?_⟩
  · rw [assertThat_pos (c := buf.length ≥ 4) h]; rfl
  · rw [assertThat_neg (by omega)]; rfl

theorem beginsWith_no {s p : List Nat} (h : ∀ t, s ≠ p ++ t) : beginsWith s p = .ok false := by
  obtain ⟨b, hb, hb'⟩ := (C32_begins_ends s p).1
  rw [hb]
  cases b with
  | false => rfl
  | true => obtain ⟨t, ht⟩ := hb'.mp rfl; exact absurd ht (h t)

theorem beginsWithC_no {s : List Nat} {c : Nat} (h : ∀ t, s ≠ c :: t) : beginsWithC s c = .ok false := by
  obtain ⟨b, hb, hb'⟩ := (C32_begins_ends_char s [] c).1
  rw [hb]
  cases b with
  | false => rfl
  | true => obtain ⟨t, ht⟩ := hb'.mp rfl; exact absurd ht (h t)

/-- C164: the form with a text accepts exactly one to eight hexadecimal digits of which the first is not zero, with room for four bytes; then it does what it
does without assertions. -/
theorem C164_text_partial (s buf : List Nat) :
    (∀ n, 4 ≤ buf.length → s.length ≤ 8 → s.head? ≠ some 48 → DigitText 16 s n →
      (n ≤ 0x10ffff → ∃ u, Utf8 u n ∧ decodeCodePointSD s buf = .ok (u.length, overwrite u buf)) ∧ (0x10ffff < n → decodeCodePointSD s buf = .ok (0, buf))) ∧
    (buf.length < 4 ∨ 8 < s.length ∨ s.head? = some 48 ∨ (¬ ∃ n, DigitText 16 s n) → decodeCodePointSD s buf = .abort) := by
  refine ⟨fun n hb h8 h0 hn => ?_, fun h => ?_⟩
  · have hne : s ≠ [] := hn.1
    have hc : ∀ c ∈ s, (charDigit c).isSome := by
      obtain ⟨_, ds, ⟨hm, _⟩, _⟩ := hn
      intro c hc
      have := List.mem_map_of_mem (f := charDigit) hc
      rw [hm] at this
      obtain ⟨d, _, hd⟩ := List.mem_map.mp this
      rw [← hd]; rfl
    have hno : ∀ p : List Nat, (∃ x t, p = x :: t ∧ charDigit x = none) → beginsWith s p = .ok false := by
      rintro p ⟨x, t, rfl, hx⟩
      refine beginsWith_no fun r hr => ?_
      have := hc x (by rw [hr]; simp)
      rw [hx] at this
      simp at this
    have key : decodeCodePointSD s buf = (decodeCodePoint n buf).bind fun r =>
        (assertThat (r.1 ≤ 4)).bind fun _ => (assertThat (r.1 ≤ r.2.length)).bind fun _ => .ok (r.1, r.2) := by
      have hS := (C60_decode_string s buf hne h8).1 n hn
      unfold decodeCodePointS at hS
      unfold decodeCodePointSD
      rw [assertThat_pos (c := buf.length ≥ 4) hb, hno (S "U+") ⟨85, [43], by decide, by decide⟩, hno (S "\\x") ⟨92, [120], by decide, by decide⟩,
        hno (S "\\u") ⟨92, [117], by decide, by decide⟩, hno (S "\\U") ⟨92, [85], by decide, by decide⟩,
        beginsWithC_no (c := 48) (fun t ht => h0 (by rw [ht]; rfl)), assertThat_pos (c := s.length ≤ 8) h8,
        assertThat_pos (c := s.length > 0) (List.length_pos_iff.mpr hne), readHexD_eq _ (by simpa using hne)]
      simp only [Res.ok_bind]
      have hr := C10_read_hex ⟨.w32, false⟩ s hne
      obtain ⟨⟨ok, v, o⟩, hrd⟩ : ∃ r, readHex ⟨.w32, false⟩ s = r := ⟨_, rfl⟩
      rw [hrd] at hr hS ⊢
      have hok : ok = true := hr.1.mpr ⟨n, n, hn, rfl⟩
      subst hok
      simp only at hS
      simp only [if_true, (C164_number _ buf).1 hb, hS]
      rfl
    obtain ⟨h1, h2⟩ := C60_decode_code_point n buf hb
    refine ⟨fun hle => ?_, fun hgt => ?_⟩
    · obtain ⟨u, hu, hd⟩ := h1 hle
      have hl : u.length ≤ 4 := by cases hu <;> simp
      refine ⟨u, hu, ?_⟩
      rw [key, hd]
      simp only [Res.bind]
      rw [assertThat_pos hl, assertThat_pos (c := u.length ≤ (overwrite u buf).length) (by unfold overwrite; simp)]
    · rw [key, h2 hgt]
      simp only [Res.bind]
      rw [assertThat_pos (c := 0 ≤ 4) (by omega), assertThat_pos (c := 0 ≤ buf.length) (by omega)]
  · unfold decodeCodePointSD
    by_cases hb : buf.length < 4
    · rw [assertThat_neg (by omega)]; rfl
    rw [assertThat_pos (c := buf.length ≥ 4) (by omega), Res.ok_bind]
    -- whatever the four prefixes are, what follows them is what fails
    have step : ∀ (p : List Nat) (k : Res (Nat × List Nat)), k = .abort →
        (do let b ← beginsWith s p; assertThat (b = false); k : Res (Nat × List Nat)) = .abort := by
      intro p k hk
      obtain ⟨b, hb, _⟩ := (C32_begins_ends s p).1
      rw [hb, hk]
      cases b <;> rfl
    refine step _ _ (step _ _ (step _ _ (step _ _ ?_)))
    obtain ⟨b, hb1, hb2⟩ := (C32_begins_ends_char s [] 48).1
    rw [hb1, Res.ok_bind]
    by_cases h48 : b = true
    · rw [h48]; rfl
    rw [assertThat_pos (c := b = false) (by simpa using h48), Res.ok_bind]
    by_cases h8 : 8 < s.length
    · rw [assertThat_neg (by omega)]; rfl
    rw [assertThat_pos (c := s.length ≤ 8) (by omega), Res.ok_bind]
    by_cases hne : s = []
    · rw [assertThat_neg (by simp [hne])]; rfl
    have hn : ¬ ∃ n, DigitText 16 s n := by
      rcases h with h | h | h | h
      · omega
      · omega
      · exfalso
        cases s with
        | nil => simp at h
        | cons x t => simp at h; subst h; exact h48 (hb2.mpr ⟨t, rfl⟩)
      · exact h
    rw [assertThat_pos (c := s.length > 0) (List.length_pos_iff.mpr hne), Res.ok_bind, readHexD_eq _ (by simpa using hne), Res.ok_bind]
    have hr := C10_read_hex ⟨.w32, false⟩ s hne
    obtain ⟨⟨ok, v, o⟩, hrd⟩ : ∃ r, readHex ⟨.w32, false⟩ s = r := ⟨_, rfl⟩
    rw [hrd] at hr ⊢
    cases ok with
    | false => rfl
    | true =>
      obtain ⟨_, n, hx, _⟩ := hr.1.mp rfl
      exact absurd ⟨n, hx⟩ hn

/-- C164 is false for texts with leading zeros: they are refused, so no text of the code point zero is accepted. -/
theorem C164_refuted : (∀ s buf, DigitText 16 s 0 → decodeCodePointSD s buf = .abort) ∧
    decodeCodePointSD (S "0041") (S "....") = .abort ∧ decodeCodePointS (S "0041") (S "....") = .ok (1, S "A...") := by
  refine ⟨fun s buf h => ?_, by decide +kernel, by decide +kernel⟩
  refine (C164_text_partial s buf).2 (.inr (.inr (.inl ?_)))
  obtain ⟨hne, ds, ⟨hm, hd⟩, hv⟩ := h
  match s, ds, hm with
  | [], _, _ => exact absurd rfl hne
  | c :: s, [], hm => simp at hm
  | c :: s, d :: ds, hm =>
    have hd0 : d = 0 := by
      rw [value_cons] at hv
      rcases Nat.eq_zero_or_pos d with h | h
      · exact h
      · have : 0 < d * 16 ^ ds.length := Nat.mul_pos h (Nat.pow_pos (by omega))
        omega
    have hc : charDigit c = some 0 := by
      have := (List.cons.inj hm).1
      rw [this, hd0]
    have : c = 48 := by
      unfold charDigit at hc
      split at hc
      · simp at hc; omega
      · split at hc
        · simp at hc
        · split at hc <;> simp at hc
    rw [this]; rfl

example : decodeCodePointSD (S "20ac") (S ".....") = .ok (3, [0xe2, 0x82, 0xac, 46, 46]) ∧ decodeCodePointSD (S "110000") (S "....") = .ok (0, S "....") ∧
    decodeCodePointSD (S "U+41") (S "....") = .abort ∧ decodeCodePointSD (S "41") (S "...") = .abort := by decide +kernel

end C4
