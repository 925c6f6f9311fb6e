import Verif.Props.CharconvConvert
/-
Properties C19 and C21, exactly: which numbers found by the span scanner are converted, and which texts are read as a first bool.
-/
namespace C4
open Spec

/-- No text of a natural number begins with a character that is not a digit. -/
theorem uintDenotes_head {c : Nat} {t : List Nat} {n : Nat} (h : UintDenotes (c :: t) n) : 48 ≤ c ∧ c ≤ 57 := by
  obtain ⟨c', t', e, h1, h2⟩ := h.head
  cases e
  exact ⟨h1, h2⟩

/-- **C19**, exactly: a number found by `first_int_span` is converted by `atoi_first` if and only if it does not start with a plus
sign; with a plus sign the result is npos, for every type. -/
theorem C19_int_exact (t : ITy) (s : List Nat) {off n : Nat} (h : firstIntSpan s = .ok (off, n)) (hn : n ≠ 0) :
    (s[off]? ≠ some 43 → ∃ v, atoiFirst t s = .ok (some (off + n, v))) ∧
    (s[off]? = some 43 → atoiFirst t s = .ok none) := by
  refine ⟨C19_int_partial t s h hn, fun hp => ?_⟩
  obtain ⟨r, e, _, _, h3⟩ := firstIntSpan_contract s
  rw [h] at e; cases e
  obtain ⟨ws, tok, rest, e1, e2, e3, e4, e5, e6⟩ := h3 hn
  obtain ⟨⟨b, v, o⟩, c1, c2, _⟩ := C12_atoi t tok
  have hof : Rng.of s (off, n) = tok := by
    have : (off, n) = (ws.length, tok.length) := Prod.ext e5 e6
    rw [this, e1, Rng_of_mid]
  have hb : b = false := by
    cases b with
    | false => rfl
    | true =>
      exfalso
      obtain ⟨x, hx⟩ := c2.mp rfl
      have hne : tok ≠ [] := by rintro rfl; exact hn e6
      obtain ⟨c, t', rfl⟩ := List.exists_cons_of_ne_nil hne
      have hc : c = 43 := by
        rw [e1, show off = ws.length from e5] at hp
        simpa using hp
      subst hc
      cases hx with
      | pos hu => have := uintDenotes_head hu; omega
  subst hb
  unfold atoiFirst
  rw [h, Res.ok_bind, if_neg (by exact hn), hof, c1, Res.ok_bind]
  rfl

/-- **C19**, exactly, for `first_uint_span`/`atou_first`. -/
theorem C19_uint_exact (t : ITy) (s : List Nat) {off n : Nat} (h : firstUintSpan s = .ok (off, n)) (hn : n ≠ 0) :
    (s[off]? ≠ some 43 → ∃ v, atouFirst t s = .ok (some (off + n, v))) ∧
    (s[off]? = some 43 → atouFirst t s = .ok none) := by
  refine ⟨C19_uint_partial t s h hn, fun hp => ?_⟩
  obtain ⟨r, e, _, _, h3⟩ := firstUintSpan_contract s
  rw [h] at e; cases e
  obtain ⟨ws, tok, rest, e1, e2, e3, e4, e5, e6⟩ := h3 hn
  obtain ⟨⟨b, v, o⟩, c1, c2, _⟩ := C11_atou t tok
  have hof : Rng.of s (off, n) = tok := by
    have : (off, n) = (ws.length, tok.length) := Prod.ext e5 e6
    rw [this, e1, Rng_of_mid]
  have hb : b = false := by
    cases b with
    | false => rfl
    | true =>
      exfalso
      obtain ⟨x, m, hx, _⟩ := c2.mp rfl
      have hne : tok ≠ [] := by rintro rfl; exact hn e6
      obtain ⟨c, t', rfl⟩ := List.exists_cons_of_ne_nil hne
      have hc : c = 43 := by
        rw [e1, show off = ws.length from e5] at hp
        simpa using hp
      subst hc
      have := uintDenotes_head hx
      omega
  subst hb
  unfold atouFirst
  rw [h, Res.ok_bind, if_neg (by exact hn), hof, c1, Res.ok_bind]
  rfl

example : firstIntSpan (S "\t+0x1f,") = .ok (1, 5) ∧ (S "\t+0x1f,")[1]? = some 43 := by decide +kernel
example : firstUintSpan (S "  17") = .ok (2, 2) ∧ (S "  17")[2]? ≠ some 43 := by decide +kernel

/-- No character of a digit string is a blank. -/
theorem digitText_noBlank {b n : Nat} {s : List Nat} (h : DigitText b s n) : ∀ c ∈ s, ¬ Blank c := by
  obtain ⟨_, ds, ⟨h1, _⟩, _⟩ := h
  intro c hc hb
  have h2 : charDigit c ∈ s.map charDigit := List.mem_map_of_mem hc
  rw [h1] at h2
  obtain ⟨d, _, hd⟩ := List.mem_map.mp h2
  unfold Blank at hb
  rw [charDigit, if_neg (by omega), if_neg (by omega), if_neg (by omega)] at hd
  cases hd

theorem uintDenotes_noBlank {n : Nat} {s : List Nat} (h : UintDenotes s n) : ∀ c ∈ s, ¬ Blank c := by
  cases h with
  | dec h => exact digitText_noBlank h
  | @pre c r s' n hr h =>
    intro x hx
    simp only [List.mem_cons] at hx
    rcases hx with rfl | rfl | hx
    · unfold Blank; omega
    · intro hb
      unfold Blank at hb
      rw [radixOf, if_neg (by omega), if_neg (by omega), if_neg (by omega)] at hr
      cases hr
    · exact digitText_noBlank h x hx

/-- A bool text is not empty and has no blanks. -/
theorem boolText_run {s : List Nat} {b : Bool} (h : BoolText s b) : Run (fun c => ¬ Blank c) s := by
  have hw : ∀ w : List Nat, w ≠ [] → (∀ c ∈ w, c ≠ 32 ∧ c ≠ 10 ∧ c ≠ 13 ∧ c ≠ 9) → Run (fun c => ¬ Blank c) w :=
    fun w h0 h1 => ⟨h0, fun c hc hb => by have := h1 c hc; unfold Blank at hb; omega⟩
  cases h with
  | int hi _ =>
    cases hi with
    | pos hu =>
      obtain ⟨c, t, e, _, _⟩ := hu.head
      exact ⟨by rw [e]; simp, uintDenotes_noBlank hu⟩
    | neg hu =>
      refine ⟨by simp, fun c hc => ?_⟩
      simp only [List.mem_cons] at hc
      rcases hc with rfl | hc
      · unfold Blank; omega
      · exact uintDenotes_noBlank hu c hc
  | _ => exact hw _ (by decide) (by decide)

/-- **C21**, exactly: for every string shorter than 2^31 characters, `from_chars_first(str, bool*)` succeeds if and only if the whole
string is a bool text; the result is then its size and value. -/
theorem C21_bool_exact (sgn : Bool) (s : CView) (hs : s.wf) (hl : s.chars.length < 2 ^ 31) :
    ∃ r, fromCharsFirstBool sgn s = .ok r ∧
      ∀ n b, r = some (n, b) ↔ n = s.chars.length ∧ BoolText s.chars b := by
  by_cases hr : Run (fun c => ¬ Blank c) s.chars
  · exact C21_bool_partial sgn s hs hl hr
  · have hno : ∀ b, ¬ BoolText s.chars b := fun b h => hr (boolText_run h)
    obtain ⟨r, e, h⟩ := C20_bool_read sgn s hs hl
    have hrn : r = none := by
      cases r with
      | none => rfl
      | some b => exact absurd ((h b).mp rfl) (hno b)
    subst hrn
    refine ⟨none, ?_, fun n b => ⟨fun h => (Option.some_ne_none _ h.symm).elim, fun h => absurd h.2 (hno b)⟩⟩
    unfold fromCharsFirstBool
    rcases firstNonEmptySpan_eq s.chars with ⟨_, h2⟩ | ⟨ws, ne, rest, _, _, h3, _, h5⟩
    · rw [h2, Res.ok_bind, if_pos rfl]
    · rw [h5, Res.ok_bind, if_neg (fun h => h3.1 (List.length_eq_zero_iff.mp h)), e, Res.ok_bind]

/-- **C21**, the consequence: whatever the text of the first run, with a blank anywhere in the string the result is npos. -/
theorem C21_blank (sgn : Bool) (s : CView) (hs : s.wf) (hl : s.chars.length < 2 ^ 31) {c : Nat} (hc : c ∈ s.chars)
    (hb : Blank c) : fromCharsFirstBool sgn s = .ok none := by
  obtain ⟨r, e, h⟩ := C21_bool_exact sgn s hs hl
  rw [e]
  cases r with
  | none => rfl
  | some p =>
    obtain ⟨n, b⟩ := p
    exact absurd hb ((boolText_run ((h n b).mp rfl).2).2 c hc)

example : CView.wf ⟨false, S "TRUE "⟩ ∧ (32 : Nat) ∈ S "TRUE " ∧ Blank 32 :=
  ⟨⟨by simp, by unfold Bytes; decide +kernel⟩, by decide +kernel, Or.inl rfl⟩

end C4
