import Verif.Charconv.Convert
import Verif.Props.CharconvRead
import Verif.Props.CharconvWrite
import Verif.Props.SubstrSpans
import Verif.Props.SubstrCompare
/-
Properties C18-C21, C84: conversions of the first number of a text, and of bool, char, strings and pointers.
-/
namespace C4
open Spec

/-! ### C18, C19 -/

/-- Specification: the first `n` characters of `s` are blanks and a text denoting (`D`) the number whose
representation in the type is `v`; a delimiter or the end follows. -/
def Spec.FirstNumber (t : ITy) (D : List Nat → Int → Prop) (s : List Nat) (n : Nat) (v : Int) : Prop :=
  ∃ ws tok rest val, s = ws ++ tok ++ rest ∧ (∀ c ∈ ws, Blank c) ∧ DelimEnd rest ∧ n = ws.length + tok.length ∧
    tok ≠ [] ∧ D tok val ∧ StoredAs t val v

/-- Common part: a span function followed by a conversion. -/
theorem first_core {t : ITy} {T : List Nat → Prop} {D : List Nat → Int → Prop} {span : List Nat → Res Rng}
    {conv : List Nat → Res (Bool × Int × Bool)} (hspan : SpanContract span T)
    (hconv : ∀ s, ∃ r, conv s = .ok r ∧ Reads t (D s) r) (s : List Nat) :
    ∃ r, (do
        let r ← span s
        if r.2 = 0 then .ok none
        else do
          let (ok, v, _) ← conv (Rng.of s r)
          .ok (if ok then some (r.1 + r.2, v) else none)) = Res.ok r ∧
      (∀ n v, r = some (n, v) → FirstNumber t D s n v) ∧
      (∀ off n, n ≠ 0 → TokenAt (fun tok => T tok ∧ ∃ x, D tok x) s off n → ∃ v, r = some (off + n, v)) := by
  obtain ⟨r, e, _, h2, h3⟩ := hspan s
  rw [e, Res.ok_bind]
  by_cases hr : r.2 = 0
  · rw [if_pos hr]
    refine ⟨none, rfl, by simp, fun off n hn hT => ?_⟩
    obtain ⟨ws, tok, rest, e1, e2, ⟨e3, _⟩, e4, e5, e6⟩ := hT
    have := h2 off n ⟨ws, tok, rest, e1, e2, e3, e4, e5, e6⟩
    rw [this] at hr
    exact absurd hr hn
  · rw [if_neg hr]
    obtain ⟨⟨b, v, o⟩, c1, c2, c3⟩ := hconv (Rng.of s r)
    rw [c1, Res.ok_bind]
    refine ⟨_, rfl, fun n w hw => ?_, fun off n hn hT => ?_⟩
    · obtain ⟨ws, tok, rest, e1, e2, e3, e4, e5, e6⟩ := h3 hr
      have hof : Rng.of s r = tok := by
        have : r = (ws.length, tok.length) := Prod.ext e5 e6
        rw [this, e1, Rng_of_mid]
      cases b with
      | false => simp at hw
      | true =>
        simp at hw
        obtain ⟨x, hx⟩ := c2.mp rfl
        refine ⟨ws, tok, rest, x, e1, e2, e4, by omega, ?_, hof ▸ hx, hw.2 ▸ c3 x hx⟩
        rintro rfl; simp at e6; omega
    · obtain ⟨ws, tok, rest, e1, e2, ⟨e3, x, hx⟩, e4, e5, e6⟩ := hT
      have hrr := h2 off n ⟨ws, tok, rest, e1, e2, e3, e4, e5, e6⟩
      have hof : Rng.of s r = tok := by
        have : r = (ws.length, tok.length) := by rw [hrr, e5, e6]
        rw [this, e1, Rng_of_mid]
      rw [hof] at c2
      have : b = true := c2.mpr ⟨x, hx⟩
      rw [this, hrr]
      exact ⟨v, by simp⟩

/-- **C18** for `atoi_first`: it always returns, and if the result is not npos then that many leading characters are blanks and
a number text with the stored value, followed by a delimiter or the end. -/
theorem C18_atoi_first (t : ITy) (s : List Nat) :
    ∃ r, atoiFirst t s = .ok r ∧ ∀ n v, r = some (n, v) → FirstNumber t IntDenotes s n v := by
  obtain ⟨r, e, h, _⟩ := first_core firstIntSpan_contract (C12_atoi t) s
  exact ⟨r, e, h⟩

/-- **C18** for `atou_first`. -/
theorem C18_atou_first (t : ITy) (s : List Nat) :
    ∃ r, atouFirst t s = .ok r ∧ ∀ n v, r = some (n, v) → FirstNumber t uintInt s n v := by
  obtain ⟨r, e, h, _⟩ := first_core firstUintSpan_contract (C11_atou t) s
  exact ⟨r, e, h⟩

example : atoiFirst ⟨.w16, true⟩ (S " \n-0x7F, 3") = .ok (some (7, -127)) := by decide +kernel
example : atouFirst ⟨.w8, false⟩ (S "   300]") = .ok (some (6, 44)) := by decide +kernel
example : atouFirst ⟨.w8, false⟩ (S "-3") = .ok none := by decide +kernel

theorem digits_exist {P : Nat → Prop} {b : Nat} (hP : ∀ c, P c → ∃ d, charDigit c = some d ∧ d < b) {ds : List Nat}
    (h : Run P ds) : ∃ n, DigitText b ds n := by
  have key : ∀ ds : List Nat, (∀ c ∈ ds, P c) → ∃ vs, IsDigits b ds vs := by
    intro ds
    induction ds with
    | nil => intro _; exact ⟨[], isDigits_nil.mpr rfl⟩
    | cons c ds ih =>
      intro h
      obtain ⟨vs, hv⟩ := ih (fun x hx => h x (by simp [hx]))
      obtain ⟨d, hd, hb⟩ := hP c (h c (by simp))
      exact ⟨d :: vs, isDigits_cons.mpr ⟨d, vs, rfl, hd, hb, hv⟩⟩
  obtain ⟨vs, hv⟩ := key ds h.2
  exact ⟨_, h.1, vs, hv, rfl⟩

/-- An integer literal of the span grammar denotes a number. -/
theorem intBody_denotes {b : List Nat} (h : IntBody b) : ∃ n, UintDenotes b n := by
  have hd : ∀ c, DecChar c → ∃ d, charDigit c = some d ∧ d < 10 := by
    intro c hc; unfold DecChar at hc
    exact ⟨c - 48, by simp [charDigit, hc], by omega⟩
  have hx : ∀ c, HexChar c → ∃ d, charDigit c = some d ∧ d < 16 := by
    intro c hc; unfold HexChar at hc
    rcases hc with h | h | h
    · exact ⟨c - 48, by simp [charDigit, h], by omega⟩
    · exact ⟨c - 97 + 10, by rw [charDigit, if_neg (by omega), if_pos h], by omega⟩
    · exact ⟨c - 65 + 10, by rw [charDigit, if_neg (by omega), if_neg (by omega), if_pos h], by omega⟩
  have hb : ∀ c, BinChar c → ∃ d, charDigit c = some d ∧ d < 2 := by
    intro c hc; unfold BinChar at hc
    exact ⟨c - 48, by rw [charDigit, if_pos (by omega)], by omega⟩
  have ho : ∀ c, OctChar c → ∃ d, charDigit c = some d ∧ d < 8 := by
    intro c hc; unfold OctChar at hc
    exact ⟨c - 48, by rw [charDigit, if_pos (by omega)], by omega⟩
  cases h with
  | dec h => obtain ⟨n, hn⟩ := digits_exist hd h; exact ⟨n, .dec hn⟩
  | hex hc h =>
    obtain ⟨n, hn⟩ := digits_exist hx h
    exact ⟨n, .pre (r := 16) (by rcases hc with rfl | rfl <;> rfl) hn⟩
  | bin hc h =>
    obtain ⟨n, hn⟩ := digits_exist hb h
    exact ⟨n, .pre (r := 2) (by rcases hc with rfl | rfl <;> rfl) hn⟩
  | oct hc h =>
    obtain ⟨n, hn⟩ := digits_exist ho h
    exact ⟨n, .pre (r := 8) (by rcases hc with rfl | rfl <;> rfl) hn⟩

/-- **C19** refuted: `first_int_span`/`first_uint_span` find the number `+1`, but `atoi_first`/`atou_first` do not convert it. -/
theorem C19_refuted :
    firstIntSpan (S "+1") = .ok (0, 2) ∧ atoiFirst ⟨.w32, true⟩ (S "+1") = .ok none ∧
    firstUintSpan (S "+1") = .ok (0, 2) ∧ atouFirst ⟨.w32, false⟩ (S "+1") = .ok none := by
  decide +kernel

/-- **C19**, what holds: a number found by `first_int_span` that does not start with '+' is converted.
Missing: numbers with a plus sign (false, see `C19_refuted`). -/
theorem C19_int_partial (t : ITy) (s : List Nat) {off n : Nat} (h : firstIntSpan s = .ok (off, n)) (hn : n ≠ 0)
    (hp : s[off]? ≠ some 43) : ∃ v, atoiFirst t s = .ok (some (off + n, v)) := by
  obtain ⟨r, e, _, _, h3⟩ := firstIntSpan_contract s
  rw [h] at e; cases e
  obtain ⟨q, e, _, hc⟩ := first_core firstIntSpan_contract (C12_atoi t) s
  obtain ⟨ws, tok, rest, e1, e2, e3, e4, e5, e6⟩ := h3 hn
  have hx : ∃ x, IntDenotes tok x := by
    obtain ⟨sg, body, rfl, hs, hb⟩ := e3
    obtain ⟨m, hm⟩ := intBody_denotes hb
    rcases hs with rfl | rfl | ⟨_, rfl⟩
    · exact ⟨m, .pos hm⟩
    · exfalso; apply hp; rw [e1, show off = ws.length from e5]; simp
    · exact ⟨_, .neg hm⟩
  obtain ⟨v, hv⟩ := hc off n hn ⟨ws, tok, rest, e1, e2, ⟨e3, hx⟩, e4, e5, e6⟩
  exact ⟨v, by unfold atoiFirst; rw [e, hv]⟩

/-- **C19**, what holds, for `first_uint_span`/`atou_first`.  Missing: numbers with a plus sign (false, see `C19_refuted`). -/
theorem C19_uint_partial (t : ITy) (s : List Nat) {off n : Nat} (h : firstUintSpan s = .ok (off, n)) (hn : n ≠ 0)
    (hp : s[off]? ≠ some 43) : ∃ v, atouFirst t s = .ok (some (off + n, v)) := by
  obtain ⟨r, e, _, _, h3⟩ := firstUintSpan_contract s
  rw [h] at e; cases e
  obtain ⟨q, e, _, hc⟩ := first_core firstUintSpan_contract (C11_atou t) s
  obtain ⟨ws, tok, rest, e1, e2, e3, e4, e5, e6⟩ := h3 hn
  have hx : ∃ x, uintInt tok x := by
    obtain ⟨sg, body, rfl, hs, hb⟩ := e3
    obtain ⟨m, hm⟩ := intBody_denotes hb
    rcases hs with rfl | rfl | ⟨h, _⟩
    · exact ⟨m, m, hm, rfl⟩
    · exfalso; apply hp; rw [e1, show off = ws.length from e5]; simp
    · simp at h
  obtain ⟨v, hv⟩ := hc off n hn ⟨ws, tok, rest, e1, e2, ⟨e3, hx⟩, e4, e5, e6⟩
  exact ⟨v, by unfold atouFirst; rw [e, hv]⟩

example : firstIntSpan (S " -12 ") = .ok (1, 3) ∧ (S " -12 ")[1]? ≠ some 43 := by decide +kernel

/-! ### C20: strings and characters -/

/-- The copy of the smaller of both lengths. -/
theorem copyMin_eq (v buf : List Nat) : copyMin v buf = .ok (v.take buf.length ++ buf.drop v.length) := by
  unfold copyMin
  simp only
  by_cases h : buf.length < v.length
  · rw [if_pos h]
    by_cases h0 : buf.length = 0
    · have := List.length_eq_zero_iff.mp h0
      subst this; simp
    · rw [if_pos h0, memcpyTo_ok (by simp)]
      have h1 : min buf.length v.length = buf.length := by omega
      simp [h1]; omega
  · rw [if_neg h]
    by_cases h0 : v.length = 0
    · have := List.length_eq_zero_iff.mp h0
      subst this; simp
    · rw [if_pos h0, memcpyTo_ok (by simp; omega)]
      simp [List.take_of_length_le (Nat.le_of_not_lt h)]

/-- **C20**: writing a string: the full size is returned, the buffer keeps its size, receives the text cut at its end, and
is unchanged beyond the text; nothing is written out of bounds. -/
theorem C20_string_write (v buf : List Nat) :
    toCharsStr v buf = .ok (v.length, v.take buf.length ++ buf.drop v.length) ∧
    (v.take buf.length ++ buf.drop v.length).length = buf.length := by
  refine ⟨?_, by simp; omega⟩
  unfold toCharsStr
  rw [copyMin_eq]; rfl

/-- **C20**: a string that fits is written in full, and the characters beyond it are unchanged. -/
theorem C20_string_fits (v buf : List Nat) (h : v.length ≤ buf.length) :
    toCharsStr v buf = .ok (v.length, overwrite v buf) := by
  rw [(C20_string_write v buf).1, List.take_of_length_le h]; rfl

/-- **C20**: reading a string into a writable view: true with the exact copy and length if it fits, else false and nothing is
written. -/
theorem C20_string_read (s dst : List Nat) :
    fromCharsSubstr s dst = .ok (if s.length ≤ dst.length then (true, overwrite s dst, s.length)
      else (false, dst, dst.length)) := by
  unfold fromCharsSubstr
  by_cases h : s.length ≤ dst.length
  · rw [if_pos h, if_pos h]
    by_cases h0 : s.length = 0
    · have := List.length_eq_zero_iff.mp h0
      subst this; simp [overwrite]
    · rw [if_pos h0, memcpyTo_ok (by omega)]
      simp [overwrite]
  · rw [if_neg h, if_neg h]

/-- **C20**: reading a string into a `std::string` or `std::vector<char>` gives that string whatever was there before. -/
theorem C20_container_read (s old : List Nat) : fromCharsContainer s old = .ok s := by
  have hl : (old.take s.length ++ List.replicate (s.length - old.length) 0).length = s.length := by simp; omega
  unfold fromCharsContainer
  simp only
  by_cases h0 : s.length = 0
  · have := List.length_eq_zero_iff.mp h0
    subst this; simp
  · rw [if_pos h0, memcpyTo_ok (by omega)]
    simp only [List.take_zero, List.nil_append, Nat.zero_add]
    rw [List.drop_eq_nil_of_le (by omega)]; simp

/-- **C20**: string round trip: what was written to a large enough buffer is read back. -/
theorem C20_string_roundtrip (v buf old : List Nat) (h : v.length ≤ buf.length) :
    ∃ n b, toCharsStr v buf = .ok (n, b) ∧ fromCharsContainer (b.take n) old = .ok v :=
  ⟨_, _, C20_string_fits v buf h, by rw [overwrite_take, C20_container_read]⟩

/-- **C20**: the first non-blank run of a text is what `from_chars_first` to a string view selects. -/
theorem C20_first_view (s : List Nat) :
    ((∀ c ∈ s, Blank c) ∧ fromCharsFirstCsubstr s = .ok none) ∨
    ∃ ws ne rest, s = ws ++ ne ++ rest ∧ (∀ c ∈ ws, Blank c) ∧ Run (fun c => ¬ Blank c) ne ∧
      (∀ c, rest.head? = some c → Blank c) ∧
      fromCharsFirstCsubstr s = .ok (some (ws.length + ne.length, (ws.length, ne.length))) := by
  unfold fromCharsFirstCsubstr
  rcases firstNonEmptySpan_eq s with ⟨h1, h2⟩ | ⟨ws, ne, rest, h1, h2, h3, h4, h5⟩
  · left; exact ⟨h1, by rw [h2]; rfl⟩
  · right
    refine ⟨ws, ne, rest, h1, h2, h3, h4, ?_⟩
    rw [h5, Res.ok_bind, if_neg]
    exact fun h => h3.1 (List.length_eq_zero_iff.mp h)

/-- **C20**: `from_chars_first` to a writable view stores the first non-blank run cut at the end of the destination, never
beyond it, and reports success exactly if the run fits. -/
theorem C20_first_copy (s dst : List Nat) :
    ((∀ c ∈ s, Blank c) ∧ fromCharsFirstSubstr s dst = .ok (none, dst)) ∨
    ∃ ws ne rest, s = ws ++ ne ++ rest ∧ (∀ c ∈ ws, Blank c) ∧ Run (fun c => ¬ Blank c) ne ∧
      (∀ c, rest.head? = some c → Blank c) ∧
      fromCharsFirstSubstr s dst = .ok (if ne.length ≤ dst.length then some (ws.length + ne.length) else none,
        ne.take dst.length ++ dst.drop ne.length) := by
  unfold fromCharsFirstSubstr
  rcases firstNonEmptySpan_eq s with ⟨h1, h2⟩ | ⟨ws, ne, rest, h1, h2, h3, h4, h5⟩
  · left; exact ⟨h1, by rw [h2]; rfl⟩
  · right
    refine ⟨ws, ne, rest, h1, h2, h3, h4, ?_⟩
    rw [h5, Res.ok_bind, if_neg (fun h => h3.1 (List.length_eq_zero_iff.mp h))]
    have hof : Rng.of s (ws.length, ne.length) = ne := by rw [h1, Rng_of_mid]
    rw [hof, copyMin_eq, Res.ok_bind]
    simp only [gt_iff_lt]
    by_cases hlt : dst.length < ne.length
    · rw [if_pos hlt, if_neg (by omega)]
    · rw [if_neg hlt, if_pos (by omega)]

/-- **C20**: a character: one is always the size needed, it is stored if there is room, and is read back. -/
theorem C20_char (c : Nat) (buf : List Nat) :
    toCharsChar c buf = .ok (1, if 1 ≤ buf.length then overwrite [c] buf else buf) ∧
    fromCharsChar [c] = .ok (some c) ∧ (∀ s, s.length ≠ 1 → fromCharsChar s = .ok none) ∧
    (∀ s, fromCharsFirstChar (c :: s) = .ok (some (1, c))) ∧ fromCharsFirstChar [] = .ok none := by
  refine ⟨?_, rfl, fun s h => ?_, fun s => ?_, rfl⟩
  · unfold toCharsChar
    cases buf with
    | nil => rfl
    | cons x b => simp [wr, overwrite]
  · simp [fromCharsChar, h]
  · simp [fromCharsFirstChar, rd]

example : toCharsStr (S "abcdef") (S "____") = .ok (6, S "abcd") := by decide +kernel
example : fromCharsFirstSubstr (S "  ab cd") (S "____") = .ok (some 4, S "ab__") := by decide +kernel
example : fromCharsContainer (S "ab") (S "wxyz") = .ok (S "ab") := by decide +kernel

/-- **C20**: `to_chars_sub` around a writer that follows the size protocol returns the written part of the buffer, never more
than the buffer. -/
theorem C20_to_chars_sub (v buf : List Nat) :
    ∃ n b, toCharsSub (toCharsStr v) buf = .ok (n, b) ∧ n ≤ buf.length ∧ b.take n = v.take buf.length := by
  unfold toCharsSub
  rw [(C20_string_write v buf).1, Res.ok_bind]
  refine ⟨_, _, rfl, by split <;> omega, ?_⟩
  split
  · rename_i h; simp [List.take_of_length_le h]
  · rename_i h
    rw [List.take_left' (by simp; omega)]

/-! ### C20: bool -/

/-- Specification: the texts accepted for a bool and their values; other integers are true unless their value in the 32-bit
`int` is zero. -/
inductive Spec.BoolText : List Nat → Bool → Prop
  | lower_false : BoolText [102, 97, 108, 115, 101] false
  | lower_true : BoolText [116, 114, 117, 101] true
  | title_false : BoolText [70, 97, 108, 115, 101] false
  | title_true : BoolText [84, 114, 117, 101] true
  | upper_false : BoolText [70, 65, 76, 83, 69] false
  | upper_true : BoolText [84, 82, 85, 69] true
  | int {s n b} : IntDenotes s n → (b = true ↔ ¬ (2 ^ 32 : Int) ∣ n) → BoolText s b

theorem matchWords_eq (sgn : Bool) (s : CView) (hs : s.wf) (rest : Res (Option Bool)) :
    ∀ ws : List (List Nat × Bool), (∀ w ∈ ws, Bytes w.1) →
    matchWords sgn s rest ws = match ws.find? (fun w => s.chars == w.1) with
      | some w => .ok (some w.2)
      | none => rest
  | [], _ => rfl
  | (w, v) :: ws, hb => by
    obtain ⟨r, e, h, _⟩ := C28_operators sgn s ⟨false, w⟩ hs ⟨by simp, hb (w, v) (by simp)⟩
    rw [matchWords, e, Res.ok_bind, List.find?_cons]
    by_cases hw : s.chars = w
    · rw [if_pos (h.mpr hw)]
      simp [hw]
    · rw [if_neg (fun h' => hw (h.mp h')), matchWords_eq sgn s hs rest ws (fun x hx => hb x (by simp [hx]))]
      have : (s.chars == w) = false := by simpa using hw
      rw [this]

theorem toInt32_small {n : Nat} (h : n < 2 ^ 31) : toInt32 n = n := by
  unfold toInt32
  have : n % 2 ^ 32 = n := Nat.mod_eq_of_lt (by omega)
  rw [this, if_pos h]

theorem compareC_eq (sgn : Bool) (s : CView) (hs : s.wf) (hl : s.chars.length < 2 ^ 31) (c : Nat) (hc : c < 256) :
    ∃ r, compareC sgn s c = .ok r ∧ (opEq r = true ↔ s.chars = [c]) := by
  unfold compareC
  cases hn : s.null with
  | true => exact ⟨-1, by simp, by simp [hs.1 hn, opEq]⟩
  | false =>
    cases hch : s.chars with
    | nil => exact ⟨-1, by simp, by simp [opEq]⟩
    | cons a t =>
      simp only [Bool.not_false, List.length_cons, gt_iff_lt, Nat.zero_lt_succ, decide_true, Bool.and_self, if_true, rd,
        List.getElem?_cons_zero, Res.ok_bind]
      by_cases hac : a = c
      · have hlen : (a :: t).length < 2 ^ 31 := hch ▸ hl
        simp only [List.length_cons] at hlen
        rw [if_neg (by simpa using hac), if_neg (by omega), toInt32_small hlen]
        refine ⟨_, rfl, ?_⟩
        subst hac
        simp only [opEq, beq_iff_eq, List.cons.injEq, true_and]
        rw [← List.length_eq_zero_iff]
        omega
      · rw [if_pos hac]
        refine ⟨_, rfl, ?_⟩
        have hne : charVal sgn a ≠ charVal sgn c :=
          fun h => hac (charVal_inj (hs.2 a (by simp [hch])) hc h)
        simp only [opEq, beq_iff_eq, List.cons.injEq]
        constructor
        · intro h; omega
        · rintro ⟨h, _⟩; exact absurd h hac

theorem intDenotes_not_word {s : List Nat} {n : Int} (h : IntDenotes s n) : ∀ w ∈ boolWords, s ≠ w.1 := by
  intro w hw e
  have h0 : ∃ c t, s = c :: t ∧ c ≤ 57 := by
    cases h with
    | pos h => obtain ⟨c, t, e, _, h⟩ := h.head; exact ⟨c, t, e, h⟩
    | neg h => exact ⟨45, _, rfl, by omega⟩
  obtain ⟨c, t, rfl, hc⟩ := h0
  have : ∀ w ∈ boolWords, ∀ x, w.1.head? = some x → 57 < x := by decide +kernel
  have := this w hw c (by rw [← e]; rfl)
  omega

/-- **C20**: reading a bool from any string shorter than 2^31 characters: never reads out of bounds, succeeds exactly on the bool
texts, and gives their value. -/
theorem C20_bool_read (sgn : Bool) (s : CView) (hs : s.wf) (hl : s.chars.length < 2 ^ 31) :
    ∃ r, fromCharsBool sgn s = .ok r ∧ ∀ b, r = some b ↔ BoolText s.chars b := by
  obtain ⟨r0, e0, h0⟩ := compareC_eq sgn s hs hl 48 (by omega)
  obtain ⟨r1, e1, h1⟩ := compareC_eq sgn s hs hl 49 (by omega)
  have d0 : IntDenotes [48] 0 := .pos (n := 0) (.dec ⟨by simp, [0], ⟨rfl, by simp⟩, rfl⟩)
  have d1 : IntDenotes [49] 1 := .pos (n := 1) (.dec ⟨by simp, [1], ⟨rfl, by simp⟩, rfl⟩)
  -- the value of an integer text is unique and no word is an integer text
  have huniq : ∀ (x : Bool) (n : Int), IntDenotes s.chars n → (x = true ↔ ¬ (2 ^ 32 : Int) ∣ n) →
      ∀ b, some x = some b ↔ BoolText s.chars b := by
    intro x n hn hx b
    constructor
    · intro h; cases h; exact .int hn hx
    · intro h
      have hw := intDenotes_not_word hn
      generalize he : s.chars = cs at h hn hw
      cases h with
      | int hm hb =>
        have := hm.unique hn
        subst this
        congr 1
        rw [Bool.eq_iff_iff, hx, hb]
      | lower_false => exact absurd rfl (hw (S "false", false) (by decide +kernel))
      | lower_true => exact absurd rfl (hw (S "true", true) (by decide +kernel))
      | title_false => exact absurd rfl (hw (S "False", false) (by decide +kernel))
      | title_true => exact absurd rfl (hw (S "True", true) (by decide +kernel))
      | upper_false => exact absurd rfl (hw (S "FALSE", false) (by decide +kernel))
      | upper_true => exact absurd rfl (hw (S "TRUE", true) (by decide +kernel))
  unfold fromCharsBool
  rw [e0, Res.ok_bind]
  by_cases c0 : s.chars = [48]
  · rw [if_pos (h0.mpr c0)]
    exact ⟨_, rfl, huniq false 0 (c0 ▸ d0) (by simp)⟩
  · rw [if_neg (fun h => c0 (h0.mp h)), e1, Res.ok_bind]
    by_cases c1 : s.chars = [49]
    · rw [if_pos (h1.mpr c1)]
      exact ⟨_, rfl, huniq true 1 (c1 ▸ d1) (by decide)⟩
    · rw [if_neg (fun h => c1 (h1.mp h)), matchWords_eq sgn s hs _ _ (by unfold Bytes; decide +kernel)]
      cases hf : boolWords.find? (fun w => s.chars == w.1) with
      | some w =>
        refine ⟨_, rfl, fun b => ?_⟩
        have hm := List.mem_of_find?_eq_some hf
        have he : s.chars = w.1 := by simpa using List.find?_some hf
        have hni : ∀ n, ¬ IntDenotes s.chars n := fun n hn => intDenotes_not_word hn w hm he
        rw [he] at hni ⊢
        simp only [boolWords, List.mem_cons, List.not_mem_nil, or_false] at hm
        rcases hm with rfl | rfl | rfl | rfl | rfl | rfl <;>
        · constructor
          · intro h; cases h; constructor
          · intro h
            generalize hcs : (Prod.fst _ : List Nat) = cs at h hni
            cases h with
            | int hn _ => exact absurd hn (hni _)
            | _ => first | rfl | (exfalso; revert hcs; decide)
      | none =>
        have hnw : ∀ w ∈ boolWords, s.chars ≠ w.1 := by
          intro w hw he
          have := List.find?_eq_none.mp hf w hw
          simp [he] at this
        obtain ⟨⟨ok, v, o⟩, e2, h2, h3⟩ := C12_atoi ⟨.w32, true⟩ s.chars
        rw [e2]
        cases ok with
        | true =>
          obtain ⟨n, hn⟩ := h2.mp rfl
          have hst := h3 n hn
          refine ⟨_, rfl, huniq _ n hn ?_⟩
          simp only [bne_iff_ne, ne_eq]
          rw [not_iff_not]
          obtain ⟨s1, s2, s3⟩ := hst
          simp only [ITy.min, ITy.max, W.bits] at s1 s2 s3
          simp at s1 s2 s3
          constructor
          · intro h; subst h; simpa using s3
          · rintro ⟨k, hk⟩
            obtain ⟨m, hm⟩ := s3
            omega
        | false =>
          have hno : ∀ n, ¬ IntDenotes s.chars n := fun n hn => by
            have := h2.mpr ⟨n, hn⟩; simp at this
          refine ⟨none, rfl, fun b => ?_⟩
          simp only [reduceCtorEq, false_iff]
          intro h
          generalize he : s.chars = cs at h hnw hno
          cases h with
          | int hm hb => exact hno _ hm
          | lower_false => exact hnw (S "false", false) (by decide +kernel) rfl
          | lower_true => exact hnw (S "true", true) (by decide +kernel) rfl
          | title_false => exact hnw (S "False", false) (by decide +kernel) rfl
          | title_true => exact hnw (S "True", true) (by decide +kernel) rfl
          | upper_false => exact hnw (S "FALSE", false) (by decide +kernel) rfl
          | upper_true => exact hnw (S "TRUE", true) (by decide +kernel) rfl

/-- **C20**: a bool is written as one character, `0` or `1`, if there is room, and nothing otherwise; that text is read back
as the same value. -/
theorem C20_bool (sgn v : Bool) (buf : List Nat) :
    toCharsBool v buf = .ok (1, if 1 ≤ buf.length then overwrite [if v then 49 else 48] buf else buf) ∧
    fromCharsBool sgn ⟨false, [if v then 49 else 48]⟩ = .ok (some v) := by
  constructor
  · unfold toCharsBool
    rw [itoa_eq .w32 _ (by cases v <;> decide) (by cases v <;> decide)]
    have : intText 10 (if v = true then 1 else 0) 0 = [if v then 49 else 48] := by
      cases v <;> decide +kernel
    rw [this]; rfl
  · cases v <;> cases sgn <;> decide +kernel

example : fromCharsBool true ⟨false, S "FALSE"⟩ = .ok (some false) := by decide +kernel
example : fromCharsBool true ⟨false, S "-0x10"⟩ = .ok (some true) := by decide +kernel
example : fromCharsBool true ⟨false, S "yes"⟩ = .ok none := by decide +kernel
example : CView.wf ⟨false, S "FALSE"⟩ := ⟨by simp, by unfold Bytes; decide +kernel⟩

/-! ### C21 -/

/-- **C21** refuted: with a leading blank the conversion fails, although the first non-blank run is a bool text. -/
theorem C21_refuted : fromCharsFirstBool true ⟨false, S " true"⟩ = .ok none ∧
    fromCharsBool true ⟨false, S "true"⟩ = .ok (some true) := by decide +kernel

/-- **C21** refuted: the same for text after the first run. -/
theorem C21_refuted_trailing : fromCharsFirstBool true ⟨false, S "true x"⟩ = .ok none := by decide +kernel

/-- **C21**, what holds: if the string is one run without blanks, the result is its size and value.
Missing: strings with blanks before or after the first run (false, see `C21_refuted`). -/
theorem C21_bool_partial (sgn : Bool) (s : CView) (hs : s.wf) (hl : s.chars.length < 2 ^ 31)
    (hr : Run (fun c => ¬ Blank c) s.chars) :
    ∃ r, fromCharsFirstBool sgn s = .ok r ∧
      ∀ n b, r = some (n, b) ↔ n = s.chars.length ∧ BoolText s.chars b := by
  obtain ⟨r, e, h⟩ := C20_bool_read sgn s hs hl
  have hspan : firstNonEmptySpan s.chars = .ok (0, s.chars.length) := by
    rcases firstNonEmptySpan_eq s.chars with ⟨h1, h2⟩ | ⟨ws, ne, rest, h1, h2, h3, h4, h5⟩
    · obtain ⟨c, t, hct⟩ := List.exists_cons_of_ne_nil hr.1
      exact absurd (h1 c (by simp [hct])) (hr.2 c (by simp [hct]))
    · have hws : ws = [] := by
        cases ws with
        | nil => rfl
        | cons c ws => exact absurd (h2 c (by simp)) (hr.2 c (by simp [h1]))
      have hrest : rest = [] := by
        cases rest with
        | nil => rfl
        | cons c t => exact absurd (h4 c rfl) (hr.2 c (by simp [h1]))
      subst hws; subst hrest
      rw [h5]; simp [h1]
  unfold fromCharsFirstBool
  rw [hspan, Res.ok_bind, if_neg (fun h => hr.1 (List.length_eq_zero_iff.mp h)), e, Res.ok_bind]
  cases r with
  | none =>
    refine ⟨none, rfl, fun n b => ?_⟩
    have := h b
    simp at this
    simp [this]
  | some x =>
    refine ⟨_, rfl, fun n b => ?_⟩
    rw [← h b]
    simp [eq_comm]

example : Run (fun c => ¬ Blank c) (S "true") ∧ fromCharsFirstBool true ⟨false, S "true"⟩ = .ok (some (4, true)) := by
  constructor
  · simp [Run, S, Blank]
  · decide +kernel

/-! ### C84: pointers -/

/-- **C84**: an address is written as the radix-16 text of its value, and that text is read back as the same address. -/
theorem C84_pointer_roundtrip (a : Int) (hl : -(2 ^ 63) ≤ a) (hu : a < 2 ^ 63) (buf : List Nat)
    (hb : (intText 16 a 0).length ≤ buf.length) :
    ∃ n b, toCharsPtr a buf = .ok (n, b) ∧ b = overwrite (intText 16 a 0) buf ∧
      fromCharsPtr (b.take n) = .ok (some a) := by
  have h1 : W.minI .w64 ≤ a := by simpa [W.minI, W.bits] using hl
  have h2 : a < 2 ^ (W.bits .w64 - 1) := by simpa [W.bits] using hu
  refine ⟨_, _, C08_itoa_radix .w64 a 16 (by decide) h1 h2 buf hb, rfl, ?_⟩
  rw [overwrite_take]
  obtain ⟨o, e⟩ := C13_signed_text .w64 a 16 0 h1 h2 (by decide)
  unfold fromCharsPtr
  rw [e]; rfl

/-- **C84** refuted: `from_chars_first` of a pointer does not return the number of characters read. -/
theorem C84_refuted_count : fromCharsFirstPtr (S " 0x1f ") = .ok (1, some 31) ∧
    atoiFirst ⟨.w64, true⟩ (S " 0x1f ") = .ok (some (5, 31)) := by decide +kernel

/-- **C84** refuted: when there is no number, an indeterminate value is read and stored. -/
theorem C84_refuted_failure : fromCharsFirstPtr (S "abc") = .ub := by decide +kernel

/-- **C84**, what holds: if there is a number, the pointer gets its value.  Missing: the returned count and the failure case (both
false, see above). -/
theorem C84_first_value_partial (s : List Nat) {n : Nat} {v : Int} (h : atoiFirst ⟨.w64, true⟩ s = .ok (some (n, v))) :
    fromCharsFirstPtr s = .ok (1, some v) := by
  obtain ⟨r, e, hr⟩ := C18_atoi_first ⟨.w64, true⟩ s
  rw [h] at e; cases e
  obtain ⟨ws, tok, rest, x, _, _, _, hn, ht, _⟩ := hr n v rfl
  unfold fromCharsFirstPtr
  rw [h]
  have : n ≠ 0 := by
    have := List.length_pos_iff.mpr ht
    omega
  simp [this]

example : toCharsPtr 4096 (S "________") = .ok (6, S "0x1000__") := by decide +kernel

end C4
