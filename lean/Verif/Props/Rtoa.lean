import Verif.Charconv.Rtoa
import Verif.Spec.RealText
import Verif.Props.Format
import Verif.Props.FormatAlign
/-
Properties C121, C122 and C123: real numbers as text.
-/
namespace C4
open Spec

/-! ### C121 -/

/-- C121 with `std::to_chars`, as far as it holds: in the formats that are not hexadecimal, with every buffer, nothing is written outside; if the text fits, it is written, its length is
returned, and the rest of the buffer is unchanged; otherwise the size returned is larger than the buffer.
Missing: that size is not the one needed, see `C121_refuted`. -/
theorem C121_std_partial (text : StdText) (junk : Nat → Nat) (md : Nat) (precision : Int) (fmt : RealFormat) (hf : fmt ≠ .hexa) (t buf : List Nat)
    (ht : t = text (if precision = -1 then none else some precision) fmt) :
    ∃ n b, rtoa text junk md precision fmt buf = .ok (n, b) ∧ b.length = buf.length ∧
      (t.length ≤ buf.length → n = t.length ∧ b = overwrite t buf) ∧ (buf.length < t.length → buf.length < n) := by
  unfold rtoa stdToChars
  rw [← ht]
  simp only [if_neg hf, Nat.not_lt_zero, gt_iff_lt, if_false, Nat.sub_zero]
  by_cases h : t.length ≤ buf.length
  · rw [if_pos h, Res.ok_bind]
    exact ⟨_, _, rfl, by simp; omega, fun _ => ⟨by simp, by simp [overwrite]⟩, fun h' => by omega⟩
  · rw [if_neg h, Res.ok_bind]
    refine ⟨_, _, rfl, by simp, fun h' => absurd h' h, fun _ => ?_⟩
    simp only [List.take_zero, List.nil_append, List.length_map, List.length_range]
    split <;> omega

/-- C121: the size returned for a buffer that is too small is the number of digits of the type, 9 for `float` and 17 for `double`, or one more than the buffer has. -/
theorem C121_std_request (text : StdText) (junk : Nat → Nat) (precision : Int) (fmt : RealFormat) (hf : fmt ≠ .hexa) (buf : List Nat)
    (h : buf.length < (text (if precision = -1 then none else some precision) fmt).length) :
    ∃ b b', ftoaStd text junk precision fmt buf = .ok (max 9 (buf.length + 1), b) ∧ dtoaStd text junk precision fmt buf = .ok (max 17 (buf.length + 1), b') := by
  have key : ∀ md, ∃ b, rtoa text junk md precision fmt buf = .ok (max md (buf.length + 1), b) := by
    intro md
    unfold rtoa stdToChars
    simp only [if_neg hf, Nat.not_lt_zero, gt_iff_lt, if_false, Nat.sub_zero]
    rw [if_neg (by omega), Res.ok_bind]
    simp only [List.take_zero, List.nil_append, List.length_map, List.length_range]
    refine ⟨_, by congr 2; split <;> omega⟩
  obtain ⟨b, hb⟩ := key 9
  obtain ⟨b', hb'⟩ := key 17
  exact ⟨b, b', hb, hb'⟩

example : ftoaStd (fun _ _ => S "-1.17549435e-38") (fun _ => 0) (-1) .flex (S "xxxx") = .ok (9, [0, 0, 0, 0]) ∧
    dtoaStd (fun _ _ => S "-1.17549435e-38") (fun _ => 0) (-1) .flex (S "xxxx") = .ok (17, [0, 0, 0, 0]) := by decide +kernel

/-- C121 in hexadecimal format, as far as it holds: the same for a buffer of at least two characters, the text being preceded by 0x. -/
theorem C121_std_hex_partial (text : StdText) (junk : Nat → Nat) (md : Nat) (precision : Int) (t buf : List Nat)
    (ht : t = text (if precision = -1 then none else some precision) .hexa) (hne : t ≠ []) (hb : 2 ≤ buf.length) :
    ∃ n b, rtoa text junk md precision .hexa buf = .ok (n, b) ∧ b.length = buf.length ∧
      (t.length + 2 ≤ buf.length → n = t.length + 2 ∧ b = overwrite (S "0x" ++ t) buf) ∧ (buf.length < t.length + 2 → buf.length < n) := by
  have hpos : 0 < t.length := List.length_pos_iff.2 hne
  obtain ⟨x, y, r, rfl⟩ : ∃ x y r, buf = x :: y :: r := by
    match buf, hb with
    | x :: y :: r, _ => exact ⟨x, y, r, rfl⟩
  unfold rtoa stdToChars
  rw [← ht]
  by_cases hr : r = []
  · subst hr
    refine ⟨if md > 2 then md else 3, [x, y], ?_, rfl, fun h => ?_, fun _ => ?_⟩
    · simp [show ¬ t.length = 0 by omega]
    · simp only [List.length_cons, List.length_nil] at h; omega
    · simp only [List.length_cons, List.length_nil]
      split <;> omega
  · have hrl : 0 < r.length := List.length_pos_iff.2 hr
    simp only [if_true, List.length_cons, gt_iff_lt, if_pos (show 2 < r.length + 1 + 1 by omega), List.set_cons_zero, List.set_cons_succ, Nat.not_lt.2 (show 2 ≤ r.length + 1 + 1 by omega), if_false]
    by_cases h : t.length ≤ r.length + 1 + 1 - 2
    · rw [if_pos h, Res.ok_bind]
      refine ⟨_, _, rfl, by simp; omega, fun _ => ⟨by omega, ?_⟩, fun h' => by omega⟩
      simp only [overwrite, S, List.length_append]
      have : 2 + t.length = t.length + 1 + 1 := by omega
      rw [this]
      simp [show 1 + 1 + t.length = t.length + 1 + 1 by omega]
    · rw [if_neg h, Res.ok_bind]
      refine ⟨_, _, rfl, by simp, fun h' => by omega, fun _ => ?_⟩
      simp only [List.length_append, List.length_map, List.length_range, List.length_take, List.length_cons]
      split <;> omega

theorem digitsVal_numeralText (v : Nat) : digitsVal (numeralText 10 v) = v := by
  unfold digitsVal numeralText
  rw [List.map_map, List.map_congr_left (g := id), List.map_id, value_numeral (by decide)]
  intro d hd
  have := numeral_digits (b := 10) (by decide) d hd
  simp only [Function.comp_apply, digitChar, if_pos this, id]
  omega

theorem numeralText_digit {v c : Nat} (h : c ∈ numeralText 10 v) : 48 ≤ c ∧ c ≤ 57 := by
  unfold numeralText at h
  obtain ⟨d, hd, rfl⟩ := List.mem_map.1 h
  have := numeral_digits (b := 10) (by decide) d hd
  simp only [digitChar, if_pos this]
  omega

/-- The format string is a conversion specification with the given precision and letter, for every precision an `int` can have from -1 on. -/
theorem parse_format (precision : Int) (fmt : RealFormat) (long : Bool) (h1 : -1 ≤ precision) (h2 : precision < 2 ^ 31) :
    parseConversion (getRealFormatStr precision fmt (if long then [108] else [])) = some (if precision = -1 then none else some precision.toNat, long, fmt.letter) := by
  by_cases hm : precision = -1
  · subst hm
    cases fmt <;> cases long <;> decide
  by_cases h0 : precision = 0
  · subst h0
    cases fmt <;> cases long <;> decide
  obtain ⟨v, rfl⟩ := Int.eq_ofNat_of_zero_le (show 0 ≤ precision by omega)
  have ht : intText 10 (v : Int) 0 = numeralText 10 v := by
    unfold intText uintText
    rw [if_neg (by omega), paddedText_zero]
    rfl
  have hlen : (numeralText 10 v).length ≤ 10 := by
    rw [numeralText_length]
    obtain ⟨-, h | h⟩ := numeral_length_spec (b := 10) (v := v) (by decide)
    · omega
    · by_contra hc
      have : 10 ^ 10 ≤ 10 ^ ((numeral 10 v).length - 1) := Nat.pow_le_pow_right (by decide) (by omega)
      omega
  have hd : ∀ c ∈ numeralText 10 v, decide (48 ≤ c ∧ c ≤ 57) = true := fun c hc => decide_eq_true (numeralText_digit hc)
  unfold getRealFormatStr realFormatText
  rw [if_neg hm, if_neg h0, if_neg hm, ht, List.take_of_length_le (by rw [numeralText_length] at hlen; cases long <;> simp <;> omega)]
  have hw : ∀ x r, ¬ (48 ≤ x ∧ x ≤ 57) → (numeralText 10 v ++ x :: r).takeWhile (fun c => decide (48 ≤ c ∧ c ≤ 57)) = numeralText 10 v ∧
      (numeralText 10 v ++ x :: r).dropWhile (fun c => decide (48 ≤ c ∧ c ≤ 57)) = x :: r := by
    intro x r hx
    constructor
    · rw [List.takeWhile_append_of_pos hd, List.takeWhile_cons_of_neg (by simpa using hx), List.append_nil]
    · rw [List.dropWhile_append_of_pos hd, List.dropWhile_cons_of_neg (by simpa using hx)]
  have hv : digitsVal (numeralText 10 v) = (Int.ofNat v).toNat := digitsVal_numeralText v
  cases long
  · have hx : ¬ (48 ≤ fmt.letter ∧ fmt.letter ≤ 57) := by cases fmt <;> decide
    have hl : fmt.letter = 102 ∨ fmt.letter = 101 ∨ fmt.letter = 103 ∨ fmt.letter = 97 := by cases fmt <;> decide
    simp only [Bool.false_eq_true, if_false, List.append_nil, List.cons_append, List.nil_append, parseConversion]
    rw [(hw _ _ hx).1, (hw _ _ hx).2]
    simp only [if_pos hl, hv]
    rfl
  · have hx : ¬ (48 ≤ 108 ∧ 108 ≤ 57) := by decide
    have hl : (108 : Nat) = 108 ∧ (fmt.letter = 102 ∨ fmt.letter = 101 ∨ fmt.letter = 103 ∨ fmt.letter = 97) := ⟨rfl, by cases fmt <;> decide⟩
    simp only [if_true, List.cons_append, List.nil_append, List.append_assoc, parseConversion]
    rw [(hw _ _ hx).1, (hw _ _ hx).2]
    simp only [hl.2, and_self, if_true, hv]
    rfl

/-- `print_one` with a valid format. -/
theorem printOne_eq {text : PrintfText} {fmt : List Nat} {p : Option Nat} {l : Bool} {c : Nat} (hp : parseConversion fmt = some (p, l, c)) (t buf : List Nat) (ht : t = text p c)
    (hl : t.length < 2 ^ 31) :
    printOne text fmt buf = .ok (if t.length < buf.length then (t.length, overwrite (t ++ [0]) buf)
      else (t.length + 1, if buf = [] then [] else t.take (buf.length - 1) ++ [0])) := by
  unfold printOne snprintf
  rw [hp]
  dsimp only
  rw [← ht, if_neg (by omega)]
  have hm : ((t.length : Int) % 2 ^ 64).toNat = t.length := by omega
  by_cases h0 : buf = []
  · subst h0
    simp only [List.length_nil, if_true, Res.ok_bind, hm]
    simp; omega
  · have hb : buf.length ≠ 0 := fun h => h0 (List.length_eq_zero_iff.1 h)
    rw [if_neg hb, Res.ok_bind]
    simp only [hm, if_neg h0]
    by_cases hlt : t.length < buf.length
    · rw [if_pos hlt, List.take_of_length_le (by omega)]
      simp only [List.length_append, List.length_drop, List.length_cons, List.length_nil]
      rw [if_neg (by omega)]
      simp [overwrite]
    · rw [if_neg hlt]
      simp only [List.length_append, List.length_drop, List.length_cons, List.length_nil, List.length_take]
      rw [if_pos (by omega), Nat.mod_eq_of_lt (by omega), List.drop_eq_nil_of_le (by omega), List.append_nil]

/-- The letter of a conversion specification for a format. -/
def printfLetter : RealFormat → Nat
  | .float => 'f'.toNat
  | .scient => 'e'.toNat
  | .flex => 'g'.toNat
  | .hexa => 'a'.toNat

theorem letter_eq (fmt : RealFormat) : fmt.letter = printfLetter fmt := by cases fmt <;> rfl

/-- C121 with `snprintf`, as far as it holds: for every precision from -1 on, format and buffer, if there is room for the text and one character more, the text and a zero are written, and its
length is returned; otherwise that length plus 1 is returned, which is larger than the buffer, and which is enough.
Missing: a buffer of exactly the length of the text, texts of 2^31 characters and more, and other precisions; see `C121_refuted`. -/
theorem C121_snprintf_partial (text : PrintfText) (precision : Int) (fmt : RealFormat) (t buf : List Nat) (h1 : -1 ≤ precision) (h2 : precision < 2 ^ 31)
    (ht : t = text (if precision = -1 then none else some precision.toNat) (printfLetter fmt)) (hl : t.length < 2 ^ 31) :
    ∃ n b, ftoaC text precision fmt buf = .ok (n, b) ∧ dtoaC text precision fmt buf = .ok (n, b) ∧ b.length = buf.length ∧
      (t.length < buf.length → n = t.length ∧ b = overwrite (t ++ [0]) buf) ∧ (buf.length ≤ t.length → n = t.length + 1) := by
  rw [← letter_eq] at ht
  have e1 := printOne_eq (text := text) (parse_format precision fmt false h1 h2) t buf ht hl
  have e2 := printOne_eq (text := text) (parse_format precision fmt true h1 h2) t buf ht hl
  by_cases h : t.length < buf.length
  · rw [if_pos h] at e1 e2
    exact ⟨_, _, e1, e2, overwrite_length (by simp; omega), fun _ => ⟨rfl, rfl⟩, fun h' => by omega⟩
  · rw [if_neg h] at e1 e2
    refine ⟨_, _, e1, e2, ?_, fun h' => absurd h' h, fun _ => rfl⟩
    split
    · rename_i h; rw [h]
    · rename_i h
      have : buf.length ≠ 0 := fun h' => h (List.length_eq_zero_iff.1 h')
      simp; omega

/-- A text. -/
example : (S "1.5").length < 2 ^ 31 ∧ dtoaC (fun _ _ => S "1.5") (-1) .flex (S "......") = .ok (3, [49, 46, 53, 0, 46, 46]) ∧
    getRealFormatStr 7 .flex [108] = S "%.7lg" := by decide +kernel
example : dtoaStd (fun _ _ => S "1.5") (fun _ => 0) (-1) .flex (S "......") = .ok (3, S "1.5...") := by decide +kernel
example : dtoaStd (fun _ _ => S "1.8p+0") (fun _ => 0) (-1) .hexa (S "..........") = .ok (8, S "0x1.8p+0..") := by decide +kernel

/-- C121 fails.  With `std::to_chars`: for a buffer that is too small, the size returned is not the one needed; in hexadecimal format, the call is undefined for a buffer of less than two characters;
and the sign of a negative number comes after 0x.  With `snprintf`: a buffer which the text fills exactly is refused; a negative precision other than -1 gives an invalid format; and for a text of
2^31 characters or more, which the largest precisions give, the size returned is 0. -/
theorem C121_refuted :
    (∀ junk, ∃ b, dtoaStd (fun _ _ => S "-1.2345678901234567e-100") junk (-1) .scient (S "...") = .ok (17, b)) ∧ (S "-1.2345678901234567e-100").length = 24 ∧
    (∀ text junk precision, dtoaStd text junk precision .hexa [] = .ub ∧ ftoaStd text junk precision .hexa [46] = .ub) ∧
    (∀ junk, dtoaStd (fun _ _ => S "-1.8p+0") junk (-1) .hexa (S ".........") = .ok (9, S "0x-1.8p+0")) ∧
    dtoaC (fun _ _ => S "1.5") (-1) .flex (S "...") = .ok (4, [49, 46, 0]) ∧
    (∀ text buf, dtoaC text (-2) .flex buf = .ub) ∧
    (∀ text buf, (text (some (2 ^ 31 - 1)) 102).length ≥ 2 ^ 31 → buf.length < 2 ^ 64 → dtoaC text (2 ^ 31 - 1) .float buf = .ok (0, buf)) := by
  refine ⟨fun junk => ⟨[junk 0, junk 1, junk 2], rfl⟩, rfl, fun text junk precision => ⟨rfl, rfl⟩, fun junk => rfl, by decide +kernel, fun text buf => ?_, fun text buf h hb => ?_⟩
  · have : parseConversion (getRealFormatStr (-2) .flex [108]) = none := by decide +kernel
    unfold dtoaC printOne snprintf
    rw [this]
    rfl
  · have : parseConversion (getRealFormatStr (2 ^ 31 - 1) .float [108]) = some (some (2 ^ 31 - 1), true, 102) := by decide +kernel
    unfold dtoaC printOne snprintf
    rw [this]
    dsimp only
    rw [if_pos h, Res.ok_bind]
    simp only [show ((-1 : Int) % 2 ^ 64).toNat = 2 ^ 64 - 1 by decide]
    rw [if_pos (by omega)]
    rfl

/-! ### C122 -/

theorem room_mono {K L : Nat} {f : Writer} {t : List Nat} (h : WritesRoom K f t) (hKL : K ≤ L) : WritesRoom L f t := by
  intro buf
  obtain ⟨n, b, h1, h2, h3, h4⟩ := h buf
  exact ⟨n, b, h1, h2, fun h => h3 (by omega), h4⟩

theorem room_of_writes {f : Writer} {t : List Nat} (h : Writes f t) : WritesRoom 0 f t := by
  intro buf
  obtain ⟨b, h1, h2, h3⟩ := h buf
  exact ⟨_, b, h1, h2, fun _ => rfl, fun hl => ⟨rfl, by rw [h3 hl]; exact List.prefix_append _ _⟩⟩

/-- The writers of real numbers with `std::to_chars`. -/
theorem rtoa_room (text : StdText) (junk : Nat → Nat) (md : Nat) (precision : Int) (fmt : RealFormat) (hf : fmt ≠ .hexa) :
    WritesRoom 0 (rtoa text junk md precision fmt) (text (if precision = -1 then none else some precision) fmt) := by
  intro buf
  obtain ⟨n, b, h1, h2, h3, h4⟩ := C121_std_partial text junk md precision fmt hf _ buf rfl
  refine ⟨n, b, h1, h2, fun h => (h3 h).1, fun h => ?_⟩
  rcases Nat.lt_or_ge buf.length (text (if precision = -1 then none else some precision) fmt).length with hc | hc
  · have := h4 hc
    omega
  · rw [(h3 hc).1, (h3 hc).2]
    exact ⟨rfl, List.prefix_append _ _⟩

/-- The writers of real numbers with `snprintf`. -/
theorem printf_room (text : PrintfText) (precision : Int) (fmt : RealFormat) (h1 : -1 ≤ precision) (h2 : precision < 2 ^ 31) (t : List Nat)
    (ht : t = text (if precision = -1 then none else some precision.toNat) (printfLetter fmt)) (hl : t.length < 2 ^ 31) :
    WritesRoom 1 (ftoaC text precision fmt) t ∧ WritesRoom 1 (dtoaC text precision fmt) t := by
  have key : ∀ buf, ∃ n b, ftoaC text precision fmt buf = .ok (n, b) ∧ dtoaC text precision fmt buf = .ok (n, b) ∧ b.length = buf.length ∧
      (t.length + 1 ≤ buf.length → n = t.length) ∧ (n ≤ buf.length → n = t.length ∧ t <+: b) := by
    intro buf
    obtain ⟨n, b, e1, e2, h3, h4, h5⟩ := C121_snprintf_partial text precision fmt t buf h1 h2 ht hl
    refine ⟨n, b, e1, e2, h3, fun h => (h4 h).1, fun h => ?_⟩
    rcases Nat.lt_or_ge t.length buf.length with hc | hc
    · rw [(h4 hc).1, (h4 hc).2]
      exact ⟨rfl, ⟨0 :: buf.drop (t.length + 1), by simp [overwrite]⟩⟩
    · have := h5 hc
      omega
  exact ⟨fun buf => let ⟨n, b, e1, _, h⟩ := key buf; ⟨n, b, e1, h⟩, fun buf => let ⟨n, b, _, e2, h⟩ := key buf; ⟨n, b, e2, h⟩⟩

theorem seqW_room {K : Nat} {f g : Writer} {t u : List Nat} (hf : WritesRoom K f t) (hg : WritesRoom K g u) : WritesRoom K (seqW f g) (t ++ u) := by
  intro buf
  obtain ⟨n, b, e, hl, h1, h2⟩ := hf buf
  unfold seqW writeRest
  rw [e, Res.ok_bind]
  by_cases h : n ≤ buf.length
  · obtain ⟨rfl, r, hr⟩ := h2 h
    obtain ⟨m, b2, e2, hl2, h3, h4⟩ := hg (b.drop t.length)
    simp only [hl, ge_iff_le, if_pos h]
    unfold onSub
    rw [if_pos (by rw [hl]; exact h), e2, Res.ok_bind, Res.ok_bind]
    have ht : b.take t.length = t := by rw [← hr, List.take_left]
    rw [List.length_drop] at hl2 h3 h4
    refine ⟨_, _, rfl, by rw [ht]; simp; omega, fun hs => ?_, fun hs => ?_⟩
    · rw [h3 (by simp at hs; omega), List.length_append]
    · obtain ⟨h5, h6⟩ := h4 (by omega)
      rw [h5, List.length_append, ht]
      exact ⟨rfl, List.prefix_append_right_inj t |>.2 h6⟩
  · obtain ⟨m, b2, e2, _, _⟩ := hg []
    simp only [hl, ge_iff_le, if_neg h]
    rw [e2, Res.ok_bind, Res.ok_bind]
    refine ⟨_, _, rfl, hl, fun hs => ?_, fun hs => by omega⟩
    have := h1 (by simp at hs; omega)
    simp at hs
    omega

/-- Pairs of a writer and its text. -/
def RoomItems (K : Nat) (l : List (Writer × List Nat)) : Prop := ∀ p ∈ l, WritesRoom K p.1 p.2

theorem RoomItems.cons {K : Nat} {p : Writer × List Nat} {l : List (Writer × List Nat)} (h : RoomItems K (p :: l)) : WritesRoom K p.1 p.2 ∧ RoomItems K l :=
  ⟨h p (by simp), fun q hq => h q (by simp [hq])⟩

theorem room_nil (K : Nat) : WritesRoom K (fun buf => .ok (0, buf)) [] := fun buf => ⟨0, buf, rfl, rfl, fun _ => rfl, fun _ => ⟨rfl, List.nil_prefix⟩⟩

/-- C122: `cat` of any arguments, real numbers among them. -/
theorem C122_cat {K : Nat} (l : List (Writer × List Nat)) (h : RoomItems K l) : WritesRoom K (cat (l.map (·.1))) (l.map (·.2)).flatten := by
  induction l with
  | nil => exact room_nil K
  | cons p l ih => exact seqW_room h.cons.1 (ih h.cons.2)

theorem catsepMore_room {K : Nat} {sep : Writer} {st : List Nat} (hs : WritesRoom K sep st) (l : List (Writer × List Nat)) (h : RoomItems K l) :
    WritesRoom K (catsepMore sep (l.map (·.1))) (l.map (fun p => st ++ p.2)).flatten := by
  induction l with
  | nil => exact room_nil K
  | cons p l ih =>
    have := seqW_room hs (seqW_room h.cons.1 (ih h.cons.2))
    simpa [catsepMore_eq, List.append_assoc] using this

/-- C122: `catsep`. -/
theorem C122_catsep {K : Nat} {sep : Writer} {st : List Nat} (hs : WritesRoom K sep st) (l : List (Writer × List Nat)) (h : RoomItems K l) :
    WritesRoom K (catsep sep (l.map (·.1))) (separated st (l.map (·.2))) := by
  cases l with
  | nil => exact room_nil K
  | cons p l =>
    have := seqW_room h.cons.1 (catsepMore_room hs l h.cons.2)
    rw [List.map_cons, List.map_cons, separated_cons, List.map_map]
    exact this

/-- C122: `format`. -/
theorem C122_format {K : Nat} (fmt : List Nat) (l : List (Writer × List Nat)) (h : RoomItems K l) :
    ∃ out, Subst fmt (l.map (·.2)) out ∧ WritesRoom K (format fmt (l.map (·.1))) out := by
  induction l generalizing fmt with
  | nil => exact ⟨fmt, .noargs, room_mono (room_of_writes (writes_str fmt)) (Nat.zero_le _)⟩
  | cons p l ih =>
    obtain ⟨r, e, h1, h2⟩ := C29_find fmt [123, 125] 0
    cases r with
    | none =>
      refine ⟨fmt, .nomark fun i => h2.mp rfl i (Nat.zero_le _), fun buf => ?_⟩
      simp only [List.map_cons, format]
      rw [e, Res.ok_bind]
      exact room_mono (room_of_writes (writes_str fmt)) (Nat.zero_le _) buf
    | some pos =>
      obtain ⟨_, ⟨pre, post, e1, e2⟩, h3⟩ := (h1 pos).mp rfl
      have e1' : fmt = pre ++ mark ++ post := e1
      have hd : fmt.drop (pos + 2) = post := by
        rw [e1, ← e2]; exact List.drop_left' (by simp)
      have ht : fmt.take pos = pre := by
        rw [e1, ← e2, List.append_assoc]; exact List.take_left' rfl
      obtain ⟨out, o1, o2⟩ := ih post h.cons.2
      refine ⟨pre ++ p.2 ++ out, ?_, ?_⟩
      · rw [e1']
        exact .step (fun i hi => e1' ▸ h3 i (Nat.zero_le _) (e2 ▸ hi)) o1
      · have := seqW_room (room_mono (room_of_writes (writes_str pre)) (Nat.zero_le K)) (seqW_room h.cons.1 o2)
        rw [List.append_assoc]
        intro buf
        simp only [List.map_cons, format]
        rw [e, Res.ok_bind]
        simp only [hd, ht]
        exact this buf

theorem resize_prefix {t b : List Nat} (h : t <+: b) : resize b t.length = t := by
  obtain ⟨r, rfl⟩ := h
  unfold resize
  simp

/-- C122: the resizing functions end, after at most as many attempts as characters are missing and one more, with exactly the text. -/
theorem C122_resizing {K : Nat} {f : Writer} {t : List Nat} (h : WritesRoom K f t) (cont : List Nat) (k : Nat) :
    writeRs f (t.length + K - cont.length + 1 + k) cont = .ok t := by
  generalize hg : t.length + K - cont.length = g
  induction g using Nat.strongRecOn generalizing cont k with
  | ind g ih =>
    obtain ⟨n, b, e, hl, h1, h2⟩ := h cont
    rw [show g + 1 + k = (g + k) + 1 by omega]
    unfold writeRs
    rw [e, Res.ok_bind]
    by_cases hn : n ≤ cont.length
    · obtain ⟨rfl, hp⟩ := h2 hn
      simp only [gt_iff_lt, if_neg (Nat.not_lt.2 hn), resize_prefix hp]
    · simp only [gt_iff_lt, if_pos (Nat.lt_of_not_le hn)]
      have hlt : cont.length < t.length + K := by
        by_contra hc
        have := h1 (by omega)
        omega
      have hr := resize_length b n
      have := ih (t.length + K - (resize b n).length) (by omega) (resize b n) (g + k - (t.length + K - (resize b n).length + 1)) rfl
      rw [← this]
      congr 1
      omega

theorem append_room_step {f : Writer} {A B b : List Nat} {n : Nat} (e : f B = .ok (n, b)) (k : Nat) :
    writeRsAppend f A.length (k + 1) (A ++ B) =
      if n > B.length then writeRsAppend f A.length k (A ++ resize b n) else .ok (A ++ resize b n, A.length, n) := by
  conv => lhs; unfold writeRsAppend
  unfold onSub
  rw [if_pos (by simp)]
  rw [List.drop_left, List.take_left, e, Res.ok_bind, Res.ok_bind]
  simp only [resize_append, List.length_append, Nat.add_sub_cancel_left, resize_length]

/-- C122: the append variants keep the previous contents and append exactly the text. -/
theorem C122_append {K : Nat} {f : Writer} {t : List Nat} (h : WritesRoom K f t) (cont : List Nat) (k : Nat) :
    writeRsAppend f cont.length (t.length + K + 1 + k) cont = .ok (cont ++ t, cont.length, t.length) := by
  have key : ∀ (g k : Nat) (B : List Nat), t.length + K - B.length = g →
      writeRsAppend f cont.length (g + 1 + k) (cont ++ B) = .ok (cont ++ t, cont.length, t.length) := by
    intro g
    induction g using Nat.strongRecOn with
    | ind g ih =>
      intro k B hg
      obtain ⟨n, b, e, hl, h1, h2⟩ := h B
      rw [show g + 1 + k = (g + k) + 1 by omega, append_room_step e]
      by_cases hn : n ≤ B.length
      · obtain ⟨rfl, hp⟩ := h2 hn
        rw [if_neg (Nat.not_lt.2 hn), resize_prefix hp]
      · rw [if_pos (Nat.lt_of_not_le hn)]
        have hlt : B.length < t.length + K := by
          by_contra hc
          have := h1 (by omega)
          omega
        have hr := resize_length b n
        have := ih (t.length + K - (resize b n).length) (by omega) (g + k - (t.length + K - (resize b n).length + 1)) (resize b n) rfl
        rw [← this]
        congr 1
        omega
  have := key _ k [] rfl
  rwa [List.append_nil, List.length_nil, Nat.sub_zero] at this

/-- C122 for the arguments the library knows: integers, strings, … with their texts, and real numbers in any format but hexadecimal, with `std::to_chars`. -/
inductive AnyArg
  | arg (a : Arg)
  | real (text : StdText) (junk : Nat → Nat) (md : Nat) (precision : Int) (fmt : RealFormat)

def AnyArg.toChars : AnyArg → Writer
  | .arg a => a.toChars
  | .real text junk md precision fmt => rtoa text junk md precision fmt

def AnyArg.Valid : AnyArg → Prop
  | .arg a => a.Valid
  | .real _ _ _ _ fmt => fmt ≠ .hexa

def AnyArg.text : AnyArg → List Nat
  | .arg a => a.text
  | .real text _ _ precision fmt => text (if precision = -1 then none else some precision) fmt

theorem AnyArg.room (a : AnyArg) (h : a.Valid) : WritesRoom 0 a.toChars a.text := by
  cases a with
  | arg a => exact room_of_writes (a.writes h)
  | real text junk md precision fmt => exact rtoa_room text junk md precision fmt h

/-- C122 for these arguments: the containers end up with the concatenation, the separated texts and the substituted format. -/
theorem C122_args (l : List AnyArg) (h : ∀ a ∈ l, a.Valid) (sep : AnyArg) (hs : sep.Valid) (fmt : List Nat) {out : List Nat}
    (ho : Subst fmt (l.map AnyArg.text) out) (cont : List Nat) :
    ∃ k, writeRs (cat (l.map AnyArg.toChars)) k cont = .ok (l.map AnyArg.text).flatten ∧
      writeRs (catsep sep.toChars (l.map AnyArg.toChars)) k cont = .ok (separated sep.text (l.map AnyArg.text)) ∧
      writeRs (format fmt (l.map AnyArg.toChars)) k cont = .ok out := by
  have hi : RoomItems 0 (l.map fun a => (a.toChars, a.text)) := by
    intro p hp
    obtain ⟨a, ha, rfl⟩ := List.mem_map.1 hp
    exact a.room (h a ha)
  have h1 := C122_cat _ hi
  have h2 := C122_catsep (sep.room hs) _ hi
  obtain ⟨out', o1, h3⟩ := C122_format fmt _ hi
  simp only [List.map_map, Function.comp_def] at h1 h2 h3 o1
  have := ho.unique o1
  subst this
  have e1 := fun k => C122_resizing h1 cont k
  have e2 := fun k => C122_resizing h2 cont k
  have e3 := fun k => C122_resizing h3 cont k
  generalize (l.map AnyArg.text).flatten.length + 0 - cont.length = a at e1
  generalize (separated sep.text (l.map AnyArg.text)).length + 0 - cont.length = b at e2
  generalize out.length + 0 - cont.length = c at e3
  refine ⟨a + b + c + 1, ?_, ?_, ?_⟩
  · rw [show a + b + c + 1 = a + 1 + (b + c) by omega]
    exact e1 _
  · rw [show a + b + c + 1 = b + 1 + (a + c) by omega]
    exact e2 _
  · rw [show a + b + c + 1 = c + 1 + (a + b) by omega]
    exact e3 _

/-- Two numbers and a word: the first attempt asks for 17 characters for each number. -/
example : writeRs (cat [rtoa (fun _ _ => S "1.5") (fun _ => 0) 17 (-1) .flex, (Arg.str (S "ab")).toChars, rtoa (fun _ _ => S "-1.2345678901234567e-100") (fun _ => 0) 17 (-1) .flex]) 2 [] =
    .ok (S "1.5ab-1.2345678901234567e-100") := by decide +kernel

/-- C122 fails in hexadecimal format: the call is undefined when the container is empty. -/
theorem C122_refuted (text : StdText) (junk : Nat → Nat) (precision : Int) (k : Nat) : writeRs (cat [dtoaStd text junk precision .hexa]) (k + 1) [] = .ub := rfl

/-! ### C123 -/

/-- Aligning what an exact writer writes, in a buffer that is large enough. -/
theorem align_left {f : Writer} {t : List Nat} (hf : ∀ b : List Nat, t.length ≤ b.length → f b = .ok (t.length, overwrite t b)) (width pad : Nat) (buf : List Nat)
    (h : max width t.length ≤ buf.length) :
    toCharsLeft f width pad buf = .ok (max width t.length, overwrite (t ++ List.replicate (width - t.length) pad) buf) := by
  have hl : t.length ≤ buf.length := by omega
  unfold toCharsLeft
  rw [hf buf hl, Res.ok_bind]
  by_cases hc : t.length ≥ buf.length ∨ t.length ≥ width
  · simp only [if_pos hc]
    have h0 : width - t.length = 0 := by omega
    rw [h0, List.replicate_zero, List.append_nil]
    congr 2
    split <;> omega
  · simp only [if_neg hc]
    rw [replicate_memset (by rw [overwrite_length hl]; omega), Res.ok_bind, hf _ (by simp [overwrite]), Res.ok_bind]
    have hm : max width t.length = width := by omega
    rw [hm, overwrite_take]
    congr 2
    unfold overwrite
    simp only [List.append_assoc, List.drop_left, List.length_append, List.length_replicate]
    congr 2
    rw [← List.drop_drop, List.drop_left, List.drop_drop]

theorem align_right {f : Writer} {t z : List Nat} (hf : ∀ b : List Nat, t.length + z.length ≤ b.length → f b = .ok (t.length, overwrite (t ++ z) b)) (width pad : Nat) (buf : List Nat)
    (h : max width t.length + z.length ≤ buf.length) :
    toCharsRight f width pad buf = .ok (max width t.length, overwrite (List.replicate (width - t.length) pad ++ t ++ z) buf) := by
  have hl : t.length + z.length ≤ buf.length := by omega
  unfold toCharsRight
  rw [hf buf hl, Res.ok_bind]
  by_cases hc : t.length ≥ buf.length ∨ t.length ≥ width
  · simp only [if_pos hc]
    have h0 : width - t.length = 0 := by omega
    rw [h0, List.replicate_zero, List.nil_append]
    congr 2
    split <;> omega
  · simp only [if_neg hc]
    have ho : (overwrite (t ++ z) buf).length = buf.length := overwrite_length (by simp; omega)
    rw [replicate_memset (by rw [ho]; omega), Res.ok_bind]
    unfold onSub
    have hr : (List.take 0 (overwrite (t ++ z) buf) ++ List.replicate (width - t.length) pad ++ List.drop (0 + (width - t.length)) (overwrite (t ++ z) buf)) =
        List.replicate (width - t.length) pad ++ List.drop (width - t.length) (overwrite (t ++ z) buf) := by simp
    rw [hr, if_pos (by simp), List.drop_left' (by simp), List.take_left' (by simp), hf _ (by rw [List.length_drop, ho]; omega), Res.ok_bind, Res.ok_bind]
    have hm : max width t.length = width := by omega
    rw [hm]
    congr 2
    unfold overwrite
    simp only [List.append_assoc, List.length_append, List.length_replicate, List.drop_drop]
    congr 3
    rw [Nat.add_comm, ← List.append_assoc, ← List.drop_drop, List.drop_left' (by simp), List.drop_drop]

/-- C123, as far as it holds, with `std::to_chars`: in a buffer that is large enough, a real number is aligned to the left and to the right with the padding. -/
theorem C123_std_partial (text : StdText) (junk : Nat → Nat) (md : Nat) (precision : Int) (fmt : RealFormat) (hf : fmt ≠ .hexa) (t : List Nat) (width pad : Nat) (buf : List Nat)
    (ht : t = text (if precision = -1 then none else some precision) fmt) (h : max width t.length ≤ buf.length) :
    toCharsLeft (rtoa text junk md precision fmt) width pad buf = .ok (max width t.length, overwrite (t ++ List.replicate (width - t.length) pad) buf) ∧
    toCharsRight (rtoa text junk md precision fmt) width pad buf = .ok (max width t.length, overwrite (List.replicate (width - t.length) pad ++ t) buf) := by
  have hw : ∀ b : List Nat, t.length ≤ b.length → rtoa text junk md precision fmt b = .ok (t.length, overwrite t b) := by
    intro b hb
    obtain ⟨n, b', h1, -, h3, -⟩ := C121_std_partial text junk md precision fmt hf t b ht
    rw [h1, (h3 hb).1, (h3 hb).2]
  refine ⟨align_left hw width pad buf h, ?_⟩
  have := align_right (z := []) (f := rtoa text junk md precision fmt) (t := t) (fun b hb => by rw [List.append_nil]; exact hw b hb) width pad buf h
  rwa [List.append_nil] at this

/-- C123, as far as it holds, with `snprintf`: a real number is aligned to the right, and a zero follows.
Missing: alignment to the left, see `C123_refuted`. -/
theorem C123_right_partial (text : PrintfText) (precision : Int) (fmt : RealFormat) (h1 : -1 ≤ precision) (h2 : precision < 2 ^ 31) (t : List Nat) (width pad : Nat) (buf : List Nat)
    (ht : t = text (if precision = -1 then none else some precision.toNat) (printfLetter fmt)) (hl : t.length < 2 ^ 31) (h : max width t.length < buf.length) :
    toCharsRight (dtoaC text precision fmt) width pad buf = .ok (max width t.length, overwrite (List.replicate (width - t.length) pad ++ t ++ [0]) buf) := by
  refine align_right (fun b hb => ?_) width pad buf (by simp; omega)
  obtain ⟨n, b', -, e2, -, h4, -⟩ := C121_snprintf_partial text precision fmt t b h1 h2 ht hl
  simp only [List.length_cons, List.length_nil] at hb
  rw [e2, (h4 (by omega)).1, (h4 (by omega)).2]

example : toCharsRight (dtoaC (fun _ _ => S "1.5") (-1) .flex) 6 32 (S "........") = .ok (6, [32, 32, 32, 49, 46, 53, 0, 46]) := by decide +kernel
example : toCharsLeft (dtoaStd (fun _ _ => S "1.5") (fun _ => 0) (-1) .flex) 6 32 (S "........") = .ok (6, S "1.5   ..") := by decide +kernel

/-- C123 fails: with `snprintf`, a real number aligned to the left is followed by a zero character instead of the padding. -/
theorem C123_refuted : toCharsLeft (dtoaC (fun _ _ => S "1.5") (-1) .flex) 6 32 (S "........") = .ok (6, [49, 46, 53, 0, 32, 32, 46, 46]) := by decide +kernel

end C4
