import Verif.Props.StdCompat
import Verif.Props.Span
import Verif.Props.Small
import Verif.Props.MoreExact2
import Verif.Props.FormatSpec
import Verif.Props.Rtoa
import Verif.Props.Base64
import Verif.Props.Room
import Verif.Props.Resources
import Verif.Props.ReadList
import Verif.Props.MoreExact4
/-
What the code does exactly where properties C59, C87, C99, C105, C107, C123, C128, C129, C133, C134 and C141 fail.
-/
namespace C4
open Spec

section
open SpanImpl
/-- **C87**, exactly: the assertion of `subspan` admits the selections inside the span and, for 32- and 64-bit indices, every selection that begins at one of the elements and has so many that
the sum wraps. -/
theorem C87_exact {σ : Type} [SpanImpl σ] (w : W) (s : σ) (f n : Nat) (hn : n < 2 ^ w.bits) (hs : size s < 2 ^ w.bits) :
    Spn.subspanAssert w s f n ↔ f + n ≤ size s ∨ ((w = .w32 ∨ w = .w64) ∧ f < size s ∧ 2 ^ w.bits ≤ f + n) := by
  by_cases hw : w = .w8 ∨ w = .w16 ∨ f + n < 2 ^ w.bits
  · rw [C87_assert_partial w s f n hw]
    constructor
    · exact .inl
    · rintro (h | ⟨h1, _, h3⟩)
      · exact h
      · rcases hw with rfl | rfl | hw
        · rcases h1 with h1 | h1 <;> cases h1
        · rcases h1 with h1 | h1 <;> cases h1
        · omega
  · have hw' : (w = .w32 ∨ w = .w64) ∧ 2 ^ w.bits ≤ f + n := by
      cases w with
      | w8 => exact absurd (.inl rfl) hw
      | w16 => exact absurd (.inr (.inl rfl)) hw
      | w32 => exact ⟨.inl rfl, by omega⟩
      | w64 => exact ⟨.inr rfl, by omega⟩
    have hsum : Spn.subspanAssert w s f n ↔ (f < size s ∨ (f = size s ∧ n = 0)) ∧ iAdd w f n ≤ size s := by
      rcases hw'.1 with rfl | rfl <;> rfl
    rw [hsum]
    have hle := hw'.2
    constructor
    · rintro ⟨h | h, _⟩
      · exact .inr ⟨hw'.1, h, hle⟩
      · omega
    · rintro (h | ⟨_, h, _⟩)
      · omega
      · refine ⟨.inl h, ?_⟩
        unfold iAdd
        rw [Nat.mod_eq_sub_mod hle, Nat.mod_eq_of_lt (by omega)]
        omega

example : Spn.subspanAssert .w32 (⟨1000, 10⟩ : Span) 3 (2 ^ 32 - 3) ∧ ¬ Spn.subspanAssert .w32 (⟨1000, 10⟩ : Span) 3 (2 ^ 32 - 4) := by
  constructor
  · exact (C87_exact .w32 _ _ _ (by decide) (by decide)).mpr (.inr ⟨.inl rfl, by decide, by decide⟩)
  · intro h
    rcases (C87_exact .w32 _ _ _ (by decide) (by decide)).mp h with h | ⟨_, _, h⟩
    · exact absurd h (by decide)
    · exact absurd h (by decide)

/-- **C105**, exactly: the number is the size in bytes of the characters and their terminator, less one, so that it is right only for characters of one byte; for wider ones it is larger than the
array has characters. -/
theorem C105_exact (w : Nat) (hw : 0 < w) :
    numWhitespaceChars w + 1 = 7 * w ∧ (numWhitespaceChars w = (whitespaceChars.filter (· ≠ 0)).length ↔ w = 1) ∧ (2 ≤ w → whitespaceChars.length < numWhitespaceChars w) := by
  have h1 : whitespaceChars.length = 7 := rfl
  have h2 : (whitespaceChars.filter (· ≠ 0)).length = 6 := rfl
  have h3 : numWhitespaceChars w = 7 * w - 1 := by unfold numWhitespaceChars; rw [h1]
  rw [h1, h2, h3]
  omega

example : numWhitespaceChars 4 = 27 ∧ whitespaceChars.length = 7 := by decide

/-- **C128**, the rest of the types: with MSVC, the keywords of enumerations and unions remain before the name, whatever the name. -/
theorem C128_keyword_exact (key name : List Nat) (hk : key = S "enum " ∨ key = S "union ") : typeName .msvc (prettyFunc key name .msvc) = .ok (key ++ name) := by
  have e : prettyFunc key name .msvc = prettyFunc [] (key ++ name) .msvc := rfl
  rw [e]
  refine C128_partial .msvc [] (key ++ name) (.inr (.inr ⟨rfl, ?_, ?_⟩)) <;>
  · rcases hk with rfl | rfl <;> simp [S]

example : typeName .msvc (prettyFunc (S "union ") (S "ns::U") .msvc) = .ok (S "union ns::U") := C128_keyword_exact _ _ (.inr rfl)
end

/-- The first characters that differ are one below 128 and one that is not. -/
def Spec.Mixed (s t : List Nat) : Prop :=
  ∃ pre x y s' t', s = pre ++ x :: s' ∧ t = pre ++ y :: t' ∧ ((x < 128 ∧ 128 ≤ y) ∨ (y < 128 ∧ 128 ≤ x))

theorem lexLt_cons_iff {sgn : Bool} {c : Nat} {s t : List Nat} : LexLt sgn (c :: s) (c :: t) ↔ LexLt sgn s t := by
  refine ⟨?_, lexLt_cons⟩
  rintro (⟨z, hz, h⟩ | ⟨pre, x, y, s', t', h1, h2, h⟩)
  · exact .inl ⟨z, hz, by simpa using h⟩
  · cases pre with
    | nil =>
      simp only [List.nil_append, List.cons.injEq] at h1 h2
      rw [← h1.1, ← h2.1] at h
      exact absurd h (Int.lt_irrefl _)
    | cons a pre =>
      simp only [List.cons_append, List.cons.injEq] at h1 h2
      exact .inr ⟨pre, x, y, s', t', h1.2, h2.2, h⟩

theorem lexLt_nil {sgn : Bool} {t : List Nat} : (LexLt sgn [] t ↔ t ≠ []) ∧ ¬ LexLt sgn t [] := by
  constructor
  · constructor
    · rintro (⟨z, hz, h⟩ | ⟨pre, x, y, s', t', h1, _⟩)
      · simpa [h] using hz
      · simp at h1
    · exact fun h => .inl ⟨t, h, rfl⟩
  · rintro (⟨z, hz, h⟩ | ⟨pre, x, y, s', t', _, h2, _⟩)
    · simp at h; exact hz h.2
    · simp at h2

theorem mixed_cons {c : Nat} {s t : List Nat} : Mixed (c :: s) (c :: t) ↔ Mixed s t := by
  constructor
  · rintro ⟨pre, x, y, s', t', h1, h2, h⟩
    cases pre with
    | nil =>
      simp only [List.nil_append, List.cons.injEq] at h1 h2
      omega
    | cons a pre =>
      simp only [List.cons_append, List.cons.injEq] at h1 h2
      exact ⟨pre, x, y, s', t', h1.2, h2.2, h⟩
  · rintro ⟨pre, x, y, s', t', rfl, rfl, h⟩
    exact ⟨c :: pre, x, y, s', t', rfl, rfl, h⟩

theorem mixed_heads {a c : Nat} {s t : List Nat} (h : a ≠ c) : Mixed (a :: s) (c :: t) ↔ (a < 128 ∧ 128 ≤ c) ∨ (c < 128 ∧ 128 ≤ a) := by
  constructor
  · rintro ⟨pre, x, y, s', t', h1, h2, hm⟩
    cases pre with
    | nil =>
      simp only [List.nil_append, List.cons.injEq] at h1 h2
      omega
    | cons b pre =>
      simp only [List.cons_append, List.cons.injEq] at h1 h2
      omega
  · exact fun hm => ⟨[], a, c, s, t, rfl, rfl, hm⟩

/-- With signed characters, two strings whose first difference is mixed are ordered the other way round, all others as with unsigned ones. -/
theorem lexLt_signed : ∀ {s t : List Nat}, Bytes s → Bytes t →
    (Mixed s t → (LexLt true s t ↔ ¬ LexLt false s t) ∧ (LexLt true t s ↔ ¬ LexLt false t s) ∧ (LexLt false s t ↔ ¬ LexLt false t s) ∧ s ≠ t) ∧
    (¬ Mixed s t → (LexLt true s t ↔ LexLt false s t) ∧ (LexLt true t s ↔ LexLt false t s))
  | [], t, _, _ => by
    refine ⟨?_, fun _ => by simp only [lexLt_nil]; exact ⟨trivial, trivial⟩⟩
    rintro ⟨pre, x, y, s', t', h1, _⟩
    simp at h1
  | a :: s, [], _, _ => by
    refine ⟨?_, fun _ => by simp only [lexLt_nil]; exact ⟨trivial, trivial⟩⟩
    rintro ⟨pre, x, y, s', t', _, h2, _⟩
    simp at h2
  | a :: s, c :: t, hs, ht => by
    by_cases h : a = c
    · subst h
      simp only [mixed_cons, lexLt_cons_iff, ne_eq, List.cons.injEq, true_and]
      exact lexLt_signed (fun x hx => hs x (.tail _ hx)) (fun x hx => ht x (.tail _ hx))
    · have ha := hs a (.head _)
      have hc := ht c (.head _)
      simp only [mixed_heads h, lexLt_heads h, lexLt_heads (Ne.symm h), Spec.charValue, ne_eq, List.cons.injEq, h, false_and, not_false_eq_true, and_true, if_true, Bool.true_eq_false, if_false]
      constructor
      · intro hm
        split <;> split <;> omega
      · intro hm
        split <;> split <;> omega

/-- **C129**, agreement with the standard library, exactly: with signed `char`, equality is that of the standard strings; the four comparisons by order have the opposite result if one of the first characters that
differ is below 128 and the other is not, and the same result otherwise. -/
theorem C129_standard_exact (rel : Rel) (ss : CView) (s : List Nat) (hs : ss.wf) (hb : Bytes s) :
    ∃ b c, viewOpString true rel ss s = .ok b ∧ stringOpView true rel s ss = .ok c ∧
      (Mixed ss.chars s ∧ rel ≠ .eq ∧ rel ≠ .ne → (b = true ↔ ¬ rel.Holds false ss.chars s) ∧ (c = true ↔ ¬ rel.Holds false s ss.chars)) ∧
      (¬ (Mixed ss.chars s ∧ rel ≠ .eq ∧ rel ≠ .ne) → (b = true ↔ rel.Holds false ss.chars s) ∧ (c = true ↔ rel.Holds false s ss.chars)) := by
  obtain ⟨⟨b, h1, h2⟩, ⟨c, h3, h4⟩, -⟩ := C129_compare true rel ss ss s hs hs hb
  refine ⟨b, c, h1, h3, ?_⟩
  rw [h2, h4]
  obtain ⟨m1, m2⟩ := lexLt_signed hs.2 hb
  constructor
  · rintro ⟨hm, he, hn⟩
    obtain ⟨e1, e2, e3, e4⟩ := m1 hm
    have e5 : s ≠ ss.chars := fun h => e4 h.symm
    cases rel <;> simp only [Rel.Holds, e1, e2, e4, e5, or_false, ne_eq, not_true_eq_false, reduceCtorEq, not_false_eq_true, and_self, iff_self] at he hn ⊢
  · intro hm
    by_cases hx : Mixed ss.chars s
    · have : rel = .eq ∨ rel = .ne := by
        cases rel with
        | eq => exact .inl rfl
        | ne => exact .inr rfl
        | _ => exact absurd ⟨hx, by decide, by decide⟩ hm
      rcases this with rfl | rfl <;> exact ⟨.rfl, .rfl⟩
    · obtain ⟨e1, e2⟩ := m2 hx
      cases rel <;> simp only [Rel.Holds, e1, e2, and_self]

example : Mixed [97, 195, 169] (S "az") ∧ ¬ Mixed (S "az") (S "ab") ∧ viewOpString true .lt ⟨false, [97, 195, 169]⟩ (S "az") = .ok true ∧ stringOpView true .le (S "az") ⟨false, [97, 195, 169]⟩ = .ok false := by
  refine ⟨⟨[97], 195, 122, [169], [], rfl, rfl, by decide⟩, ?_, by decide +kernel, by decide +kernel⟩
  have e1 : S "az" = [97, 122] := rfl
  have e2 : S "ab" = [97, 98] := rfl
  rw [e1, e2, mixed_cons, mixed_heads (by decide)]
  decide

/-- **C133** for pointers, the rest: an address from 2^63 on is written with a minus sign and the number by which it is less than 2^64. -/
theorem C133_pointers_exact (p r nd : Nat) (hp : 2 ^ 63 ≤ p) (hp2 : p < 2 ^ 64) (hr : isRadix r) (hd : nd < 2 ^ 32 - 3) :
    Writes (Fmt.hexPtr p).toChars (45 :: uintText 16 (2 ^ 64 - p) 0) ∧ Writes (Fmt.octPtr p).toChars (45 :: uintText 8 (2 ^ 64 - p) 0) ∧
    Writes (Fmt.binPtr p).toChars (45 :: uintText 2 (2 ^ 64 - p) 0) ∧ Writes (Fmt.integralPtr p r).toChars (45 :: uintText r (2 ^ 64 - p) 0) ∧
    Writes (Fmt.zpadPtr p nd).toChars (45 :: uintText 16 (2 ^ 64 - p) nd) := by
  have e : Fmt.ofPtr p = (p : Int) - 2 ^ 64 := by
    unfold Fmt.ofPtr Fmt.intptr ITy.wrap
    rw [if_pos rfl]
    simp only [W.bits, Int.bmod]
    omega
  have hf := ofPtr_fits p
  have ht : ∀ r n, 45 :: uintText r (2 ^ 64 - p) n = intText r ((p : Int) - 2 ^ 64) n := by
    intro r n
    unfold intText
    rw [if_pos (by omega)]
    have : ((p : Int) - 2 ^ 64).natAbs = 2 ^ 64 - p := by omega
    rw [this]; rfl
  unfold Fmt.hexPtr Fmt.octPtr Fmt.binPtr Fmt.integralPtr Fmt.zpadPtr
  rw [e] at hf ⊢
  rw [ht, ht, ht, ht, ht]
  generalize (p : Int) - 2 ^ 64 = v at hf
  exact ⟨integral_writes ⟨_, v, 16⟩ hf (show isRadix 16 by decide), integral_writes ⟨_, v, 8⟩ hf (show isRadix 8 by decide),
    integral_writes ⟨_, v, 2⟩ hf (show isRadix 2 by decide), integral_writes ⟨_, v, r⟩ hf hr, padded_writes ⟨_, v, 16, nd⟩ hf (show isRadix 16 by decide) hd⟩

example : (Fmt.zpadPtr (2 ^ 64 - 1) 4).toChars (S "..........") = .ok (7, S "-0x0001...") := by decide +kernel

/-- Aligning to the left what is written with a terminator. -/
theorem align_left_zero {f : Writer} {t : List Nat} (hf : ∀ b : List Nat, t.length < b.length → f b = .ok (t.length, overwrite (t ++ [0]) b)) (width pad : Nat) (buf : List Nat)
    (h1 : t.length < buf.length) (h2 : width ≤ buf.length) :
    toCharsLeft f width pad buf = .ok (max width t.length, overwrite (t ++ [0] ++ List.replicate (width - (t.length + 1)) pad) buf) := by
  unfold toCharsLeft
  rw [hf buf h1, Res.ok_bind]
  by_cases hc : t.length ≥ buf.length ∨ t.length ≥ width
  · simp only [if_pos hc]
    have h0 : width - (t.length + 1) = 0 := by omega
    rw [h0, List.replicate_zero, List.append_nil]
    congr 2
    split <;> omega
  · simp only [if_neg hc]
    have ho : (overwrite (t ++ [0]) buf).length = buf.length := overwrite_length (by simp; omega)
    rw [replicate_memset (by rw [ho]; omega), Res.ok_bind, hf _ (by simp [ho]; omega), Res.ok_bind]
    have hm : max width t.length = width := by omega
    rw [hm]
    congr 2
    obtain ⟨k, hk⟩ : ∃ k, width = t.length + 1 + k := ⟨width - (t.length + 1), by omega⟩
    have k1 : width - t.length = k + 1 := by omega
    have k2 : width - (t.length + 1) = k := by omega
    rw [k1, k2, List.replicate_succ]
    have hX : (List.take t.length (overwrite (t ++ [0]) buf)).length = t.length := by rw [List.length_take, ho]; omega
    generalize List.take t.length (overwrite (t ++ [0]) buf) = X at hX
    have hY : List.drop (t.length + (k + 1)) (overwrite (t ++ [0]) buf) = List.drop (t.length + 1 + k) buf := by
      unfold overwrite
      rw [show t.length + (k + 1) = (t ++ [0]).length + k by simp; omega, ← List.drop_drop, List.drop_left, List.drop_drop]
      simp
    rw [hY]
    unfold overwrite
    have hd : List.drop (List.length (t ++ [0])) (X ++ (pad :: List.replicate k pad) ++ List.drop (t.length + 1 + k) buf) = List.replicate k pad ++ List.drop (t.length + 1 + k) buf := by
      rw [show X ++ (pad :: List.replicate k pad) ++ List.drop (t.length + 1 + k) buf = (X ++ [pad]) ++ (List.replicate k pad ++ List.drop (t.length + 1 + k) buf) by simp,
        show List.length (t ++ [0]) = List.length (X ++ [pad]) by simp [hX], List.drop_left]
    rw [hd]
    simp [Nat.add_assoc, Nat.add_comm 1 k]

/-- **C123**, alignment to the left with `snprintf`, exactly: the terminating zero is in the place of the first padding character. -/
theorem C123_left_exact (text : PrintfText) (precision : Int) (fmt : RealFormat) (h1 : -1 ≤ precision) (h2 : precision < 2 ^ 31) (t : List Nat) (width pad : Nat) (buf : List Nat)
    (ht : t = text (if precision = -1 then none else some precision.toNat) (printfLetter fmt)) (hl : t.length < 2 ^ 31) (h : t.length < buf.length) (hw : width ≤ buf.length) :
    toCharsLeft (dtoaC text precision fmt) width pad buf = .ok (max width t.length, overwrite (t ++ [0] ++ List.replicate (width - (t.length + 1)) pad) buf) := by
  refine align_left_zero (fun b hb => ?_) width pad buf h hw
  obtain ⟨n, b', -, e2, -, h4, -⟩ := C121_snprintf_partial text precision fmt t b h1 h2 ht hl
  rw [e2, (h4 (by omega)).1, (h4 (by omega)).2]

example : toCharsLeft (dtoaC (fun _ _ => S "-2.25") (-1) .flex) 7 42 (S ".........") = .ok (7, [45, 50, 46, 50, 53, 0, 42, 46, 46]) ∧ (S "-2.25").length < 9 := by decide +kernel

/-- The characters `base64_valid` goes past. -/
theorem validLoop_good (sgn : Bool) (r : List Nat) : ∀ pre : List Nat, (∀ c ∈ pre, Base64Char c ∨ c = 61) → base64ValidLoop sgn (pre ++ r) = base64ValidLoop sgn r
  | [], _ => rfl
  | c :: pre, h => by
    have ih := validLoop_good sgn r pre fun x hx => h x (.tail _ hx)
    rw [List.cons_append, base64ValidLoop]
    rcases h c (.head _) with ⟨i, hi, rfl⟩ | rfl
    · have := letter_lt i hi
      rw [if_neg (by omega)]
      by_cases h2 : letter i = 61
      · rw [if_pos h2, ih]
      · rw [if_neg h2, rd_some (charToSextet_letter i hi), Res.ok_bind, if_neg (by omega), ih]
    · rw [if_neg (by omega), if_pos rfl, ih]

/-- **C59** with unsigned `char`, exactly: the first character that is no letter and no `=` decides; if it is below 128 the text is not valid, otherwise the table is read outside. -/
theorem C59_unsigned_exact (pre post : List Nat) (c : Nat) (hp : ∀ x ∈ pre, Base64Char x ∨ x = 61) (hc : ¬ (Base64Char c ∨ c = 61)) (hl : (pre ++ c :: post).length % 4 = 0) :
    base64Valid false (pre ++ c :: post) = if c < 128 then .ok false else .ub := by
  unfold base64Valid
  rw [and_3, if_neg (by simpa using hl), validLoop_good false _ pre hp, base64ValidLoop, if_neg (by simp), if_neg (fun h => hc (.inr h))]
  by_cases h : c < 128
  · rw [if_pos h]
    obtain ⟨x, hx⟩ : ∃ x, charToSextet[c]? = some x := ⟨_, List.getElem?_eq_getElem (by simpa [charToSextet] using h)⟩
    rw [rd_some hx, Res.ok_bind, if_pos]
    by_contra h3
    obtain ⟨i, hi, hl⟩ := charToSextet_some c h (fun h => hc (.inr h)) (by rw [hx]; simpa using h3)
    exact hc (.inl ⟨i, hi, hl.symm⟩)
  · rw [if_neg h]
    have : rd charToSextet c = .ub := by
      unfold rd
      rw [List.getElem?_eq_none (by simp [charToSextet]; omega)]
    rw [this]; rfl

example : base64Valid false (S "AA" ++ 200 :: S "A") = .ub ∧ base64Valid false (S "A!" ++ 200 :: S "A") = .ok false := by decide +kernel

section
variable {α : Type}

/-- **C99**, exactly, if elements remain: they move to the front; behind them are removed elements as they were, then objects moved from, and none of them is destroyed. -/
theorem C99_exact (pre : List (Cell α)) (gone kept : List α) (rest : List (Cell α)) (d : Nat) (hg : gone ≠ []) (hk : kept ≠ []) :
    destroyRoom ⟨pre ++ gone.map .live ++ kept.map .live ++ rest, d⟩ pre.length (gone.length + kept.length) gone.length false =
      .ok ⟨pre ++ kept.map .live ++ (gone.drop kept.length).map .live ++ List.replicate (min gone.length kept.length) .moved ++ rest, d⟩ := by
  have hobj := objs_mid (pre := pre) (post := rest) (d := d) (live_obj (gone ++ kept))
  rw [List.map_append, ← List.append_assoc pre, List.length_append, List.length_map, List.length_map] at hobj
  have g0 : 0 < gone.length := List.length_pos_iff.mpr hg
  have k0 : 0 < kept.length := List.length_pos_iff.mpr hk
  obtain ⟨m', e, hs⟩ := destroyRoom_shape hobj (room := gone.length) (by omega) (.inl g0)
  rw [e]
  congr 1
  apply hs.cells_eq
  · simp; omega
  · intro j hj
    simp only [getElem?_cat, List.length_append, List.length_map, List.length_replicate, List.length_drop]
    rw [Nat.add_sub_cancel_left, if_neg (c := gone.length = _) (by omega)]
    by_cases c1 : j < pre.length
    · rw [if_neg (by omega), if_neg (by omega), if_pos (by omega), if_pos (by omega), if_pos c1, if_pos (by omega), if_pos (by omega), if_pos (by omega), if_pos c1]
    · by_cases c2 : j < pre.length + kept.length
      · rw [if_pos (by omega), if_pos (by omega), if_neg (by omega), if_pos (by omega), if_pos (by omega), if_pos (by omega), if_neg c1]
        congr 1; omega
      · by_cases c3 : j < pre.length + gone.length + kept.length
        · rw [if_neg (by omega), if_pos (by omega)]
          by_cases c4 : pre.length + gone.length ≤ j
          · rw [if_pos c4, if_pos (by omega), if_neg (by omega), List.getElem?_replicate, if_pos (by omega)]
          · rw [if_neg c4, if_pos (by omega), if_pos (by omega), if_neg c1, if_pos (by omega), if_pos (by omega), if_neg (by omega), List.map_drop, List.getElem?_drop]
            congr 1; omega
        · rw [if_neg (by omega), if_neg (by omega), if_neg (by omega), if_neg (by omega)]
          congr 1; omega

example : destroyRoom ⟨[.live 7, .live 1, .live 2, .live 3, .live 4, .live 8], 0⟩ 1 4 3 false = .ok ⟨[.live 7, .live 4, .live 2, .live 3, .moved, .live 8], 0⟩ := by decide

/-- **C107**, exactly, if the gap is smaller than the number of elements: the whole gap has objects moved from, and `n - room` objects were lost without being destroyed. -/
theorem C107_exact (pre : List (Cell α)) (xs : List α) (room d : Nat) (rest : List (Cell α)) (h0 : 0 < room) (h : room < xs.length) :
    makeRoom ⟨pre ++ xs.map .live ++ List.replicate room .raw ++ rest, d⟩ pre.length xs.length room false =
      .ok ⟨pre ++ List.replicate room .moved ++ xs.map .live ++ rest, d + (xs.length - room)⟩ := by
  have hobj := objs_mid (pre := pre) (post := List.replicate room .raw ++ rest) (d := d) (live_obj xs)
  rw [← List.append_assoc, List.length_map] at hobj
  obtain ⟨m', k, e, hs, hk⟩ := makeRoom_shape hobj (room := room) (by simp; omega) (.inl h0)
  rw [e]
  congr 1
  have hkd : k = d + (xs.length - room) := by
    rw [hk]
    intro j h1 h2
    simp only [getElem?_cat, List.length_append, List.length_map, List.length_replicate]
    rw [if_pos (by omega), if_neg (by omega), List.getElem?_replicate, if_pos (by omega)]
  rw [hkd] at hs
  apply hs.cells_eq
  · simp; omega
  · intro j hj
    simp only [getElem?_cat, List.length_append, List.length_map, List.length_replicate]
    by_cases c1 : j < pre.length
    · rw [if_neg (by omega), if_neg (by omega), if_pos (by omega), if_pos (by omega), if_pos c1, if_pos (by omega), if_pos (by omega), if_pos c1]
    · by_cases c2 : j < pre.length + room
      · rw [if_neg (by omega), if_pos (by omega), if_pos (by omega), if_pos (by omega), if_neg c1, List.getElem?_replicate, if_pos (by omega)]
      · by_cases c3 : j < pre.length + room + xs.length
        · rw [if_pos (by omega), if_pos (by omega), if_pos (by omega), if_neg (by omega), if_pos (by omega), if_neg (by omega)]
          congr 1; omega
        · rw [if_neg (by omega), if_neg (by omega), if_neg (by omega), if_neg (by omega)]
          congr 1; omega

example : makeRoom ⟨[.live 7, .live 1, .live 2, .live 3, .raw, .live 8], 0⟩ 1 3 1 false = .ok ⟨[.live 7, .moved, .live 1, .live 2, .live 3, .live 8], 2⟩ := by decide
end

/-- **C134** through a memory resource, exactly: whatever the resources that the request passes through, it gives the address that the system gives for the alignment, or for that of a pointer if
it is larger, and reports an error if the alignment is no power of two, if the system fails, and if the address is null. -/
theorem C134_exact (os : Nat → Nat → MemAlign) (sz al : Nat) : ∀ (f : Nat) (s : Sys) (r : Nat), Built s.nodes → r < s.nodes.length → r < f →
    (∀ p, (sysAllocate f os s r sz al).1 = .ok p ↔ (∃ k, al = 2 ^ k) ∧ os (max 8 al) sz = .ok p ∧ p ≠ 0) ∧
    ((¬ ∃ p, (∃ k, al = 2 ^ k) ∧ os (max 8 al) sz = .ok p ∧ p ≠ 0) → (sysAllocate f os s r sz al).1 = .abort)
  | f + 1, s, r, hb, hr, hf => by
    have hx : sysAlign al = max 8 al := by unfold sysAlign; split <;> omega
    have base : (∀ p, notNull (aallocImpl os sz al) = .ok p ↔ (∃ k, al = 2 ^ k) ∧ os (max 8 al) sz = .ok p ∧ p ≠ 0) ∧
        ((¬ ∃ p, (∃ k, al = 2 ^ k) ∧ os (max 8 al) sz = .ok p ∧ p ≠ 0) → notNull (aallocImpl os sz al) = .abort) := by
      by_cases hk : ∃ k, al = 2 ^ k
      · obtain ⟨k, rfl⟩ := hk
        rw [aallocImpl_pow, hx]
        cases e : os (max 8 (2 ^ k)) sz with
        | ok q =>
          by_cases hq : q = 0
          · subst hq
            refine ⟨fun p => ⟨fun h => by simp [notNull] at h, ?_⟩, fun _ => rfl⟩
            rintro ⟨-, h, h0⟩
            cases h
            exact absurd rfl h0
          · have : notNull (.ok q) = .ok q := by simp [notNull, hq]
            refine ⟨fun p => ⟨fun h => ?_, ?_⟩, fun h => absurd ⟨q, ⟨k, rfl⟩, rfl, hq⟩ h⟩
            · simp only [this] at h
              cases h
              exact ⟨⟨k, rfl⟩, rfl, hq⟩
            · rintro ⟨-, h, h0⟩
              cases h
              exact this
        | enomem => exact ⟨fun p => ⟨fun h => by simp [notNull] at h, fun h => by simp at h⟩, fun _ => rfl⟩
        | other => exact ⟨fun p => ⟨fun h => by simp [notNull] at h, fun h => by simp at h⟩, fun _ => rfl⟩
      · rw [aallocImpl_bad os sz al hk]
        exact ⟨fun p => ⟨fun h => by simp [notNull] at h, fun h => absurd h.1 hk⟩, fun _ => rfl⟩
    have lift : ∀ x : Res Nat, ((∀ p, x = .ok p ↔ (∃ k, al = 2 ^ k) ∧ os (max 8 al) sz = .ok p ∧ p ≠ 0) ∧
        ((¬ ∃ p, (∃ k, al = 2 ^ k) ∧ os (max 8 al) sz = .ok p ∧ p ≠ 0) → x = .abort)) → notNull x = x := by
      intro x ⟨h1, h2⟩
      by_cases h : ∃ p, (∃ k, al = 2 ^ k) ∧ os (max 8 al) sz = .ok p ∧ p ≠ 0
      · obtain ⟨p, hp⟩ := h
        rw [(h1 p).mpr hp]
        simp [notNull, hp.2.2]
      · rw [h2 h]; rfl
    unfold sysAllocate
    obtain ⟨nd, hn⟩ : ∃ nd, s.nodes[r]? = some nd := ⟨_, List.getElem?_eq_getElem hr⟩
    rw [hn]
    cases nd with
    | malloc =>
      generalize notNull (aallocImpl os sz al) = x at base
      cases x <;> exact base
    | derived j =>
      have hj := hb r j (.inl hn)
      have ih := C134_exact os sz al f s j hb (by omega) (by omega)
      simp only [lift _ ih]
      exact ih
    | counts j =>
      have hj := hb r j (.inr hn)
      have ih := C134_exact os sz al f s j hb (by omega) (by omega)
      have : ∀ c, (countsAllocate c (sysAllocate f os s j sz al).1 sz).1 = (sysAllocate f os s j sz al).1 := by
        intro c
        have h := lift _ ih
        rw [← h]
        generalize (sysAllocate f os s j sz al).1 = x at h
        rw [h]
        cases x with
        | ok p => exact h
        | _ => rfl
      simp only [this]
      exact ih

example : Built [.malloc, .derived 0, .counts 1] ∧ ∀ cnt, (sysAllocate 3 (fun al _ => .ok (5 * al)) ⟨[.malloc, .derived 0, .counts 1], cnt, []⟩ 2 100 4).1 = .ok 40 ∧
    (sysAllocate 3 (fun al _ => .ok (5 * al)) ⟨[.malloc, .derived 0, .counts 1], cnt, []⟩ 2 100 24).1 = .abort := by
  refine ⟨fun r j h => ?_, fun cnt => ⟨rfl, rfl⟩⟩
  match r with
  | 0 | 1 | 2 => simp at h <;> omega
  | n + 3 => simp at h

theorem firstInt_iff (t : ITy) (s : List Nat) (n : Nat) (v : Int) : firstInt t s = .ok (some (n, v)) ↔ FirstNumber t (NumberFor t) s n v := by
  unfold firstInt NumberFor
  cases h : t.sgn with
  | true => simpa using C18_atoi_first_iff t s n v
  | false => simpa using C18_atou_first_iff t s n v

theorem readRest_eq (s : List Nat) (n : Nat) : readRest s n = s.drop n := by
  unfold readRest
  split
  · rfl
  · rw [List.drop_eq_nil_of_le (by omega)]

/-- **C141**, both ways: `uncat` returns `n` and stores `vs` if and only if the first `n` characters are number texts of these values; so npos is returned only if the text does not begin with
as many numbers as there are arguments. -/
theorem C141_uncat_iff (ts : List ITy) (s : List Nat) (n : Nat) (vs : List Int) : uncat ts s = .ok (some (n, vs)) ↔ NumbersAt ts s n vs := by
  constructor
  · intro h
    obtain ⟨r, e, hr⟩ := C141_uncat ts s
    rw [h] at e
    cases e
    exact (hr n vs rfl).1
  · intro h
    induction h with
    | nil s => rfl
    | cons h1 _ ih =>
      rw [uncat, (firstInt_iff _ _ _ _).mpr h1, Res.ok_bind]
      dsimp only
      rw [readRest_eq, ih, Res.ok_bind]

theorem uncatsepMore_complete {ts : List ITy} {s : List Nat} {n : Nat} {vs : List Int} (h : MoreNumbersAt ts s n vs) : uncatsepMore ts s = .ok (some (n, vs)) := by
  induction h with
  | nil s => rfl
  | @cons t ts c s n m v vs h1 _ ih =>
    have e0 : fromCharsFirstChar (c :: s) = .ok (some (1, c)) := rfl
    rw [uncatsepMore, e0, Res.ok_bind]
    dsimp only
    rw [readRest_eq, List.drop_one, List.tail_cons, (firstInt_iff _ _ _ _).mpr h1, Res.ok_bind]
    dsimp only
    rw [readRest_eq, ih, Res.ok_bind]

/-- **C141**, both ways, for `uncatsep`: npos is returned only if the text does not begin with as many numbers as there are arguments, with one character between them. -/
theorem C141_uncatsep_iff (ts : List ITy) (s : List Nat) (n : Nat) (vs : List Int) : uncatsep ts s = .ok (some (n, vs)) ↔ SeparatedAt ts s n vs := by
  constructor
  · intro h
    obtain ⟨r, e, hr⟩ := C141_uncatsep ts s
    rw [h] at e
    cases e
    exact (hr n vs rfl).1
  · intro h
    cases h with
    | nil => rfl
    | cons h1 h2 =>
      rw [uncatsep, (firstInt_iff _ _ _ _).mpr h1, Res.ok_bind]
      dsimp only
      rw [readRest_eq, uncatsepMore_complete h2, Res.ok_bind]

/-- **C141** for `unformat`, exactly: it returns `n` and stores `vs` if and only if the text has the numbers at the distances of the marks in the format. -/
theorem C141_unformat_exact (ts : List ITy) (fmt s : List Nat) (n : Nat) (vs : List Int) : unformat ts fmt s = .ok (some (n, vs)) ↔ MarkedAt ts fmt s n vs := by
  constructor
  · intro h
    obtain ⟨r, e, hr⟩ := C141_unformat_partial ts fmt s
    rw [h] at e
    cases e
    exact hr n vs rfl
  · intro h
    induction h with
    | nil fmt s => rfl
    | @noMark ts fmt s h =>
      cases ts with
      | nil => rfl
      | cons t ts =>
        obtain ⟨r0, e0, h1, h2⟩ := C29_find fmt [123, 125] 0
        rw [unformat, e0, Res.ok_bind, h2.mpr fun i _ => h i]
    | @cons t ts pre post s n m v vs hp h1 _ ih =>
      obtain ⟨r0, e0, h3, -⟩ := C29_find (pre ++ mark ++ post) [123, 125] 0
      rw [unformat, e0, Res.ok_bind, (h3 pre.length).mpr ⟨Nat.zero_le _, ⟨pre, post, rfl, rfl⟩, fun i _ hi => hp i hi⟩]
      dsimp only
      rw [readRest_eq, (firstInt_iff _ _ _ _).mpr h1, Res.ok_bind]
      dsimp only
      rw [readRest_eq, List.drop_drop, show List.drop (pre.length + 2) (pre ++ mark ++ post) = post from drop_mark pre post, ih, Res.ok_bind]

/-- A text with too few numbers. -/
example : ¬ ∃ n vs, NumbersAt [⟨.w32, true⟩, ⟨.w32, true⟩] (S "12 ") n vs := by
  rintro ⟨n, vs, h⟩
  have h1 := (C141_uncat_iff _ _ _ _).mpr h
  have h2 : uncat [⟨.w32, true⟩, ⟨.w32, true⟩] (S "12 ") = .ok none := by decide +kernel
  rw [h2] at h1
  cases h1

example : SeparatedAt [⟨.w32, true⟩, ⟨.w8, false⟩] (S "-7, 3;x") 5 [-7, 3] ∧ MarkedAt [⟨.w32, true⟩, ⟨.w32, true⟩] (S "a={}, b={}") (S "a=1, b=-2") 9 [1, -2] :=
  ⟨(C141_uncatsep_iff _ _ _ _).mp (by decide +kernel), (C141_unformat_exact _ _ _ _ _).mp (by decide +kernel)⟩

end C4
