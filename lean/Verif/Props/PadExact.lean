import Verif.Props.CharconvWrite
/-
What `utoa` and `itoa` do exactly for every number of digits asked for, also those for which property C09 fails.
-/
namespace C4
open Spec

/-- The longest of the texts of `v` that fits into `n` characters: padded to `nd` digits, not padded, or only the prefix. -/
def Spec.fitText (r v nd n : Nat) : List Nat :=
  if (uintText r v nd).length ≤ n then uintText r v nd else if (uintText r v 0).length ≤ n then uintText r v 0 else radixPrefix r

/-- The size that is returned: that of the padded text behind `pos` characters, computed with 32 bits. -/
def Spec.size32 (r v nd pos : Nat) : Nat := (pos + (radixPrefix r).length + max nd (numeral r v).length % 2 ^ 32) % 2 ^ 32

theorem pfxPadded_all {b c v nd : Nat} {writer : List Nat → Res (Nat × List Nat)} {pos : Nat} {buf : List Nat} (hb : 2 ≤ b) (hw : ExactW writer (numeralText b v)) :
    pfxPadded buf pos c (numeral b v).length nd (writeNumDigits writer nd) =
      if buf.length < (pos + 2 + max nd (numeral b v).length % 2 ^ 32) % 2 ^ 32 then .ok ((pos + 2 + max nd (numeral b v).length % 2 ^ 32) % 2 ^ 32, buf)
      else if buf.length < pos + 2 then .ub
      else .ok ((pos + 2 + max nd (numeral b v).length % 2 ^ 32) % 2 ^ 32, placeAt pos
        (if ([48, c] ++ paddedText b v nd).length ≤ buf.length - pos then [48, c] ++ paddedText b v nd
         else if ([48, c] ++ numeralText b v).length ≤ buf.length - pos then [48, c] ++ numeralText b v else [48, c]) buf) := by
  unfold pfxPadded u32
  rw [ite_max, Nat.max_comm]
  generalize (pos + 2 + max nd (numeral b v).length % 2 ^ 32) % 2 ^ 32 = T
  simp only
  by_cases h1 : buf.length < T
  · rw [if_neg (by omega), if_pos h1]
  · rw [if_pos (by omega), if_neg h1]
    by_cases h2 : buf.length < pos + 2
    · rw [if_pos h2]
      by_cases h3 : pos < buf.length
      · rw [wr_ok h3, Res.ok_bind]
        unfold wr
        rw [if_neg (by simp; omega)]; rfl
      · unfold wr
        rw [if_neg h3]; rfl
    · rw [if_neg h2]
      obtain ⟨A, x, y, B, rfl, rfl⟩ := split_at2 (buf := buf) (pos := pos) (by omega)
      have := wr2 (A := A) (B := B) (x := x) (y := y) (c := 48) (d := c)
      rw [← Res.bind_assoc, this, Res.ok_bind]
      have e : A ++ 48 :: c :: B = (A ++ [48, c]) ++ B := by simp
      have hl2 : A.length + 2 = (A ++ [48, c]).length := by simp
      rw [e, hl2, onSub_append, writeNumDigits_eq hb hw nd B]
      have hB : (A ++ x :: y :: B).length - A.length = B.length + 2 := by simp
      rw [hB]
      have e1 : ([48, c] ++ paddedText b v nd).length = (paddedText b v nd).length + 2 := by simp
      have e2 : ([48, c] ++ numeralText b v).length = (numeralText b v).length + 2 := by simp
      rw [e1, e2]
      simp only [Nat.add_le_add_iff_right]
      by_cases h4 : (paddedText b v nd).length ≤ B.length
      · rw [if_pos h4, if_pos h4]; simp [placeAt, overwrite]
      · rw [if_neg h4, if_neg h4]
        by_cases h5 : (numeralText b v).length ≤ B.length
        · rw [if_pos h5, if_pos h5]; simp [placeAt, overwrite]
        · rw [if_neg h5, if_neg h5]; simp [placeAt, overwrite]

theorem radixSwitchPad_all (w : W) (v r nd pos : Nat) (buf : List Nat) (h : v < 2 ^ w.bits) (hr : isRadix r) :
    radixSwitchPad w v r nd pos buf =
      if buf.length < size32 r v nd pos then .ok (size32 r v nd pos, buf)
      else if buf.length < pos + (radixPrefix r).length then .ub
      else .ok (size32 r v nd pos, placeAt pos (fitText r v nd (buf.length - pos)) buf) := by
  rcases hr with rfl | rfl | rfl | rfl
  · simp only [radixSwitchPad]
    rw [digitsBin_eq w v h]
    refine (pfxPadded_all (by omega) (writeBin_exact w v h)).trans ?_
    simp only [size32, fitText, uintText, radixPrefix, paddedText_zero]; rfl
  · simp only [radixSwitchPad]
    rw [digitsOct_eq v, Res.ok_bind]
    refine (pfxPadded_all (by omega) (writeOct_exact w v)).trans ?_
    simp only [size32, fitText, uintText, radixPrefix, paddedText_zero]; rfl
  · simp only [radixSwitchPad]
    rw [digitsDec_eq w v h]
    have e : size32 10 v nd pos = u32 (pos + u32 (if nd > (numeral 10 v).length then nd else (numeral 10 v).length)) := by
      rw [ite_max, Nat.max_comm]; simp [size32, radixPrefix, u32]
    rw [← e]
    generalize size32 10 v nd pos = T
    by_cases h1 : buf.length < T
    · rw [if_neg (by omega), if_pos h1]
    · rw [if_pos (by omega), if_neg h1]
      have hp : (radixPrefix 10).length = 0 := by decide
      rw [hp, Nat.add_zero]
      by_cases h2 : buf.length < pos
      · rw [if_pos h2]
        unfold onSub
        rw [if_neg (by omega)]; rfl
      · rw [if_neg h2]
        obtain ⟨A, B, rfl, rfl⟩ := split_at' (buf := buf) (pos := pos) (by omega)
        unfold writeDecPad
        rw [onSub_append, writeNumDigits_eq (by omega) (writeDec_exact w v h)]
        have hB : (A ++ B).length - A.length = B.length := by simp
        rw [hB, placeAt_append]
        unfold fitText uintText
        simp only [radixPrefix, paddedText_zero, Nat.reduceEqDiff, if_false, List.nil_append]
        by_cases h4 : (paddedText 10 v nd).length ≤ B.length
        · rw [if_pos h4, if_pos h4]; rfl
        · rw [if_neg h4, if_neg h4]
          by_cases h5 : (numeralText 10 v).length ≤ B.length
          · rw [if_pos h5, if_pos h5]; rfl
          · rw [if_neg h5, if_neg h5]; rfl
  · simp only [radixSwitchPad]
    rw [digitsHex_eq w v h]
    refine (pfxPadded_all (by omega) (writeHex_exact w v h)).trans ?_
    simp only [size32, fitText, uintText, radixPrefix, paddedText_zero]; rfl

/-- **C09**, exactly, for unsigned numbers: the size is that of the padded text, reduced modulo `2^32`.  If the buffer has that size, but not that of the prefix, characters are written outside of it;
otherwise the longest text that fits is written, so that a buffer that is reported to suffice may hold a number that is not padded or not written at all. -/
theorem C09_exact (w : W) (v r nd : Nat) (buf : List Nat) (h : v < 2 ^ w.bits) (hr : isRadix r) :
    utoaRadixPad w v r nd buf =
      if buf.length < size32 r v nd 0 then .ok (size32 r v nd 0, buf)
      else if buf.length < (radixPrefix r).length then .ub
      else .ok (size32 r v nd 0, overwrite (fitText r v nd buf.length) buf) := by
  unfold utoaRadixPad
  rw [radixSwitchPad_all w v r nd 0 buf h hr, placeAt_zero, Nat.zero_add, Nat.sub_zero]

example : utoaRadixPad .w8 5 10 (2 ^ 32 + 2) [95, 95, 95] = .ok (2, S "5__") ∧ fitText 10 5 (2 ^ 32 + 2) 3 = S "5" ∧ size32 10 5 (2 ^ 32 + 2) 0 = 2 := by
  have e : fitText 10 5 (2 ^ 32 + 2) 3 = S "5" := by
    unfold fitText
    rw [if_neg (by rw [uintText, List.length_append, paddedText_length]; have : 3 < max (2 ^ 32 + 2) (numeral 10 5).length := by omega
                   omega)]
    decide +kernel
  have e2 : size32 10 5 (2 ^ 32 + 2) 0 = 2 := by decide +kernel
  refine ⟨?_, e, e2⟩
  rw [C09_exact .w8 5 10 _ _ (by decide) (by decide), e2, if_neg (by decide), if_neg (by decide)]
  rw [show [95, 95, 95].length = 3 from rfl, e]; decide

/-- **C09**, exactly, for signed numbers other than the least one: the sign is stored before all else if there is room for one character. -/
theorem C09_exact_signed (w : W) (i : Int) (r nd : Nat) (buf : List Nat) (hr : isRadix r) (hl : w.minI < i) (hu : i < 2 ^ (w.bits - 1)) (hneg : i < 0) :
    itoaRadixPad w i r nd buf =
      let n := size32 r i.natAbs nd 1
      if buf.length < n then .ok (n, overwrite ([45].take buf.length) buf)
      else if buf.length < 1 + (radixPrefix r).length then .ub
      else .ok (n, overwrite (45 :: fitText r i.natAbs nd (buf.length - 1)) buf) := by
  have hn : i.natAbs < 2 ^ w.bits := by
    cases w <;> simp only [W.minI, W.bits] at hl hu ⊢ <;> omega
  unfold itoaRadixPad itoaSign
  rw [if_pos (by omega), if_pos hneg]
  have e : (-i).toNat = i.natAbs := by omega
  rw [e]
  cases buf with
  | nil =>
    simp only [List.length_nil, gt_iff_lt, Nat.lt_irrefl, if_false, Res.ok_bind]
    rw [radixSwitchPad_all w _ r nd 1 [] hn hr]
    have h0 : 0 < 1 + (radixPrefix r).length := by omega
    simp [overwrite, h0]
  | cons a l =>
    simp only [List.length_cons, gt_iff_lt, Nat.zero_lt_succ, if_true]
    have : wr (a :: l) 0 45 = .ok (45 :: l) := by rw [wr_ok (by simp)]; rfl
    rw [this]
    simp only [Res.ok_bind]
    rw [radixSwitchPad_all w _ r nd 1 (45 :: l) hn hr]
    simp [overwrite, placeAt]

example : itoaRadixPad .w8 (-5) 16 (2 ^ 32 - 3) [] = .ub ∧ size32 16 5 (2 ^ 32 - 3) 1 = 0 := by decide +kernel

/-- Signed numbers that are not negative are written like unsigned ones. -/
theorem C09_exact_nonneg (w : W) (i : Int) (r nd : Nat) (buf : List Nat) (h0 : 0 ≤ i) : itoaRadixPad w i r nd buf = utoaRadixPad w i.natAbs r nd buf := by
  have := w.minI_neg
  unfold itoaRadixPad itoaSign utoaRadixPad
  rw [if_pos (by omega), if_neg (by omega), Res.ok_bind, show i.toNat = i.natAbs by omega]

/-- The least number of a type is the only one whose size is right for (nearly) all numbers of digits. -/
theorem C09_least (w : W) (r nd : Nat) (buf : List Nat) (hr : isRadix r) (hnd : nd < 2 ^ 64 - 3) :
    ∃ b, itoaRadixPad w w.minI r nd buf = .ok ((intText r w.minI nd).length, b) ∧ nd ≤ (intText r w.minI nd).length ∧
      ((intText r w.minI nd).length ≤ buf.length → b = overwrite (intText r w.minI nd) buf) := by
  unfold itoaRadixPad
  rw [if_neg (by simp), itoa2bufRadixDigits_eq w r nd hr hnd buf]
  unfold negOut
  have hlen : nd ≤ (intText r w.minI nd).length := by
    rw [intText, uintText, List.length_append, List.length_append, paddedText_length]; omega
  by_cases h : (intText r w.minI nd).length ≤ buf.length
  · rw [if_pos h]; exact ⟨_, rfl, hlen, fun _ => rfl⟩
  · rw [if_neg h]; exact ⟨_, rfl, hlen, fun h' => absurd h' h⟩

example : itoaRadixPad .w8 (-128) 10 (2 ^ 32) [] = .ok (2 ^ 32 + 1, []) ∧ W.minI .w8 = -128 := by decide +kernel

end C4
