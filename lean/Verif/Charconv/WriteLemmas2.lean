import Verif.Charconv.WriteLemmas
/-
Helper lemmas: utoa/itoa in terms of the text specification.
-/
namespace C4
open Spec

/-- Size protocol with no write when the buffer is too small. -/
def ExactW (f : List Nat → Res (Nat × List Nat)) (text : List Nat) : Prop :=
  ∀ buf, f buf = .ok (text.length, if text.length ≤ buf.length then overwrite text buf else buf)

theorem writeDec_exact (w : W) (v : Nat) (h : v < 2 ^ w.bits) : ExactW (writeDec w v) (numeralText 10 v) := by
  intro buf
  unfold writeDec
  simp only [digitsDec_eq w v h, numeralText_length]
  split
  · rename_i hb
    rw [writeDecUnchecked_eq v _ buf (by omega) hb, Res.ok_bind]; simp [overwrite]
  · rfl

theorem writeHex_exact (w : W) (v : Nat) (h : v < 2 ^ w.bits) : ExactW (writeHex w v) (numeralText 16 v) := by
  intro buf
  unfold writeHex
  simp only [digitsHex_eq w v h, numeralText_length]
  split
  · rename_i hb
    rw [writeHexUnchecked_eq v buf _ _ (by omega) (by omega) hb, Res.ok_bind]; simp [overwrite]
  · rfl

theorem writeOct_exact (w : W) (v : Nat) : ExactW (writeOct w v) (numeralText 8 v) := by
  intro buf
  unfold writeOct
  simp only [digitsOct_eq v, Res.ok_bind, numeralText_length]
  split
  · rename_i hb
    rw [writeOctUnchecked_eq v buf _ _ (by omega) (by omega) hb, Res.ok_bind]; simp [overwrite]
  · rfl

theorem writeBin_exact (w : W) (v : Nat) (h : v < 2 ^ w.bits) : ExactW (writeBin w v) (numeralText 2 v) := by
  intro buf
  unfold writeBin
  simp only [digitsBin_eq w v h, numeralText_length]
  split
  · rename_i hb
    rw [writeBinUnchecked_eq v buf _ _ (by omega) (by omega) hb, Res.ok_bind]; simp [overwrite]
  · rfl

/-- `write_num_digits` on top of an exact writer. -/
theorem writeNumDigits_eq {writer : List Nat → Res (Nat × List Nat)} {b v : Nat} (hb : 2 ≤ b)
    (hw : ExactW writer (numeralText b v)) (nd : Nat) (buf : List Nat) :
    writeNumDigits writer nd buf = .ok ((paddedText b v nd).length,
      if (paddedText b v nd).length ≤ buf.length then overwrite (paddedText b v nd) buf
      else if (numeralText b v).length ≤ buf.length then overwrite (numeralText b v) buf else buf) := by
  unfold writeNumDigits
  rw [hw buf, Res.ok_bind]
  have hpos := numeral_length_pos hb v
  have hl := paddedText_length b v nd
  have hnl := numeralText_length b v
  have hbl : (if (numeralText b v).length ≤ buf.length then overwrite (numeralText b v) buf else buf).length
      = buf.length := by
    by_cases h : (numeralText b v).length ≤ buf.length
    · rw [if_pos h]; exact overwrite_length h
    · rw [if_neg h]
  simp only [hbl]
  by_cases hge : (numeralText b v).length ≥ nd
  · have e : paddedText b v nd = numeralText b v := by
      unfold paddedText
      have : nd - (numeral b v).length = 0 := by omega
      rw [this]; simp
    rw [if_pos hge, e]
    by_cases h : (numeralText b v).length ≤ buf.length
    · simp only [if_pos h]
    · simp only [if_neg h]
  · rw [if_neg hge]
    have hmax : (paddedText b v nd).length = nd := by omega
    rw [hmax]
    by_cases hor : (numeralText b v).length ≥ buf.length ∨ nd > buf.length
    · rw [if_pos hor, if_neg (show ¬ nd ≤ buf.length by omega)]
    · rw [if_neg hor]
      rw [if_pos (show (numeralText b v).length ≤ buf.length by omega)]
      rw [if_pos (show nd ≤ buf.length by omega)]
      have ho : (overwrite (numeralText b v) buf).length = buf.length := overwrite_length (by omega)
      unfold memmove
      rw [if_pos (by omega), memcpyTo_ok (by simp [overwrite]; omega), Res.ok_bind]
      unfold memset
      rw [memcpyTo_ok (by simp [overwrite]; omega), Res.ok_bind]
      congr 2
      simp only [overwrite, List.drop_zero, List.take_zero, List.nil_append]
      have h1 : ((numeralText b v ++ buf.drop (numeralText b v).length).take (numeralText b v).length)
          = numeralText b v := by simp
      rw [h1]
      have h2 : nd - (numeralText b v).length + (numeralText b v).length = nd := by omega
      have h3 : (List.replicate (nd - (numeralText b v).length) 48).length = nd - (numeralText b v).length := by simp
      rw [h2, h3, Nat.zero_add, hmax]
      have h4 : (numeralText b v ++ buf.drop (numeralText b v).length).drop nd = buf.drop nd := by
        rw [List.drop_append, List.drop_eq_nil_of_le (by omega), List.drop_drop, List.nil_append]
        congr 1; omega
      rw [h4]
      have h5 : (List.take (nd - (numeralText b v).length) (numeralText b v ++ List.drop (numeralText b v).length buf)).length
          = nd - (numeralText b v).length := by simp; omega
      rw [List.append_assoc, List.drop_append, List.drop_eq_nil_of_le (by omega), h5, Nat.sub_self,
        List.drop_zero, List.nil_append]
      rw [paddedText, ← hnl]
      simp

theorem split_at2 {buf : List α} {pos : Nat} (h : pos + 2 ≤ buf.length) :
    ∃ A x y B, buf = A ++ x :: y :: B ∧ A.length = pos := by
  refine ⟨buf.take pos, buf[pos], buf[pos+1], buf.drop (pos+2), ?_, ?_⟩
  · rw [← List.drop_eq_getElem_cons, ← List.drop_eq_getElem_cons, List.take_append_drop]
  · simp; omega

theorem split_at' {buf : List α} {pos : Nat} (h : pos ≤ buf.length) :
    ∃ A B, buf = A ++ B ∧ A.length = pos :=
  ⟨buf.take pos, buf.drop pos, by simp, by simp; omega⟩

theorem wr2 {A B : List Nat} {x y c d : Nat} :
    (do let b ← wr (A ++ x :: y :: B) A.length c; wr b (A.length + 1) d) = .ok (A ++ c :: d :: B) := by
  rw [wr_append_left, Res.ok_bind]
  have : A ++ c :: y :: B = (A ++ [c]) ++ y :: B := by simp
  have hl : A.length + 1 = (A ++ [c]).length := by simp
  rw [this, hl, wr_append_left]; simp

theorem onSub_append {A B : List Nat} {f : List Nat → Res (β × List Nat)} :
    onSub (A ++ B) A.length f = (do let (r, b) ← f B; .ok (r, A ++ b)) := by
  unfold onSub
  rw [if_pos (by simp)]
  simp

/-- Place a text at `pos`. -/
def placeAt (pos : Nat) (text buf : List Nat) : List Nat := buf.take pos ++ overwrite text (buf.drop pos)

theorem placeAt_zero (text buf : List Nat) : placeAt 0 text buf = overwrite text buf := by
  simp [placeAt]

theorem placeAt_append {A B text : List Nat} : placeAt A.length text (A ++ B) = A ++ overwrite text B := by
  simp [placeAt]

/-- Writers applied at a position. -/
theorem pfxUnchecked_eq {b c v : Nat} {writer : List Nat → Res (List Nat)} {pos : Nat} {buf : List Nat}
    (hw : ∀ buf, (numeral b v).length ≤ buf.length → writer buf = .ok (overwrite (numeralText b v) buf)) :
    pfxUnchecked buf pos c (numeral b v).length writer =
      .ok (pos + ([48, c] ++ numeralText b v).length,
        if pos + ([48, c] ++ numeralText b v).length ≤ buf.length
        then placeAt pos ([48, c] ++ numeralText b v) buf else buf) := by
  unfold pfxUnchecked
  have hl : ([48, c] ++ numeralText b v).length = (numeral b v).length + 2 := by simp
  rw [hl]
  split
  · rename_i h
    rw [if_pos (by omega)]
    obtain ⟨A, x, y, B, rfl, rfl⟩ := split_at2 (buf := buf) (pos := pos) (by omega)
    have := wr2 (A := A) (B := B) (x := x) (y := y) (c := 48) (d := c)
    rw [← Res.bind_assoc, this, Res.ok_bind]
    have e : A ++ 48 :: c :: B = (A ++ [48, c]) ++ B := by simp
    have hl2 : A.length + 2 = (A ++ [48, c]).length := by simp
    rw [e, hl2, onSub_append, hw B (by simp at h; omega)]
    simp [placeAt, overwrite]
  · rw [if_neg (by omega)]

theorem radixSwitch_eq (w : W) (v r pos : Nat) (buf : List Nat) (h : v < 2 ^ w.bits) (hr : isRadix r)
    (hpos : pos ≤ 1) :
    radixSwitch w v r pos buf = .ok (pos + (uintText r v 0).length,
      if pos + (uintText r v 0).length ≤ buf.length then placeAt pos (uintText r v 0) buf else buf) := by
  rcases hr with rfl | rfl | rfl | rfl
  · simp only [radixSwitch, uintText, radixPrefix, paddedText_zero]
    rw [digitsBin_eq w v h]
    exact pfxUnchecked_eq (fun buf hb => by
      rw [writeBinUnchecked_eq v buf _ _ (by omega) (by omega) hb]; simp [overwrite])
  · simp only [radixSwitch, uintText, radixPrefix, paddedText_zero]
    rw [digitsOct_eq v, Res.ok_bind]
    exact pfxUnchecked_eq (fun buf hb => by
      rw [writeOctUnchecked_eq v buf _ _ (by omega) (by omega) hb]; simp [overwrite])
  · simp only [radixSwitch, uintText, radixPrefix, paddedText_zero]
    rw [digitsDec_eq w v h]
    simp only [Nat.reduceEqDiff, if_false, List.nil_append, numeralText_length]
    split
    · rename_i hb
      obtain ⟨A, B, rfl, rfl⟩ := split_at' (buf := buf) (pos := pos) (by omega)
      rw [onSub_append, writeDecUnchecked_eq v _ B (by omega) (by simp at hb; omega)]
      simp [placeAt, overwrite]
    · rfl
  · simp only [radixSwitch, uintText, radixPrefix, paddedText_zero]
    rw [digitsHex_eq w v h]
    exact pfxUnchecked_eq (fun buf hb => by
      rw [writeHexUnchecked_eq v buf _ _ (by omega) (by omega) hb]; simp [overwrite])

theorem ite_max (a b : Nat) : (if a > b then a else b) = max b a := by
  split <;> omega

theorem pfxPadded_eq {b c v nd : Nat} {writer : List Nat → Res (Nat × List Nat)} {pos : Nat}
    {buf : List Nat} (hb : 2 ≤ b) (hw : ExactW writer (numeralText b v)) (hpos : pos ≤ 1)
    (hnd : nd < 2 ^ 32 - 3) (hL : (numeral b v).length ≤ 64) :
    pfxPadded buf pos c (numeral b v).length nd (writeNumDigits writer nd) =
      .ok (pos + ([48, c] ++ paddedText b v nd).length,
        if pos + ([48, c] ++ paddedText b v nd).length ≤ buf.length
        then placeAt pos ([48, c] ++ paddedText b v nd) buf else buf) := by
  unfold pfxPadded
  have hp := paddedText_length b v nd
  have hl : ([48, c] ++ paddedText b v nd).length = max nd (numeral b v).length + 2 := by simp [hp]
  have ht : u32 (pos + 2 + u32 (if nd > (numeral b v).length then nd else (numeral b v).length))
      = pos + (max nd (numeral b v).length + 2) := by
    rw [ite_max]; unfold u32; omega
  rw [hl, ht]
  simp only
  split
  · rename_i h
    obtain ⟨A, x, y, B, rfl, rfl⟩ := split_at2 (buf := buf) (pos := pos) (by omega)
    have := wr2 (A := A) (B := B) (x := x) (y := y) (c := 48) (d := c)
    rw [← Res.bind_assoc, this, Res.ok_bind]
    have e : A ++ 48 :: c :: B = (A ++ [48, c]) ++ B := by simp
    have hl2 : A.length + 2 = (A ++ [48, c]).length := by simp
    rw [e, hl2, onSub_append, writeNumDigits_eq hb hw nd B]
    rw [if_pos (by simp at h; omega)]
    simp [placeAt, overwrite]
  · rfl

theorem numeral_len_le64 {b v : Nat} (hb : 2 ≤ b) (h : v < 2 ^ 64) : (numeral b v).length ≤ 64 := by
  obtain ⟨h1, h2⟩ := numeral_length_spec (v := v) hb
  rcases h2 with h2 | h2
  · subst h2; rw [numeral_lt (by omega)]; simp
  · apply Nat.le_of_not_lt
    intro hlt
    have e1 : 2 ^ ((numeral b v).length - 1) ≤ b ^ ((numeral b v).length - 1) := Nat.pow_le_pow_left hb _
    have e2 : 2 ^ 64 ≤ 2 ^ ((numeral b v).length - 1) := Nat.pow_le_pow_right (by omega) (by omega)
    omega

theorem W.lt64 {w : W} {v : Nat} (h : v < 2 ^ w.bits) : v < 2 ^ 64 := by
  apply Nat.lt_of_lt_of_le h
  apply Nat.pow_le_pow_right (by omega)
  cases w <;> decide

theorem radixSwitchPad_eq (w : W) (v r nd pos : Nat) (buf : List Nat) (h : v < 2 ^ w.bits)
    (hr : isRadix r) (hnd : nd < 2 ^ 32 - 3) (hpos : pos ≤ 1) :
    radixSwitchPad w v r nd pos buf = .ok (pos + (uintText r v nd).length,
      if pos + (uintText r v nd).length ≤ buf.length then placeAt pos (uintText r v nd) buf else buf) := by
  have hL := numeral_len_le64 (isRadix_two_le hr) (W.lt64 h)
  rcases hr with rfl | rfl | rfl | rfl
  · simp only [radixSwitchPad, uintText, radixPrefix]
    rw [digitsBin_eq w v h]
    exact pfxPadded_eq (by omega) (writeBin_exact w v h) hpos hnd hL
  · simp only [radixSwitchPad, uintText, radixPrefix]
    rw [digitsOct_eq v, Res.ok_bind]
    exact pfxPadded_eq (by omega) (writeOct_exact w v) hpos hnd hL
  · simp only [radixSwitchPad, uintText, radixPrefix]
    rw [digitsDec_eq w v h]
    simp only [Nat.reduceEqDiff, if_false, List.nil_append]
    have hp := paddedText_length 10 v nd
    have ht : u32 (pos + u32 (if nd > (numeral 10 v).length then nd else (numeral 10 v).length))
        = pos + (paddedText 10 v nd).length := by
      rw [ite_max, hp]; unfold u32; omega
    rw [ht]
    split
    · rename_i hb
      obtain ⟨A, B, rfl, rfl⟩ := split_at' (buf := buf) (pos := pos) (by omega)
      unfold writeDecPad
      rw [onSub_append, writeNumDigits_eq (by omega) (writeDec_exact w v h)]
      rw [if_pos (by simp at hb; omega)]
      simp [placeAt]
    · rfl
  · simp only [radixSwitchPad, uintText, radixPrefix]
    rw [digitsHex_eq w v h]
    exact pfxPadded_eq (by omega) (writeHex_exact w v h) hpos hnd hL

/-! ### The minimum value -/

theorem minValueDec_eq (w : W) : minValueDec w = numeralText 10 (2 ^ (w.bits - 1)) := by
  cases w <;> decide +kernel
theorem minValueHex_eq (w : W) : minValueHex w = numeralText 16 (2 ^ (w.bits - 1)) := by
  cases w <;> decide +kernel
theorem minValueOct_eq (w : W) : minValueOct w = numeralText 8 (2 ^ (w.bits - 1)) := by
  cases w <;> decide +kernel
theorem minValueBin_eq (w : W) : minValueBin w = numeralText 2 (2 ^ (w.bits - 1)) := by
  cases w <;> decide +kernel
theorem maxdigitsDec_eq (w : W) : maxdigitsDec w = 1 + (minValueDec w).length := by cases w <;> decide
theorem maxdigitsHex_eq (w : W) : maxdigitsHex w = 3 + (minValueHex w).length := by cases w <;> decide
theorem maxdigitsOct_eq (w : W) : maxdigitsOct w = 3 + (minValueOct w).length := by cases w <;> decide
theorem maxdigitsBin_eq (w : W) : maxdigitsBin w = 3 + (minValueBin w).length := by cases w <;> decide

theorem memcpyTo_append {A B src : List Nat} (h : src.length ≤ B.length) :
    memcpyTo (A ++ B) A.length src = .ok (A ++ overwrite src B) := by
  rw [memcpyTo_ok (by simp; omega)]
  simp [overwrite]

theorem itoa2buf_append {A B src : List Nat} (h : src.length ≤ B.length) :
    itoa2buf (A ++ B) A.length src = .ok (A.length + src.length, A ++ overwrite src B) := by
  unfold itoa2buf
  rw [memcpyTo_append h, Res.ok_bind]

theorem appendZeros_append (n : Nat) : ∀ (A B : List Nat), n ≤ B.length →
    appendZeros n (A ++ B) A.length = .ok (A.length + n, A ++ List.replicate n 48 ++ B.drop n) := by
  induction n with
  | zero => intro A B _; simp [appendZeros]
  | succ n ih =>
    intro A B h
    cases B with
    | nil => simp at h
    | cons x B =>
      unfold appendZeros c4append
      rw [if_pos (by simp), wr_append_left, Res.ok_bind]
      simp only [Res.ok_bind]
      have e : A ++ 48 :: B = (A ++ [48]) ++ B := by simp
      have hl : A.length + 1 = (A ++ [48]).length := by simp
      rw [e, hl, ih (A ++ [48]) B (by simpa using h)]
      simp [List.replicate_succ]; omega

theorem itoa2bufWithDigits_append {A B : List Nat} {b v nd : Nat}
    (h : (paddedText b v nd).length ≤ B.length) :
    itoa2bufWithDigits (A ++ B) A.length nd (numeralText b v) =
      .ok (A.length + (paddedText b v nd).length, A ++ overwrite (paddedText b v nd) B) := by
  unfold itoa2bufWithDigits
  rw [paddedText_length] at h
  have hnd : (if nd > (numeralText b v).length then nd - (numeralText b v).length else 0)
      = nd - (numeral b v).length := by
    rw [numeralText_length]; split <;> omega
  simp only [hnd]
  rw [appendZeros_append _ A B (by omega)]
  simp only [Res.ok_bind]
  have hl : A.length + (nd - (numeral b v).length)
      = (A ++ List.replicate (nd - (numeral b v).length) 48).length := by simp
  rw [hl, itoa2buf_append (by simp; omega)]
  simp [overwrite, paddedText, Nat.add_assoc]

/-- Shape of the result for a negative number: text if it fits, otherwise a lone '-' is stored. -/
def negOut (text buf : List Nat) : Nat × List Nat :=
  (text.length, if text.length ≤ buf.length then overwrite text buf else buf.set 0 45)

theorem itoa2bufPfx_eq {B : List Nat} {c : Nat} {val : List Nat} :
    itoa2bufPfx (45 :: B) 1 c (3 + val.length) val =
      .ok (([45, 48, c] ++ val).length,
        if ([45, 48, c] ++ val).length ≤ B.length + 1 then 45 :: overwrite ([48, c] ++ val) B
        else 45 :: B) := by
  unfold itoa2bufPfx
  have hl : ([45, 48, c] ++ val).length = 3 + val.length := by simp; omega
  rw [hl]
  split
  · rename_i h
    rw [if_neg (by simp at h; omega)]
  · rename_i h
    simp at h
    rw [if_pos (by omega)]
    match B, h with
    | x :: y :: B, h =>
      have := wr2 (A := [45]) (B := B) (x := x) (y := y) (c := 48) (d := c)
      rw [← Res.bind_assoc]
      have e : (do let b ← wr (45 :: x :: y :: B) 1 48; wr b (1 + 1) c) = .ok (45 :: 48 :: c :: B) := this
      rw [e, Res.ok_bind]
      have := itoa2buf_append (A := [45, 48, c]) (B := B) (src := val) (by simp at h; omega)
      have e2 : itoa2buf (45 :: 48 :: c :: B) (1 + 2) val = .ok (3 + val.length, [45, 48, c] ++ overwrite val B) := this
      rw [e2]; simp [overwrite]
    | [x], h => simp at h; omega
    | [], h => simp at h; omega

theorem itoa2bufPfxDigits_eq {B : List Nat} {c b v nd maxd : Nat}
    (hm : maxd = 3 + (numeralText b v).length) (hnd : nd < 2 ^ 64 - 3) :
    itoa2bufPfxDigits (45 :: B) 1 c maxd nd (numeralText b v) =
      .ok (([45, 48, c] ++ paddedText b v nd).length,
        if ([45, 48, c] ++ paddedText b v nd).length ≤ B.length + 1
        then 45 :: overwrite ([48, c] ++ paddedText b v nd) B else 45 :: B) := by
  unfold itoa2bufPfxDigits
  have hp := paddedText_length b v nd
  have hn := numeralText_length b v
  have hl : ([45, 48, c] ++ paddedText b v nd).length = 3 + max nd (numeral b v).length := by simp [hp]; omega
  have hneed : (if addSz nd 3 > maxd then addSz nd 3 else maxd) = 3 + max nd (numeral b v).length := by
    have : addSz nd 3 = nd + 3 := by unfold addSz; omega
    rw [this, hm, hn]; split <;> omega
  simp only [hl, hneed]
  split
  · rename_i h
    rw [if_neg (by simp at h; omega)]
  · rename_i h
    simp at h
    rw [if_pos (by omega)]
    match B, h with
    | x :: y :: B, h =>
      have := wr2 (A := [45]) (B := B) (x := x) (y := y) (c := 48) (d := c)
      rw [← Res.bind_assoc]
      have e : (do let b ← wr (45 :: x :: y :: B) 1 48; wr b (1 + 1) c) = .ok (45 :: 48 :: c :: B) := this
      rw [e, Res.ok_bind]
      have := itoa2bufWithDigits_append (A := [45, 48, c]) (B := B) (b := b) (v := v) (nd := nd)
        (by simp at h; omega)
      have e2 : itoa2bufWithDigits (45 :: 48 :: c :: B) (1 + 2) nd (numeralText b v)
        = .ok (3 + (paddedText b v nd).length, [45, 48, c] ++ overwrite (paddedText b v nd) B) := this
      rw [e2, hp]; simp [overwrite]
    | [x], h => simp at h; omega
    | [], h => simp at h; omega

theorem W.minI_neg (w : W) : w.minI < 0 := by cases w <;> decide
theorem W.minI_natAbs (w : W) : w.minI.natAbs = 2 ^ (w.bits - 1) := by cases w <;> rfl

theorem itoa2bufRadix_eq (w : W) (r : Nat) (hr : isRadix r) (buf : List Nat) :
    itoa2bufRadix w r buf = .ok (negOut (intText r w.minI 0) buf) := by
  unfold negOut itoa2bufRadix intText
  rw [if_pos w.minI_neg, W.minI_natAbs]
  cases buf with
  | nil =>
    have hlen : ∀ (l : List Nat), ¬ (([45] ++ l : List Nat).length ≤ ([] : List Nat).length) := by simp
    rcases hr with rfl | rfl | rfl | rfl <;> rw [if_neg (hlen _)] <;>
      simp [uintText, radixPrefix, paddedText_zero, itoa2bufPfx, maxdigitsDec_eq, maxdigitsHex_eq,
        maxdigitsOct_eq, maxdigitsBin_eq, minValueDec_eq, minValueHex_eq, minValueOct_eq, minValueBin_eq] <;>
      (rw [if_pos (by omega)]; congr 2; omega)
  | cons x B =>
    rw [if_pos (by simp)]
    simp only [wr_ok (buf := x :: B) (i := 0) (by simp), List.set_cons_zero, Res.ok_bind]
    rcases hr with rfl | rfl | rfl | rfl <;> simp only []
    · rw [maxdigitsBin_eq, itoa2bufPfx_eq, minValueBin_eq]
      simp [uintText, radixPrefix, paddedText_zero, overwrite]
    · rw [maxdigitsOct_eq, itoa2bufPfx_eq, minValueOct_eq]
      simp [uintText, radixPrefix, paddedText_zero, overwrite]
    · rw [maxdigitsDec_eq, minValueDec_eq]
      split
      · rename_i h
        rw [if_neg (by simp [uintText, radixPrefix, paddedText_zero] at h ⊢; omega)]
        simp [uintText, radixPrefix, paddedText_zero]; omega
      · rename_i h
        rw [if_pos (by simp [uintText, radixPrefix, paddedText_zero] at h ⊢; omega)]
        have := itoa2buf_append (A := [45]) (B := B) (src := numeralText 10 (2 ^ (w.bits - 1)))
          (by simp at h ⊢; omega)
        have e2 : itoa2buf (45 :: B) 1 (numeralText 10 (2 ^ (w.bits - 1)))
          = .ok (1 + (numeralText 10 (2 ^ (w.bits - 1))).length, [45] ++ overwrite (numeralText 10 (2 ^ (w.bits - 1))) B) := this
        rw [e2]
        simp [uintText, radixPrefix, paddedText_zero, overwrite]; omega
    · rw [maxdigitsHex_eq, itoa2bufPfx_eq, minValueHex_eq]
      simp [uintText, radixPrefix, paddedText_zero, overwrite]

theorem itoa2bufRadixDigits_eq (w : W) (r nd : Nat) (hr : isRadix r) (hnd : nd < 2 ^ 64 - 3) (buf : List Nat) :
    itoa2bufRadixDigits w r nd buf = .ok (negOut (intText r w.minI nd) buf) := by
  unfold negOut itoa2bufRadixDigits intText
  rw [if_pos w.minI_neg, W.minI_natAbs]
  have a1 : addSz nd 1 = nd + 1 := by unfold addSz; omega
  have a3 : addSz nd 3 = nd + 3 := by unfold addSz; omega
  cases buf with
  | nil =>
    have hlen : ∀ (l : List Nat), ¬ (([45] ++ l : List Nat).length ≤ ([] : List Nat).length) := by simp
    rcases hr with rfl | rfl | rfl | rfl <;> rw [if_neg (hlen _)] <;>
      simp [uintText, radixPrefix, itoa2bufPfxDigits, maxdigitsDec_eq, maxdigitsHex_eq,
        maxdigitsOct_eq, maxdigitsBin_eq, minValueDec_eq, minValueHex_eq, minValueOct_eq, minValueBin_eq,
        paddedText_length, a1, a3] <;>
      (rw [if_pos (by split <;> omega)]; congr 2; split <;> omega)
  | cons x B =>
    rw [if_pos (by simp)]
    simp only [wr_ok (buf := x :: B) (i := 0) (by simp), List.set_cons_zero, Res.ok_bind]
    rcases hr with rfl | rfl | rfl | rfl <;> simp only []
    · rw [minValueBin_eq, itoa2bufPfxDigits_eq (by rw [maxdigitsBin_eq, minValueBin_eq]) hnd]
      simp [uintText, radixPrefix, overwrite]
    · rw [minValueOct_eq, itoa2bufPfxDigits_eq (by rw [maxdigitsOct_eq, minValueOct_eq]) hnd]
      simp [uintText, radixPrefix, overwrite]
    · rw [maxdigitsDec_eq, minValueDec_eq]
      have hp := paddedText_length 10 (2 ^ (w.bits - 1)) nd
      have hneed : (if addSz nd 1 > 1 + (numeralText 10 (2 ^ (w.bits - 1))).length then addSz nd 1
          else 1 + (numeralText 10 (2 ^ (w.bits - 1))).length) = 1 + (paddedText 10 (2 ^ (w.bits - 1)) nd).length := by
        rw [a1, hp, numeralText_length]; split <;> omega
      simp only [hneed]
      split
      · rename_i h
        rw [if_neg (by simp [uintText, radixPrefix] at h ⊢; omega)]
        simp [uintText, radixPrefix]; omega
      · rename_i h
        rw [if_pos (by simp [uintText, radixPrefix] at h ⊢; omega)]
        have := itoa2bufWithDigits_append (A := [45]) (B := B) (b := 10) (v := 2 ^ (w.bits - 1)) (nd := nd)
          (by simp at h ⊢; omega)
        have e2 : itoa2bufWithDigits (45 :: B) 1 nd (numeralText 10 (2 ^ (w.bits - 1)))
          = .ok (1 + (paddedText 10 (2 ^ (w.bits - 1)) nd).length, [45] ++ overwrite (paddedText 10 (2 ^ (w.bits - 1)) nd) B) := this
        rw [e2]
        simp [uintText, radixPrefix, overwrite]; omega
    · rw [minValueHex_eq, itoa2bufPfxDigits_eq (by rw [maxdigitsHex_eq, minValueHex_eq]) hnd]
      simp [uintText, radixPrefix, overwrite]

/-- Result of itoa with a radix for every buffer. -/
def intOut (text : List Nat) (v : Int) (buf : List Nat) : Nat × List Nat :=
  (text.length, if text.length ≤ buf.length then overwrite text buf
    else if v < 0 then buf.set 0 45 else buf)

theorem signed_lt {w : W} {v : Int} (h : w.minI ≤ v) (hne : v ≠ w.minI) (hu : v < 2 ^ (w.bits - 1)) :
    v.natAbs < 2 ^ w.bits := by
  have : (w.minI : Int) = -(2 ^ (w.bits - 1) : Nat) := rfl
  rw [this] at h hne
  cases w <;> simp [W.bits] at * <;> omega

theorem placeAt_one_neg {text B : List Nat} (x : Nat) :
    placeAt 1 text (45 :: B) = overwrite (45 :: text) (x :: B) := by
  simp [placeAt, overwrite]

theorem itoaRadix_eq (w : W) (v : Int) (r : Nat) (hr : isRadix r) (hl : w.minI ≤ v)
    (hu : v < 2 ^ (w.bits - 1)) (buf : List Nat) :
    itoaRadix w v r buf = .ok (intOut (intText r v 0) v buf) := by
  unfold itoaRadix
  split
  · rename_i hne
    have hlt := signed_lt hl hne hu
    unfold itoaSign intOut intText
    split
    · rename_i hneg
      have hv : (-v).toNat = v.natAbs := by omega
      rw [hv]
      cases buf with
      | nil =>
        simp only [List.length_nil, Nat.lt_irrefl, gt_iff_lt, if_false, Res.ok_bind]
        rw [radixSwitch_eq w _ r 1 [] hlt hr (by omega)]
        simp; omega
      | cons x B =>
        rw [if_pos (by simp), wr_ok (by simp)]
        simp only [List.set_cons_zero, Res.ok_bind]
        rw [radixSwitch_eq w _ r 1 (45 :: B) hlt hr (by omega), placeAt_one_neg x]
        simp [Nat.add_comm]
    · rename_i hneg
      have hv : v.toNat = v.natAbs := by omega
      simp only [hv, Res.ok_bind]
      rw [radixSwitch_eq w _ r 0 buf hlt hr (by omega), placeAt_zero]
      simp
  · rename_i hne
    have : v = w.minI := by simpa using hne
    subst this
    rw [itoa2bufRadix_eq w r hr]
    unfold negOut intOut
    rw [if_pos w.minI_neg]

theorem itoaRadixPad_eq (w : W) (v : Int) (r nd : Nat) (hr : isRadix r) (hl : w.minI ≤ v)
    (hu : v < 2 ^ (w.bits - 1)) (hnd : nd < 2 ^ 32 - 3) (buf : List Nat) :
    itoaRadixPad w v r nd buf = .ok (intOut (intText r v nd) v buf) := by
  unfold itoaRadixPad
  split
  · rename_i hne
    have hlt := signed_lt hl hne hu
    unfold itoaSign intOut intText
    split
    · rename_i hneg
      have hv : (-v).toNat = v.natAbs := by omega
      rw [hv]
      cases buf with
      | nil =>
        simp only [List.length_nil, Nat.lt_irrefl, gt_iff_lt, if_false, Res.ok_bind]
        rw [radixSwitchPad_eq w _ r nd 1 [] hlt hr hnd (by omega)]
        simp; omega
      | cons x B =>
        rw [if_pos (by simp), wr_ok (by simp)]
        simp only [List.set_cons_zero, Res.ok_bind]
        rw [radixSwitchPad_eq w _ r nd 1 (45 :: B) hlt hr hnd (by omega), placeAt_one_neg x]
        simp [Nat.add_comm]
    · rename_i hneg
      have hv : v.toNat = v.natAbs := by omega
      simp only [hv, Res.ok_bind]
      rw [radixSwitchPad_eq w _ r nd 0 buf hlt hr hnd (by omega), placeAt_zero]
      simp
  · rename_i hne
    have : v = w.minI := by simpa using hne
    subst this
    rw [itoa2bufRadixDigits_eq w r nd hr (by omega)]
    unfold negOut intOut
    rw [if_pos w.minI_neg]

theorem itoa_eq (w : W) (v : Int) (hl : w.minI ≤ v) (hu : v < 2 ^ (w.bits - 1)) :
    ExactW (itoa w v) (intText 10 v 0) := by
  intro buf
  unfold itoa
  split
  · rename_i h
    have hv : v.toNat = v.natAbs := by omega
    have hlt : v.natAbs < 2 ^ w.bits := by
      have := w.minI_neg
      exact signed_lt hl (by omega) hu
    rw [hv, writeDec_exact w _ hlt buf]
    have : intText 10 v 0 = numeralText 10 v.natAbs := by
      rw [intText, if_neg (by omega)]; simp [uintText, radixPrefix, paddedText_zero]
    rw [this]
  · rename_i hneg
    split
    · rename_i hne
      have hlt := signed_lt hl hne hu
      have hv : (-v).toNat = v.natAbs := by omega
      have ht : intText 10 v 0 = 45 :: numeralText 10 v.natAbs := by
        rw [intText, if_pos (by omega)]; simp [uintText, radixPrefix, paddedText_zero]
      rw [hv, ht]
      simp only [digitsDec_eq w _ hlt, List.length_cons, numeralText_length]
      split
      · rename_i hb
        cases buf with
        | nil => simp at hb
        | cons x B =>
          rw [wr_ok (by simp), Res.ok_bind, List.set_cons_zero]
          have e : (45 :: B) = [45] ++ B := rfl
          have := onSub_append (A := [45]) (B := B) (f := fun b => do
            let b ← writeDecUnchecked (v.natAbs + 1) b v.natAbs (numeral 10 v.natAbs).length; .ok ((), b))
          have this : onSub (45 :: B) 1 _ = _ := this
          rw [this, writeDecUnchecked_eq v.natAbs _ B (by omega) (by simpa using hb)]
          simp [overwrite]
      · rfl
    · rename_i hne
      have : v = w.minI := by simpa using hne
      subst this
      have ht : intText 10 w.minI 0 = 45 :: numeralText 10 (2 ^ (w.bits - 1)) := by
        rw [intText, if_pos (by omega), W.minI_natAbs]; simp [uintText, radixPrefix, paddedText_zero]
      rw [ht]
      unfold itoadec2buf
      rw [maxdigitsDec_eq, minValueDec_eq]
      simp only [List.length_cons]
      split
      · rename_i h
        rw [if_neg (by omega), Nat.add_comm]
      · rename_i h
        rw [if_pos (by omega)]
        cases buf with
        | nil => simp at h
        | cons x B =>
          rw [wr_ok (by simp), Res.ok_bind, List.set_cons_zero]
          have := itoa2buf_append (A := [45]) (B := B) (src := numeralText 10 (2 ^ (w.bits - 1)))
            (by simp at h ⊢; omega)
          have e2 : itoa2buf (45 :: B) 1 (numeralText 10 (2 ^ (w.bits - 1)))
            = .ok (1 + (numeralText 10 (2 ^ (w.bits - 1))).length, [45] ++ overwrite (numeralText 10 (2 ^ (w.bits - 1))) B) := this
          rw [e2]
          simp [overwrite]; omega

end C4
