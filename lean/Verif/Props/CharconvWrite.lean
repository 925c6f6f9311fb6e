import Verif.Charconv.WriteLemmas2
/-
Properties C01-C09: integer to text.
-/
namespace C4
open Spec

/-! ### C01, C02: canonical numerals -/

/-- C01: `write_dec` stores the canonical base-10 numeral (characterised by `IsNumeral`), nothing else. -/
theorem C01_write_dec (w : W) (v : Nat) (h : v < 2 ^ w.bits) :
    ∃ ds, IsNumeral 10 v ds ∧ ∀ buf : List Nat, ds.length ≤ buf.length →
      writeDec w v buf = .ok (ds.length, ds.map (fun d => 48 + d) ++ buf.drop ds.length) := by
  refine ⟨numeral 10 v, numeral_isNumeral (by omega) v, fun buf hb => ?_⟩
  rw [writeDec_exact w v h buf, numeralText_length, if_pos hb]
  have : numeralText 10 v = (numeral 10 v).map (fun d => 48 + d) := by
    unfold numeralText
    apply List.map_congr_left
    intro d hd
    have := numeral_digits (by omega) d hd
    simp [digitChar, this]
  rw [overwrite, this]; simp

example : writeDec .w16 65535 (S "_______") = .ok (5, S "65535__") := by decide +kernel

/-- Shared statement of C02 for one radix. -/
def WritesCanonical (b : Nat) (write : W → Nat → List Nat → Res (Nat × List Nat)) : Prop :=
  ∀ (w : W) (v : Nat), v < 2 ^ w.bits → ∃ ds, IsNumeral b v ds ∧
    ∀ buf : List Nat, ds.length ≤ buf.length →
      write w v buf = .ok (ds.length, ds.map (fun d => if d < 10 then 48 + d else 97 + (d - 10)) ++
        buf.drop ds.length)

theorem writesCanonical_of_exact {b : Nat} (hb : 2 ≤ b) {write : W → Nat → List Nat → Res (Nat × List Nat)}
    (h : ∀ w v, v < 2 ^ w.bits → ExactW (write w v) (numeralText b v)) : WritesCanonical b write := by
  intro w v hv
  refine ⟨numeral b v, numeral_isNumeral hb v, fun buf hbuf => ?_⟩
  rw [h w v hv buf, numeralText_length, if_pos hbuf]
  have : numeralText b v = (numeral b v).map (fun d => if d < 10 then 48 + d else 97 + (d - 10)) := by
    unfold numeralText
    apply List.map_congr_left
    intro d hd
    unfold digitChar
    split <;> omega
  rw [overwrite, this]; simp

/-- C02: `write_hex` stores the canonical lower-case base-16 numeral. -/
theorem C02_write_hex : WritesCanonical 16 writeHex :=
  writesCanonical_of_exact (by omega) (fun w v h => writeHex_exact w v h)
/-- C02: `write_oct` stores the canonical base-8 numeral. -/
theorem C02_write_oct : WritesCanonical 8 writeOct :=
  writesCanonical_of_exact (by omega) (fun w v _ => writeOct_exact w v)
/-- C02: `write_bin` stores the canonical base-2 numeral. -/
theorem C02_write_bin : WritesCanonical 2 writeBin :=
  writesCanonical_of_exact (by omega) (fun w v h => writeBin_exact w v h)

example : writeHex .w32 0xdeadbeef (S "_________") = .ok (8, S "deadbeef_") := by decide +kernel
example : writeOct .w8 255 (S "____") = .ok (3, S "377_") := by decide +kernel
example : writeBin .w8 10 (S "____") = .ok (4, S "1010") := by decide +kernel

/-! ### C03: digit counts -/

/-- C03: the digit counting functions return the number of digits `n`:
`b^(n-1) ≤ v < b^n`, and 1 for zero. -/
theorem C03_digits (w : W) (v : Nat) (h : v < 2 ^ w.bits) :
    (∀ n, digitsDec w v = n → v < 10 ^ n ∧ (v = 0 ∧ n = 1 ∨ 10 ^ (n - 1) ≤ v)) ∧
    (∀ n, digitsHex w v = n → v < 16 ^ n ∧ (v = 0 ∧ n = 1 ∨ 16 ^ (n - 1) ≤ v)) ∧
    (∀ n, digitsBin w v = n → v < 2 ^ n ∧ (v = 0 ∧ n = 1 ∨ 2 ^ (n - 1) ≤ v)) ∧
    (∃ n, digitsOct v = .ok n ∧ v < 8 ^ n ∧ (v = 0 ∧ n = 1 ∨ 8 ^ (n - 1) ≤ v)) := by
  have key : ∀ b, 2 ≤ b → v < b ^ (numeral b v).length ∧
      (v = 0 ∧ (numeral b v).length = 1 ∨ b ^ ((numeral b v).length - 1) ≤ v) := by
    intro b hb
    obtain ⟨h1, h2⟩ := numeral_length_spec (v := v) hb
    refine ⟨h1, ?_⟩
    rcases h2 with h2 | h2
    · left; refine ⟨h2, ?_⟩; subst h2; rw [numeral_lt (by omega)]; rfl
    · right; exact h2
  refine ⟨?_, ?_, ?_, ?_⟩
  · intro n hn; subst hn; rw [digitsDec_eq w v h]; exact key 10 (by omega)
  · intro n hn; subst hn; rw [digitsHex_eq w v h]; exact key 16 (by omega)
  · intro n hn; subst hn; rw [digitsBin_eq w v h]; exact key 2 (by omega)
  · exact ⟨_, digitsOct_eq v, key 8 (by omega)⟩

example : digitsDec .w64 18446744073709551615 = 20 ∧ digitsHex .w8 0x10 = 2 ∧
    digitsOct 0o7777777 = .ok 7 ∧ digitsBin .w16 0x8000 = 16 := by decide +kernel

/-! ### C04: too-small buffers -/

/-- A writer obeys the size protocol: a size `n` independent of the buffer is returned; if the buffer is
shorter it is left unchanged; otherwise the size suffices. -/
def SizeProtocol (f : List Nat → Res (Nat × List Nat)) : Prop :=
  ∃ n, ∀ buf : List Nat,
    (buf.length < n → f buf = .ok (n, buf)) ∧
    (n ≤ buf.length → ∃ buf', f buf = .ok (n, buf') ∧ buf'.length = buf.length)

theorem sizeProtocol_of_exact {f : List Nat → Res (Nat × List Nat)} {t : List Nat} (h : ExactW f t) :
    SizeProtocol f := by
  refine ⟨t.length, fun buf => ⟨fun hlt => ?_, fun hle => ?_⟩⟩
  · rw [h buf, if_neg (by omega)]
  · exact ⟨_, by rw [h buf, if_pos hle], overwrite_length hle⟩

theorem utoaRadix_exact (w : W) (v r : Nat) (h : v < 2 ^ w.bits) (hr : isRadix r) :
    ExactW (utoaRadix w v r) (uintText r v 0) := by
  intro buf
  unfold utoaRadix
  rw [radixSwitch_eq w v r 0 buf h hr (by omega), placeAt_zero]; simp

theorem utoaRadixPad_exact (w : W) (v r nd : Nat) (h : v < 2 ^ w.bits) (hr : isRadix r)
    (hnd : nd < 2 ^ 32 - 3) : ExactW (utoaRadixPad w v r nd) (uintText r v nd) := by
  intro buf
  unfold utoaRadixPad
  rw [radixSwitchPad_eq w v r nd 0 buf h hr hnd (by omega), placeAt_zero]; simp

/-- C04: every unsigned writer obeys the size protocol with no write on a short buffer. -/
theorem C04_unsigned (w : W) (v : Nat) (h : v < 2 ^ w.bits) :
    SizeProtocol (writeDec w v) ∧ SizeProtocol (writeHex w v) ∧ SizeProtocol (writeOct w v) ∧
    SizeProtocol (writeBin w v) ∧ SizeProtocol (utoa w v) ∧
    (∀ r, isRadix r → SizeProtocol (utoaRadix w v r)) :=
  ⟨sizeProtocol_of_exact (writeDec_exact w v h), sizeProtocol_of_exact (writeHex_exact w v h),
   sizeProtocol_of_exact (writeOct_exact w v), sizeProtocol_of_exact (writeBin_exact w v h),
   sizeProtocol_of_exact (writeDec_exact w v h),
   fun r hr => sizeProtocol_of_exact (utoaRadix_exact w v r h hr)⟩

/-- C04: `itoa(buf,v)` obeys the size protocol with no write on a short buffer. -/
theorem C04_itoa (w : W) (v : Int) (hl : w.minI ≤ v) (hu : v < 2 ^ (w.bits - 1)) :
    SizeProtocol (itoa w v) := sizeProtocol_of_exact (itoa_eq w v hl hu)

example : itoa .w8 (-128) (S "___") = .ok (4, S "___") := by decide +kernel
example : utoaRadix .w16 0xbeef 16 (S "_____") = .ok (6, S "_____") := by decide +kernel

/-! ### C05: itoa with a radix on a too-small buffer -/

/-- C05 refuted: on a too-small non-empty buffer `itoa(buf,v,radix)` stores a '-'. -/
theorem C05_refuted : ∃ (w : W) (v : Int) (r : Nat) (buf : List Nat), isRadix r ∧
    w.minI ≤ v ∧ v < 2 ^ (w.bits - 1) ∧
    ∃ n buf', itoaRadix w v r buf = .ok (n, buf') ∧ buf.length < n ∧ buf' ≠ buf :=
  ⟨.w32, -123, 10, S "___", by decide, by decide, by decide, 4, S "-__", by decide +kernel, by decide, by decide⟩

/-- C05, what holds: on a too-small buffer the exact needed size is returned, and at most the first byte
is changed, to '-', and only for negative values.
Missing with respect to the full property: "no writes will occur" (false, see `C05_refuted`). -/
theorem C05_itoa_short_partial (w : W) (v : Int) (r nd : Nat) (hr : isRadix r) (hl : w.minI ≤ v)
    (hu : v < 2 ^ (w.bits - 1)) (hnd : nd < 2 ^ 32 - 3) (buf : List Nat)
    (hshort : buf.length < (intText r v nd).length) :
    itoaRadixPad w v r nd buf = .ok ((intText r v nd).length, if v < 0 then buf.set 0 45 else buf) ∧
    (nd = 0 → itoaRadix w v r buf = .ok ((intText r v 0).length, if v < 0 then buf.set 0 45 else buf)) := by
  constructor
  · rw [itoaRadixPad_eq w v r nd hr hl hu hnd, intOut, if_neg (by omega)]
  · intro h0; subst h0
    rw [itoaRadix_eq w v r hr hl hu, intOut, if_neg (by omega)]

example : (S "__").length < (intText 16 (-5) 3).length := by decide

/-! ### C06: padded writers -/

/-- C06 for one radix: for every buffer, the returned size is `max(num_digits, digits)`; if it fits the
buffer holds the zero padded numeral followed by the unchanged rest; if it does not fit the buffer is
never overrun (its length is preserved and there is no undefined behaviour). -/
def PaddedWriter (b : Nat) (write : W → Nat → Nat → List Nat → Res (Nat × List Nat)) : Prop :=
  ∀ (w : W) (v nd : Nat), v < 2 ^ w.bits → ∃ ds, IsNumeral b v ds ∧
    ∀ buf : List Nat, ∃ buf', write w v nd buf = .ok (max nd ds.length, buf') ∧
      buf'.length = buf.length ∧
      (max nd ds.length ≤ buf.length →
        buf' = List.replicate (nd - ds.length) 48 ++
          ds.map (fun d => if d < 10 then 48 + d else 97 + (d - 10)) ++ buf.drop (max nd ds.length))

theorem paddedWriter_of_exact {b : Nat} (hb : 2 ≤ b) {write : W → Nat → List Nat → Res (Nat × List Nat)}
    (h : ∀ w v, v < 2 ^ w.bits → ExactW (write w v) (numeralText b v)) :
    PaddedWriter b (fun w v nd => writeNumDigits (write w v) nd) := by
  intro w v nd hv
  refine ⟨numeral b v, numeral_isNumeral hb v, fun buf => ?_⟩
  have hp := paddedText_length b v nd
  have heq := writeNumDigits_eq hb (h w v hv) nd buf
  rw [hp] at heq
  refine ⟨_, heq, ?_, ?_⟩
  · split
    · exact overwrite_length (by omega)
    · split
      · exact overwrite_length (by assumption)
      · rfl
  · intro hle
    rw [if_pos hle, overwrite, hp, paddedText]
    have : numeralText b v = (numeral b v).map (fun d => if d < 10 then 48 + d else 97 + (d - 10)) := by
      unfold numeralText
      apply List.map_congr_left
      intro d hd
      unfold digitChar
      split <;> omega
    rw [this]

/-- C06: `write_dec(buf,v,num_digits)`. -/
theorem C06_write_dec : PaddedWriter 10 writeDecPad :=
  paddedWriter_of_exact (by omega) (fun w v h => writeDec_exact w v h)
/-- C06: `write_hex(buf,v,num_digits)`. -/
theorem C06_write_hex : PaddedWriter 16 writeHexPad :=
  paddedWriter_of_exact (by omega) (fun w v h => writeHex_exact w v h)
/-- C06: `write_oct(buf,v,num_digits)`. -/
theorem C06_write_oct : PaddedWriter 8 writeOctPad :=
  paddedWriter_of_exact (by omega) (fun w v _ => writeOct_exact w v)
/-- C06: `write_bin(buf,v,num_digits)`. -/
theorem C06_write_bin : PaddedWriter 2 writeBinPad :=
  paddedWriter_of_exact (by omega) (fun w v h => writeBin_exact w v h)

example : writeHexPad .w16 0xabc 6 (S "_______") = .ok (6, S "000abc_") := by decide +kernel

/-! ### C07: utoa -/

/-- C07: `utoa(buf,v,radix)` writes prefix plus canonical numeral. -/
theorem C07_utoa (w : W) (v r : Nat) (h : v < 2 ^ w.bits) (hr : isRadix r) (buf : List Nat)
    (hb : (uintText r v 0).length ≤ buf.length) :
    utoaRadix w v r buf = .ok ((uintText r v 0).length, overwrite (uintText r v 0) buf) := by
  rw [utoaRadix_exact w v r h hr buf, if_pos hb]

/-- C07: `utoa(buf,v,radix,num_digits)` writes prefix plus zero padded numeral. -/
theorem C07_utoa_padded (w : W) (v r nd : Nat) (h : v < 2 ^ w.bits) (hr : isRadix r)
    (hnd : nd < 2 ^ 32 - 3) (buf : List Nat) (hb : (uintText r v nd).length ≤ buf.length) :
    utoaRadixPad w v r nd buf = .ok ((uintText r v nd).length, overwrite (uintText r v nd) buf) := by
  rw [utoaRadixPad_exact w v r nd h hr hnd buf, if_pos hb]

example : uintText 8 64 5 = S "0o00100" := by decide +kernel
example : utoaRadixPad .w16 64 8 5 (S "_________") = .ok (7, S "0o00100__") := by decide +kernel

/-! ### C08: itoa -/

/-- C08: `itoa(buf,v)`. -/
theorem C08_itoa (w : W) (v : Int) (hl : w.minI ≤ v) (hu : v < 2 ^ (w.bits - 1)) (buf : List Nat)
    (hb : (intText 10 v 0).length ≤ buf.length) :
    itoa w v buf = .ok ((intText 10 v 0).length, overwrite (intText 10 v 0) buf) := by
  rw [itoa_eq w v hl hu buf, if_pos hb]

/-- C08: `itoa(buf,v,radix)`. -/
theorem C08_itoa_radix (w : W) (v : Int) (r : Nat) (hr : isRadix r) (hl : w.minI ≤ v)
    (hu : v < 2 ^ (w.bits - 1)) (buf : List Nat) (hb : (intText r v 0).length ≤ buf.length) :
    itoaRadix w v r buf = .ok ((intText r v 0).length, overwrite (intText r v 0) buf) := by
  rw [itoaRadix_eq w v r hr hl hu, intOut, if_pos hb]

/-- C08: `itoa(buf,v,radix,num_digits)`. -/
theorem C08_itoa_padded (w : W) (v : Int) (r nd : Nat) (hr : isRadix r) (hl : w.minI ≤ v)
    (hu : v < 2 ^ (w.bits - 1)) (hnd : nd < 2 ^ 32 - 3) (buf : List Nat)
    (hb : (intText r v nd).length ≤ buf.length) :
    itoaRadixPad w v r nd buf = .ok ((intText r v nd).length, overwrite (intText r v nd) buf) := by
  rw [itoaRadixPad_eq w v r nd hr hl hu hnd, intOut, if_pos hb]

example : intText 16 (-128) 4 = S "-0x0080" := by decide +kernel
example : itoa .w64 (-9223372036854775808) (S "______________________") =
    .ok (20, S "-9223372036854775808__") := by decide +kernel

/-! ### C09: huge digit counts -/

/-- C09 refuted: the size returned for `num_digits = 2^32` is the size without any padding. -/
theorem C09_refuted : ∃ nd, nd < 2 ^ 64 ∧ ∃ n buf, utoaRadixPad .w8 5 10 nd [] = .ok (n, buf) ∧ n < nd :=
  ⟨2 ^ 32, by decide, 0, [], by decide +kernel, by decide⟩

/-- C09 refuted (memory safety): with `num_digits = 2^32 - 2` the 32-bit size wraps to 0 and the prefix
is stored out of bounds of an empty buffer. -/
theorem C09_refuted_out_of_bounds : utoaRadixPad .w8 5 16 (2 ^ 32 - 2) [] = .ub := by decide +kernel

/-- C09, what holds: below `2^32 - 3` the returned size is at least `num_digits`.
Missing: digit counts from `2^32 - 3` on (false, see `C09_refuted`). -/
theorem C09_size_partial (w : W) (v : Nat) (i : Int) (r nd : Nat) (h : v < 2 ^ w.bits) (hr : isRadix r)
    (hl : w.minI ≤ i) (hu : i < 2 ^ (w.bits - 1)) (hnd : nd < 2 ^ 32 - 3) (buf : List Nat) :
    (∃ n b, utoaRadixPad w v r nd buf = .ok (n, b) ∧ nd ≤ n) ∧
    (∃ n b, itoaRadixPad w i r nd buf = .ok (n, b) ∧ nd ≤ n) := by
  have hlen : ∀ v, nd ≤ (uintText r v nd).length := by
    intro v
    have := paddedText_length r v nd
    simp [uintText]; omega
  refine ⟨⟨_, _, utoaRadixPad_exact w v r nd h hr hnd buf, hlen v⟩,
    ⟨_, _, itoaRadixPad_eq w i r nd hr hl hu hnd buf, ?_⟩⟩
  have := hlen i.natAbs
  simp [intText]; omega

end C4
