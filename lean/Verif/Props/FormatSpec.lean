import Verif.FormatSpec
import Verif.Props.Format
import Verif.Props.IPow
import Verif.Props.CharconvConvert
/-
Property C133: specifiers of integers.
-/
namespace C4
open Spec

theorem fits_signed {w : W} {v : Int} (h : Fits ⟨w, true⟩ v) : w.minI ≤ v ∧ v < 2 ^ (w.bits - 1) := by
  obtain ⟨h1, h2⟩ := h
  cases w <;> simp [ITy.min, ITy.max, W.bits, W.minI] at h1 h2 ⊢ <;> omega

theorem fits_unsigned {w : W} {v : Int} (h : Fits ⟨w, false⟩ v) : 0 ≤ v ∧ v.toNat < 2 ^ w.bits := by
  obtain ⟨h1, h2⟩ := h
  cases w <;> simp [ITy.min, ITy.max, W.bits] at h1 h2 ⊢ <;> omega

theorem integral_writes (i : Fmt.Integral) (hv : Fits i.t i.val) (hr : isRadix i.radix) : Writes i.toChars (intText i.radix i.val 0) := by
  obtain ⟨⟨w, sgn⟩, v, r⟩ := i
  cases sgn with
  | true => exact Arg.writes (.intR w v r) ⟨(fits_signed hv).1, (fits_signed hv).2, hr⟩
  | false =>
    have := Arg.writes (.uintR w v.toNat r) ⟨(fits_unsigned hv).2, hr⟩
    have e : ((v.toNat : Nat) : Int) = v := Int.toNat_of_nonneg (fits_unsigned hv).1
    simp only [Arg.text, e] at this
    exact this

theorem padded_writes (i : Fmt.Padded) (hv : Fits i.t i.val) (hr : isRadix i.radix) (hd : i.digits < 2 ^ 32 - 3) : Writes i.toChars (intText i.radix i.val i.digits) := by
  obtain ⟨⟨w, sgn⟩, v, r, nd⟩ := i
  cases sgn with
  | true => exact Arg.writes (.intP w v r nd) ⟨(fits_signed hv).1, (fits_signed hv).2, hr, hd⟩
  | false =>
    have := Arg.writes (.uintP w v.toNat r nd) ⟨(fits_unsigned hv).2, hr, hd⟩
    have e : ((v.toNat : Nat) : Int) = v := Int.toNat_of_nonneg (fits_unsigned hv).1
    simp only [Arg.text, e] at this
    exact this

/-- C133 for numbers: `hex`, `oct`, `bin` and `integral` write the number in radix 16, 8, 2 and the given one, with the prefix of the radix, and `zpad` in radix 10, or that of the
specifier inside, with at least the given number of digits.  (From 2^32-3 digits on, see C09.) -/
theorem C133_numbers_partial (t : ITy) (v : Int) (r nd : Nat) (hv : Fits t v) (hr : isRadix r) (hd : nd < 2 ^ 32 - 3) :
    Writes (Fmt.hex t v).toChars (intText 16 v 0) ∧ Writes (Fmt.oct t v).toChars (intText 8 v 0) ∧ Writes (Fmt.bin t v).toChars (intText 2 v 0) ∧
    Writes (Fmt.integral t v r).toChars (intText r v 0) ∧ Writes (Fmt.zpad t v nd).toChars (intText 10 v nd) ∧
    Writes (Fmt.zpadIntegral (Fmt.integral t v r) nd).toChars (intText r v nd) ∧ Writes (Fmt.zpadIntegral (Fmt.hex t v) nd).toChars (intText 16 v nd) ∧
    Writes (Fmt.zpadIntegral (Fmt.oct t v) nd).toChars (intText 8 v nd) ∧ Writes (Fmt.zpadIntegral (Fmt.bin t v) nd).toChars (intText 2 v nd) :=
  ⟨integral_writes _ hv (show isRadix 16 by decide), integral_writes _ hv (show isRadix 8 by decide), integral_writes _ hv (show isRadix 2 by decide), integral_writes _ hv hr,
    padded_writes _ hv (show isRadix 10 by decide) hd, padded_writes _ hv hr hd, padded_writes _ hv (show isRadix 16 by decide) hd, padded_writes _ hv (show isRadix 8 by decide) hd,
    padded_writes _ hv (show isRadix 2 by decide) hd⟩

example : Fits ⟨.w8, true⟩ (-128) ∧ (Fmt.hex ⟨.w8, true⟩ (-128)).toChars (S "......") = .ok (5, S "-0x80.") := by decide +kernel
example : (Fmt.zpadIntegral (Fmt.hex ⟨.w16, false⟩ 0xbeef) 6).toChars (S ".........") = .ok (8, S "0x00beef.") := by decide +kernel

theorem ofPtr_low {p : Nat} (h : p < 2 ^ 63) : Fmt.ofPtr p = p := by
  apply wrap_of_fits
  · simp [Fmt.intptr, ITy.min, W.bits]
  · simp [Fmt.intptr, ITy.max, W.bits]; omega

theorem ofPtr_fits (p : Nat) : Fits Fmt.intptr (Fmt.ofPtr p) := ⟨(wrap_stored _ _).1, (wrap_stored _ _).2.1⟩

/-- C133 for pointers, as far as it holds: addresses below 2^63 are written as unsigned numbers in the radix of the specifier, which is 16 for `zpad`. -/
theorem C133_pointers_partial (p r nd : Nat) (hp : p < 2 ^ 63) (hr : isRadix r) (hd : nd < 2 ^ 32 - 3) :
    Writes (Fmt.hexPtr p).toChars (uintText 16 p 0) ∧ Writes (Fmt.octPtr p).toChars (uintText 8 p 0) ∧ Writes (Fmt.binPtr p).toChars (uintText 2 p 0) ∧
    Writes (Fmt.integralPtr p r).toChars (uintText r p 0) ∧ Writes (Fmt.zpadPtr p nd).toChars (uintText 16 p nd) := by
  have e := ofPtr_low hp
  have hf := ofPtr_fits p
  unfold Fmt.hexPtr Fmt.octPtr Fmt.binPtr Fmt.integralPtr Fmt.zpadPtr
  rw [e] at hf ⊢
  rw [← intText_nat, ← intText_nat, ← intText_nat, ← intText_nat, ← intText_nat]
  generalize (p : Int) = v at hf
  exact ⟨integral_writes ⟨_, v, 16⟩ hf (show isRadix 16 by decide), integral_writes ⟨_, v, 8⟩ hf (show isRadix 8 by decide),
    integral_writes ⟨_, v, 2⟩ hf (show isRadix 2 by decide), integral_writes ⟨_, v, r⟩ hf hr, padded_writes ⟨_, v, 16, nd⟩ hf (show isRadix 16 by decide) hd⟩

example : (Fmt.hexPtr 0xbeef).toChars (S ".......") = .ok (6, S "0xbeef.") ∧ (Fmt.zpadPtr 0xbeef 8).toChars (S "...........") = .ok (10, S "0x0000beef.") := by decide +kernel

/-- C133: null is written as 0. -/
theorem C133_null (r nd : Nat) (hr : isRadix r) (hd : nd < 2 ^ 32 - 3) :
    Writes Fmt.hexNull.toChars (S "0x0") ∧ Writes Fmt.octNull.toChars (S "0o0") ∧ Writes Fmt.binNull.toChars (S "0b0") ∧
    Writes (Fmt.integralNull r).toChars (uintText r 0 0) ∧ Writes (Fmt.zpadNull nd).toChars (uintText 16 0 nd) := by
  have hf : Fits Fmt.intptr 0 := by decide
  have t := intText_nat
  rw [← t r 0 0, ← t 16 0 nd]
  exact ⟨integral_writes Fmt.hexNull hf (show isRadix 16 by decide), integral_writes Fmt.octNull hf (show isRadix 8 by decide),
    integral_writes Fmt.binNull hf (show isRadix 2 by decide), integral_writes (Fmt.integralNull r) hf hr, padded_writes (Fmt.zpadNull nd) hf (show isRadix 16 by decide) hd⟩

theorem fromCharsPtr_text (v : Int) (nd : Nat) (hf : Fits Fmt.intptr v) : fromCharsPtr (intText 16 v nd) = .ok (some v) := by
  have h1 := fits_signed (w := .w64) hf
  obtain ⟨o, e⟩ := C13_signed_text .w64 v 16 nd h1.1 h1.2 (by decide)
  unfold fromCharsPtr
  rw [e]; rfl

/-- C133: whatever the address, reading the text of a pointer gives it back. -/
theorem C133_read_back (p nd : Nat) (hp : p < 2 ^ 64) (hd : nd < 2 ^ 32 - 3) (buf : List Nat) (hb : (intText 16 (Fmt.ofPtr p) nd).length ≤ buf.length) :
    ∃ n b v, (Fmt.zpadPtr p nd).toChars buf = .ok (n, b) ∧ fromCharsPtr (b.take n) = .ok (some v) ∧ (v % 2 ^ 64).toNat = p := by
  have hf := ofPtr_fits p
  have h2 : (Fmt.ofPtr p - p) % 2 ^ 64 = 0 := by
    have := (wrap_stored Fmt.intptr p).2.2
    simp only [Fmt.intptr, W.bits] at this
    unfold Fmt.ofPtr Fmt.intptr
    omega
  unfold Fmt.zpadPtr
  generalize Fmt.ofPtr p = v at *
  obtain ⟨b, w1, _, w2⟩ := padded_writes ⟨Fmt.intptr, v, 16, nd⟩ hf (show isRadix 16 by decide) hd buf
  refine ⟨_, _, v, w1, ?_, by omega⟩
  rw [w2 hb, overwrite_take]
  exact fromCharsPtr_text v nd hf

/-- C133 fails for pointers: addresses from 2^63 on are written as negative numbers. -/
theorem C133_pointers_refuted :
    (Fmt.hexPtr (2 ^ 64 - 4096)).toChars (S "........") = .ok (7, S "-0x1000.") ∧ (Fmt.integralPtr (2 ^ 63) 10).toChars [] = .ok (20, []) ∧ uintText 16 (2 ^ 64 - 4096) 0 = S "0xfffffffffffff000" := by
  decide +kernel

end C4
