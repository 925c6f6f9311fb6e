import Verif.Charconv.Xtoa
import Verif.Props.CharconvConvert
import Verif.Props.IPow
/-
Property C145: conversions that choose by the type.
-/
namespace C4
open Spec

theorem intText_nonneg (r : Nat) {v : Int} (h : 0 ≤ v) (nd : Nat) : intText r v nd = uintText r v.toNat nd := by
  unfold intText
  rw [if_neg (by omega), List.nil_append, show v.natAbs = v.toNat by omega]

theorem fits_of_signed {t : ITy} {v : Int} (hs : t.sgn = true) (h : Fits t v) : t.w.minI ≤ v ∧ v < 2 ^ (t.w.bits - 1) := by
  obtain ⟨w, s⟩ := t
  cases hs
  obtain ⟨h1, h2⟩ := h
  cases w <;> simp [ITy.min, ITy.max, W.minI, W.bits] at h1 h2 ⊢ <;> omega

theorem fits_of_unsigned {t : ITy} {v : Int} (hs : t.sgn = false) (h : Fits t v) : 0 ≤ v ∧ v.toNat < 2 ^ t.w.bits := by
  obtain ⟨w, s⟩ := t
  cases hs
  obtain ⟨h1, h2⟩ := h
  cases w <;> simp [ITy.min, ITy.max, W.bits] at h1 h2 ⊢ <;> omega

/-- Reading the text of a value of the type gives it back. -/
theorem atox_text {t : ITy} {v : Int} (h : Fits t v) {r : Nat} (hr : isRadix r) (nd : Nat) : atox t (intText r v nd) = .ok (some v) := by
  cases hs : t.sgn with
  | true =>
    obtain ⟨h1, h2⟩ := fits_of_signed hs h
    obtain ⟨o, e⟩ := C13_signed_text t.w v r nd h1 h2 hr
    unfold atox
    rw [hs, if_pos rfl, show t = ⟨t.w, true⟩ by rw [← hs], e]
    rfl
  | false =>
    obtain ⟨h1, h2⟩ := fits_of_unsigned hs h
    obtain ⟨o, e⟩ := C13_unsigned_text t.w v.toNat r nd h2 hr
    unfold atox
    rw [hs, if_neg (by decide), intText_nonneg r h1, show t = ⟨t.w, false⟩ by rw [← hs], e]
    show Res.ok (some ((v.toNat : Nat) : Int)) = _
    rw [Int.toNat_of_nonneg h1]

/-- **C145**: for every integral type, value, radix and number of digits, `xtoa` writes the text of the value, with its sign and the prefix of the
radix, if the buffer has room for it, and `atox` reads the value from it. -/
theorem C145_integers (t : ITy) (v : Int) (h : Fits t v) (buf : List Nat) :
    ((intText 10 v 0).length ≤ buf.length → xtoa t v buf = .ok ((intText 10 v 0).length, overwrite (intText 10 v 0) buf)) ∧
    (∀ r, isRadix r → (intText r v 0).length ≤ buf.length → xtoaRadix t v r buf = .ok ((intText r v 0).length, overwrite (intText r v 0) buf)) ∧
    (∀ r nd, isRadix r → nd < 2 ^ 32 - 3 → (intText r v nd).length ≤ buf.length →
      xtoaPad t v r nd buf = .ok ((intText r v nd).length, overwrite (intText r v nd) buf)) ∧
    (∀ r nd, isRadix r → atox t (intText r v nd) = .ok (some v)) := by
  refine ⟨?_, ?_, ?_, fun r nd hr => atox_text h hr nd⟩
  all_goals
    cases hs : t.sgn with
    | true =>
      obtain ⟨h1, h2⟩ := fits_of_signed hs h
      simp only [xtoa, xtoaRadix, xtoaPad, hs, if_true]
      first
        | exact fun hb => C08_itoa t.w v h1 h2 buf hb
        | exact fun r hr hb => C08_itoa_radix t.w v r hr h1 h2 buf hb
        | exact fun r nd hr hnd hb => C08_itoa_padded t.w v r nd hr h1 h2 hnd buf hb
    | false =>
      obtain ⟨h1, h2⟩ := fits_of_unsigned hs h
      simp only [intText_nonneg _ h1, xtoa, xtoaRadix, xtoaPad, hs, Bool.false_eq_true, if_false]
      first
        | exact fun hb => by
            have e : uintText 10 v.toNat 0 = numeralText 10 v.toNat := by simp [uintText, radixPrefix, paddedText]
            rw [e] at hb ⊢
            rw [writeDec_exact t.w v.toNat h2 buf, if_pos hb]
        | exact fun r hr hb => C07_utoa t.w v.toNat r h2 hr buf hb
        | exact fun r nd hr hnd hb => C07_utoa_padded t.w v.toNat r nd h2 hr hnd buf hb

example : Fits ⟨.w8, true⟩ (-128) ∧ xtoaPad ⟨.w8, true⟩ (-128) 16 4 (S "________") = .ok (7, S "-0x0080_") ∧
    xtoa ⟨.w64, false⟩ 18446744073709551615 (S "____________________") = .ok (20, S "18446744073709551615") := by decide +kernel

/-- **C145** for pointers: every address is read back from its text. -/
theorem C145_pointers (a : Nat) (h : a < 2 ^ 64) (buf : List Nat) (hb : 19 ≤ buf.length) :
    ∃ n b, xtoaPtr a buf = .ok (n, b) ∧ b.length = buf.length ∧ n ≤ 19 ∧ b.drop n = buf.drop n ∧ atoxPtr (b.take n) = .ok (some a) := by
  obtain ⟨v, hv⟩ : ∃ v, v = (ITy.mk .w64 true).wrap a := ⟨_, rfl⟩
  have hva : (v % 2 ^ 64).toNat = a ∧ -(2 ^ 63) ≤ v ∧ v < 2 ^ 63 := by
    rw [hv]
    unfold ITy.wrap
    rw [if_pos rfl]
    have e1 := Int.bmod_emod (x := (a : Int)) (m := 2 ^ W.bits .w64)
    have e2 := Int.le_bmod (x := (a : Int)) (m := 2 ^ W.bits .w64) (Nat.two_pow_pos _)
    have e3 := Int.bmod_lt (x := (a : Int)) (m := 2 ^ W.bits .w64) (Nat.two_pow_pos _)
    rw [show W.bits .w64 = 64 from rfl] at e1 e2 e3 ⊢
    generalize Int.bmod (a : Int) (2 ^ 64) = x at e1 e2 e3 ⊢
    push_cast at e1 e2 e3
    omega
  obtain ⟨h0, h1, h2⟩ := hva
  have h1' : W.minI .w64 ≤ v := by simpa [W.minI, W.bits] using h1
  have h2' : v < 2 ^ (W.bits .w64 - 1) := by simpa [W.bits] using h2
  have hlen : (intText 16 v 0).length ≤ 19 := by
    have hn : (numeral 16 v.natAbs).length ≤ 16 := by
      by_contra hc
      rcases (numeral_length_spec (b := 16) (v := v.natAbs) (by omega)).2 with h | h
      · rw [h] at hc
        exact hc (by decide)
      · have : 16 ^ 16 ≤ 16 ^ ((numeral 16 v.natAbs).length - 1) := Nat.pow_le_pow_right (by omega) (by omega)
        omega
    have hp : (radixPrefix 16).length = 2 := by decide
    unfold intText uintText
    rw [List.length_append, List.length_append, paddedText_length, hp]
    split <;> simp <;> omega
  have e := C08_itoa_radix .w64 v 16 (by decide) h1' h2' buf (by omega)
  refine ⟨_, _, by rw [xtoaPtr, ← hv]; exact e, ?_, hlen, ?_, ?_⟩
  · exact overwrite_length (by omega)
  · simp [overwrite]
  · rw [overwrite_take]
    obtain ⟨o, e⟩ := C13_signed_text .w64 v 16 0 h1' h2' (by decide)
    unfold atoxPtr
    rw [e]
    show Res.ok (some _) = _
    rw [h0]

example : xtoaPtr (2 ^ 64 - 16) (S "____________________") = .ok (5, S "-0x10_______________") ∧ atoxPtr (S "-0x10") = .ok (some (2 ^ 64 - 16)) := by decide +kernel

end C4
