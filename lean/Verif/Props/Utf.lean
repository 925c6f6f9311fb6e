import Verif.Utf
import Verif.Spec.Writer
import Verif.Props.CharconvRead
/-
Property C60: code points are encoded as UTF-8.
-/
namespace C4
open Spec

/-- Specification (RFC 3629): the octet sequences and the code points they stand for, each in its shortest form. -/
inductive Spec.Utf8 : List Nat → Nat → Prop
  | one {a} : a < 0x80 → Utf8 [a] a
  | two {a b} : a < 0x20 → b < 0x40 → 0x80 ≤ a * 64 + b → Utf8 [0xc0 + a, 0x80 + b] (a * 64 + b)
  | three {a b c} : a < 0x10 → b < 0x40 → c < 0x40 → 0x800 ≤ a * 4096 + b * 64 + c →
      Utf8 [0xe0 + a, 0x80 + b, 0x80 + c] (a * 4096 + b * 64 + c)
  | four {a b c d} : a < 0x08 → b < 0x40 → c < 0x40 → d < 0x40 → 0x10000 ≤ a * 262144 + b * 4096 + c * 64 + d →
      a * 262144 + b * 4096 + c * 64 + d ≤ 0x10ffff →
      Utf8 [0xf0 + a, 0x80 + b, 0x80 + c, 0x80 + d] (a * 262144 + b * 4096 + c * 64 + d)

/-- A code point has at most one octet sequence. -/
theorem Spec.Utf8.unique {s s' : List Nat} {n n' : Nat} (h : Utf8 s n) (h' : Utf8 s' n') (e : n = n') : s = s' := by
  cases h <;> cases h' <;> (simp only [List.cons.injEq, and_true]; omega)

/-- An octet sequence has at most one code point. -/
theorem Spec.Utf8.injective {s s' : List Nat} {n n' : Nat} (h : Utf8 s n) (h' : Utf8 s' n') (e : s = s') : n = n' := by
  cases h <;> cases h' <;> simp at e <;> omega

theorem storeBytes_eq (xs : List Nat) : ∀ (A B : List Nat), xs.length ≤ B.length →
    storeBytes A.length xs (A ++ B) = .ok (A ++ xs.map (· % 256) ++ B.drop xs.length) := by
  induction xs with
  | nil => intro A B _; simp [storeBytes]
  | cons x xs ih =>
    intro A B h
    cases B with
    | nil => simp at h
    | cons y B =>
      have := ih (A ++ [x % 256]) B (by simpa using h)
      rw [storeBytes, wr_append_left, Res.ok_bind]
      simpa using this

theorem storeBytes_overwrite {xs buf : List Nat} (h : xs.length ≤ buf.length) :
    storeBytes 0 xs buf = .ok (overwrite (xs.map (· % 256)) buf) := by
  have := storeBytes_eq xs [] buf h
  simpa [overwrite] using this

theorem or_c0 {a : Nat} (h : a < 0x20) : 0xc0 ||| a = 0xc0 + a := by
  have := Nat.shiftLeft_add_eq_or_of_lt (i := 5) (b := a) (by omega) 6
  simpa using this.symm
theorem or_e0 {a : Nat} (h : a < 0x10) : 0xe0 ||| a = 0xe0 + a := by
  have := Nat.shiftLeft_add_eq_or_of_lt (i := 4) (b := a) (by omega) 14
  simpa using this.symm
theorem or_f0 {a : Nat} (h : a < 0x08) : 0xf0 ||| a = 0xf0 + a := by
  have := Nat.shiftLeft_add_eq_or_of_lt (i := 3) (b := a) (by omega) 30
  simpa using this.symm
theorem or_80 {a : Nat} (h : a < 0x40) : 0x80 ||| a = 0x80 + a := by
  have := Nat.shiftLeft_add_eq_or_of_lt (i := 6) (b := a) (by omega) 2
  simpa using this.symm
theorem and_3f (a : Nat) : a &&& 0x3f = a % 64 := Nat.and_two_pow_sub_one_eq_mod a 6

/-- **C60**: with room for four bytes, every code up to 0x10FFFF is stored as its UTF-8 octets, whose number is returned; for
every larger code nothing is stored and zero is returned.  (Surrogates are encoded like the rest of the range.) -/
theorem C60_decode_code_point (code : Nat) (buf : List Nat) (hb : 4 ≤ buf.length) :
    (code ≤ 0x10ffff → ∃ s, Utf8 s code ∧ decodeCodePoint code buf = .ok (s.length, overwrite s buf)) ∧
    (0x10ffff < code → decodeCodePoint code buf = .ok (0, buf)) := by
  refine ⟨fun h => ?_, fun h => ?_⟩
  · unfold decodeCodePoint
    by_cases h1 : code ≤ 0x7f
    · rw [if_pos h1, storeBytes_overwrite (by simp; omega)]
      exact ⟨[code], .one (by omega), by simp [Nat.mod_eq_of_lt (show code < 256 by omega)]⟩
    · rw [if_neg h1]
      by_cases h2 : code ≤ 0x7ff
      · rw [if_pos h2, storeBytes_overwrite (by simp; omega)]
        have e1 := or_c0 (a := code >>> 6) (by rw [Nat.shiftRight_eq_div_pow]; omega)
        have e2 := or_80 (a := code &&& 0x3f) (by rw [and_3f]; omega)
        rw [e1, e2, and_3f, Nat.shiftRight_eq_div_pow]
        refine ⟨[0xc0 + code / 64, 0x80 + code % 64], ?_, ?_⟩
        · have := Utf8.two (a := code / 64) (b := code % 64) (by omega) (by omega) (by omega)
          rwa [show code / 64 * 64 + code % 64 = code by omega] at this
        · simp [Nat.mod_eq_of_lt (show 192 + code / 64 < 256 by omega),
            Nat.mod_eq_of_lt (show 128 + code % 64 < 256 by omega)]
      · rw [if_neg h2]
        by_cases h3 : code ≤ 0xffff
        · rw [if_pos h3, storeBytes_overwrite (by simp; omega)]
          have e1 := or_e0 (a := code >>> 12) (by rw [Nat.shiftRight_eq_div_pow]; omega)
          have e2 := or_80 (a := (code >>> 6) &&& 0x3f) (by rw [and_3f]; omega)
          have e3 := or_80 (a := code &&& 0x3f) (by rw [and_3f]; omega)
          rw [e1, e2, e3, and_3f, and_3f, Nat.shiftRight_eq_div_pow, Nat.shiftRight_eq_div_pow]
          refine ⟨[0xe0 + code / 4096, 0x80 + code / 64 % 64, 0x80 + code % 64], ?_, ?_⟩
          · have := Utf8.three (a := code / 4096) (b := code / 64 % 64) (c := code % 64) (by omega) (by omega) (by omega) (by omega)
            rwa [show code / 4096 * 4096 + code / 64 % 64 * 64 + code % 64 = code by omega] at this
          · simp [Nat.mod_eq_of_lt (show 224 + code / 4096 < 256 by omega),
              Nat.mod_eq_of_lt (show 128 + code / 64 % 64 < 256 by omega),
              Nat.mod_eq_of_lt (show 128 + code % 64 < 256 by omega)]
        · rw [if_neg h3, if_pos h, storeBytes_overwrite (by simp; omega)]
          have e1 := or_f0 (a := code >>> 18) (by rw [Nat.shiftRight_eq_div_pow]; omega)
          have e2 := or_80 (a := (code >>> 12) &&& 0x3f) (by rw [and_3f]; omega)
          have e3 := or_80 (a := (code >>> 6) &&& 0x3f) (by rw [and_3f]; omega)
          have e4 := or_80 (a := code &&& 0x3f) (by rw [and_3f]; omega)
          rw [e1, e2, e3, e4, and_3f, and_3f, and_3f, Nat.shiftRight_eq_div_pow, Nat.shiftRight_eq_div_pow, Nat.shiftRight_eq_div_pow]
          refine ⟨[0xf0 + code / 262144, 0x80 + code / 4096 % 64, 0x80 + code / 64 % 64, 0x80 + code % 64], ?_, ?_⟩
          · have := Utf8.four (a := code / 262144) (b := code / 4096 % 64) (c := code / 64 % 64) (d := code % 64)
              (by omega) (by omega) (by omega) (by omega) (by omega) (by omega)
            rwa [show code / 262144 * 262144 + code / 4096 % 64 * 4096 + code / 64 % 64 * 64 + code % 64 = code by omega] at this
          · simp [Nat.mod_eq_of_lt (show 240 + code / 262144 < 256 by omega),
              Nat.mod_eq_of_lt (show 128 + code / 4096 % 64 < 256 by omega),
              Nat.mod_eq_of_lt (show 128 + code / 64 % 64 < 256 by omega),
              Nat.mod_eq_of_lt (show 128 + code % 64 < 256 by omega)]
  · unfold decodeCodePoint
    rw [if_neg (by omega), if_neg (by omega), if_neg (by omega), if_neg (by omega)]

/-- **C60** for the string form: for a text of one to eight hexadecimal digits it does the same with the number written; for
any other text the error callback is called. -/
theorem C60_decode_string (s buf : List Nat) (h0 : s ≠ []) (h8 : s.length ≤ 8) :
    (∀ n, DigitText 16 s n → decodeCodePointS s buf = decodeCodePoint n buf) ∧
    ((¬ ∃ n, DigitText 16 s n) → decodeCodePointS s buf = .abort) := by
  have hr := C10_read_hex ⟨.w32, false⟩ s h0
  obtain ⟨⟨ok, v, o⟩, hrd⟩ : ∃ r, readHex ⟨.w32, false⟩ s = r := ⟨_, rfl⟩
  rw [hrd] at hr
  unfold decodeCodePointS
  rw [hrd]
  refine ⟨fun n hn => ?_, fun hn => ?_⟩
  · have hok : ok = true := hr.1.mpr ⟨n, n, hn, rfl⟩
    have hst := hr.2 n ⟨n, hn, rfl⟩
    have hlt : n < 2 ^ 32 := by
      obtain ⟨_, ds, ⟨hm, hd⟩, rfl⟩ := hn
      have hl : s.length = ds.length := by simpa using congrArg List.length hm
      have := value_lt hd
      have h2 := Nat.pow_le_pow_right (n := 16) (by omega) (show ds.length ≤ 8 by omega)
      omega
    have hv : v = (n : Int) := by
      refine hst.eq_of_fits (by simp [ITy.min]) ?_
      simp [ITy.max, W.bits]; omega
    subst hok; subst hv
    simp
  · cases ok with
    | false => rfl
    | true =>
      obtain ⟨_, n, hx, _⟩ := hr.1.mp rfl
      exact absurd ⟨n, hx⟩ hn

example : decodeCodePoint 0x20ac (S ".....") = .ok (3, [0xe2, 0x82, 0xac, 46, 46]) := by decide +kernel
example : Utf8 [0xe2, 0x82, 0xac] 0x20ac := .three (a := 2) (b := 2) (c := 0x2c) (by omega) (by omega) (by omega) (by omega)
example : decodeCodePointS (S "1F600") (S ".....") = .ok (4, [0xf0, 0x9f, 0x98, 0x80, 46]) := by decide +kernel

end C4
