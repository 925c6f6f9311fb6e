import Verif.Props.Atof
import Verif.Props.Rtoa
import Verif.Spec.RealDigits
/-
Property C124: real numbers written by `ftoa`, `dtoa` and read by `atof`, `atod`.
-/
namespace C4
open Spec FF

/-- The distance to the next smaller number. -/
theorem val_gap (F : Ieee) (b : Nat) : F.val (b + 1) / 2 ^ (F.fracBits + 1) ≤ F.val (b + 1) - F.val b := by
  obtain ⟨p, m, rfl, h1, h2⟩ := bits_split F b
  rw [Nat.add_assoc, val_eq F p m (by omega) h2, val_eq F p (m + 1) (by omega) (by omega)]
  generalize ((p : ℤ) + 1 - F.bias - F.fracBits) = k
  have hk := zpow2_pos k
  have hm : ((m + 1 : ℕ) : ℚ) ≤ 2 ^ (F.fracBits + 1) := by exact_mod_cast h1
  rw [div_le_iff₀ (by positivity)]
  push_cast at hm ⊢
  have e : (((m : ℚ) + 1) * 2 ^ k - m * 2 ^ k) * 2 ^ (F.fracBits + 1) = 2 ^ (F.fracBits + 1) * 2 ^ k := by ring
  rw [e]
  exact mul_le_mul_of_nonneg_right hm hk.le

/-- A number which is close to a floating point number rounds to it. -/
theorem nearest_of_close (F : Ieee) {x : ℚ} {b : Nat} (hb : b < F.infBits) (h : |x - F.val b| < F.val b / 2 ^ (F.fracBits + 2)) : F.Nearest x b := by
  refine ⟨hb.le, fun c _ hne => Or.inl ?_⟩
  have hpos : (0 : ℚ) < 2 ^ (F.fracBits + 1) := by positivity
  have hgap : F.val b / 2 ^ (F.fracBits + 1) ≤ |F.val c - F.val b| := by
    rcases Nat.lt_or_gt_of_ne hne with hc | hc
    · obtain ⟨d, rfl⟩ : ∃ d, b = d + 1 := ⟨b - 1, by omega⟩
      have h1 := val_gap F d
      have h2 := (val_strictMono F).monotone (show c ≤ d by omega)
      rw [abs_sub_comm]
      exact le_trans (by linarith) (le_abs_self _)
    · have h1 := val_gap F b
      have h2 := (val_strictMono F).monotone (show b + 1 ≤ c by omega)
      have h3 : F.val b / 2 ^ (F.fracBits + 1) ≤ F.val (b + 1) / 2 ^ (F.fracBits + 1) :=
        div_le_div_of_nonneg_right ((val_lt_succ F b).le) hpos.le
      exact le_trans (by linarith) (le_abs_self _)
  have hh : F.val b / 2 ^ (F.fracBits + 1) = 2 * (F.val b / 2 ^ (F.fracBits + 2)) := by
    rw [show F.fracBits + 2 = F.fracBits + 1 + 1 from rfl, pow_succ (2 : ℚ) (F.fracBits + 1)]
    field_simp
  have ht : |F.val c - F.val b| ≤ |x - F.val c| + |x - F.val b| := by
    have := abs_sub (x - F.val b) (x - F.val c)
    rw [show x - F.val b - (x - F.val c) = F.val c - F.val b by ring] at this
    linarith
  linarith

/-- Seventeen significant digits of a double, nine of a float, are enough. -/
theorem nearest_of_digits {F : Ieee} (hF : F = binary64 ∨ F = binary32) {b P : Nat} {t : Decimal} (hb : b < F.infBits) (hP : (if F = binary64 then 17 else 9) ≤ P)
    (h : SignificantDigits P (F.val b) t) : F.Nearest t.mag b := by
  obtain ⟨e, h1, -, h3⟩ := h
  refine nearest_of_close F hb (lt_of_le_of_lt h3 ?_)
  have he : (0 : ℚ) < 10 ^ e := by positivity
  have hle : (10 : ℚ) ^ (e + 1 - P) ≤ 10 ^ e * 10 ^ (1 - (if F = binary64 then 17 else 9 : ℕ) : ℤ) := by
    rw [← zpow_add₀ (by norm_num)]
    exact zpow_le_zpow_right₀ (by norm_num) (by omega)
  have hlt : (10 : ℚ) ^ (1 - (if F = binary64 then 17 else 9 : ℕ) : ℤ) / 2 < 1 / 2 ^ (F.fracBits + 2) := by
    rcases hF with rfl | rfl <;> decide +kernel
  have hpos : (0 : ℚ) < 1 / 2 ^ (F.fracBits + 2) := by positivity
  calc (10 : ℚ) ^ (e + 1 - P) / 2 ≤ 10 ^ e * (10 ^ (1 - (if F = binary64 then 17 else 9 : ℕ) : ℤ) / 2) := by linarith
    _ < 10 ^ e * (1 / 2 ^ (F.fracBits + 2)) := mul_lt_mul_of_pos_left hlt he
    _ ≤ F.val b * (1 / 2 ^ (F.fracBits + 2)) := mul_le_mul_of_nonneg_right h1 hpos.le
    _ = F.val b / 2 ^ (F.fracBits + 2) := by ring

/-- What `atof` gives for a text whose nearest number is known. -/
theorem atof_nearest {f : Fmt} {F : Ieee} (hf : (f = dbl ∧ F = binary64) ∨ (f = flt ∧ F = binary32)) (fpu : Fpu) (t : Decimal) (v : Rat) (ht : t.WF)
    (hl : t.digits.length + 400 ≤ 2 ^ 28 ∨ |t.expVal| < 2 ^ 28) {b : Nat} (hn : F.Nearest t.mag b) (hb : b < F.infBits) (h0 : b = 0 → t.mag = 0) :
    atof f fpu t.text v = .ok (true, .dec (some (.bits (b + (if t.neg then F.signBit else 0))))) := by
  obtain ⟨ok, c, h1, h2, h3⟩ := atof_decimal hf fpu t v ht hl
  have hc := nearest_unique F h2 hn
  subst hc
  rw [h1, h3.2 ⟨by omega, h0⟩]

/-- C124, as far as it holds (1): a writer of real numbers that, like `std::to_chars` without precision, gives a decimal text whose nearest double or float is the number written: if the size returned is
at most that of the buffer, reading what was written gives the same bits again.
Missing: the hexadecimal format, and `snprintf` with less digits; see `C124_refuted`. -/
theorem C124_shortest_partial {f : Fmt} {F : Ieee} (hf : (f = dbl ∧ F = binary64) ∨ (f = flt ∧ F = binary32)) (fpu : Fpu) (v : Rat)
    (text : StdText) (junk : Nat → Nat) (md : Nat) (fmt : RealFormat) (hfmt : fmt ≠ .hexa) (t : Decimal) (ht : t.WF) (hl : t.digits.length + 400 ≤ 2 ^ 28 ∨ |t.expVal| < 2 ^ 28)
    (htext : text none fmt = t.text) {b : Nat} (hn : F.Nearest t.mag b) (hb : b < F.infBits) (h0 : b = 0 → t.mag = 0) (buf : List Nat) :
    ∃ n out, rtoa text junk md (-1) fmt buf = .ok (n, out) ∧
      (n ≤ buf.length → atof f fpu (out.take n) v = .ok (true, .dec (some (.bits (b + (if t.neg then F.signBit else 0)))))) := by
  obtain ⟨n, out, h1, -, -, h4⟩ := rtoa_room text junk md (-1) fmt hfmt buf
  refine ⟨n, out, h1, fun h => ?_⟩
  obtain ⟨h5, r, h6⟩ := h4 h
  rw [if_pos rfl, htext] at h5 h6
  rw [h5, ← h6, List.take_left]
  exact atof_nearest hf fpu t v ht hl hn hb h0

/-- C124, as far as it holds (2): with `snprintf`, and at least 17 significant digits of a double that is not 0, or 9 of a float. -/
theorem C124_digits_partial {f : Fmt} {F : Ieee} (hf : (f = dbl ∧ F = binary64) ∨ (f = flt ∧ F = binary32)) (fpu : Fpu) (v : Rat)
    (text : PrintfText) (precision : Int) (fmt : RealFormat) (h1 : -1 ≤ precision) (h2 : precision < 2 ^ 31) (t : Decimal) (ht : t.WF) (hl : t.digits.length + 400 ≤ 2 ^ 28 ∨ |t.expVal| < 2 ^ 28)
    (htl : t.text.length < 2 ^ 31) (htext : t.text = text (if precision = -1 then none else some precision.toNat) (printfLetter fmt))
    {b P : Nat} (hb : b < F.infBits) (hP : (if F = binary64 then 17 else 9) ≤ P) (hd : SignificantDigits P (F.val b) t) (buf : List Nat) :
    ∃ n out, dtoaC text precision fmt buf = .ok (n, out) ∧ ftoaC text precision fmt buf = .ok (n, out) ∧
      (n ≤ buf.length → atof f fpu (out.take n) v = .ok (true, .dec (some (.bits (b + (if t.neg then F.signBit else 0)))))) := by
  obtain ⟨n, out, e1, e2, h3, h4, h5⟩ := C121_snprintf_partial text precision fmt t.text buf h1 h2 htext htl
  refine ⟨n, out, e2, e1, fun h => ?_⟩
  have hlt : t.text.length < buf.length := by
    by_contra hc
    have := h5 (by omega)
    omega
  rw [(h4 hlt).1, (h4 hlt).2]
  unfold overwrite
  rw [List.append_assoc, List.take_left]
  have hF : F = binary64 ∨ F = binary32 := hf.imp (·.2) (·.2)
  refine atof_nearest hf fpu t v ht hl (nearest_of_digits hF hb hP hd) hb fun h => ?_
  obtain ⟨e, h6, -⟩ := hd
  rw [h, val_zero] at h6
  exact absurd h6 (not_le.2 (by positivity))

/-- A double written with 17 digits, for the examples below: 0.1. -/
def tenthText : Decimal := ⟨false, S "1", some (S "0000000000000001"), some (101, some 45, S "01")⟩

example : tenthText.WF ∧ tenthText.text = S "1.0000000000000001e-01" ∧ SignificantDigits 17 (binary64.val 0x3fb999999999999a) tenthText ∧
    0x3fb999999999999a < binary64.infBits := by
  refine ⟨⟨by decide, by decide, ?_⟩, by decide, ⟨-1, by decide +kernel, by decide +kernel, by decide +kernel⟩, by decide +kernel⟩
  intro e sg ds h
  cases h
  exact ⟨Or.inl rfl, Or.inr (Or.inr rfl), by decide, by decide⟩

/-- C124, as far as it holds (3): infinities and NaN with its sign, in both configurations. -/
theorem C124_words_partial {f : Fmt} {F : Ieee} (hf : (f = dbl ∧ F = binary64) ∨ (f = flt ∧ F = binary32)) (fpu : Fpu) (v : Rat) (neg : Bool)
    (text : StdText) (junk : Nat → Nat) (md : Nat) (ctext : PrintfText) (fmt : RealFormat) (hfmt : fmt ≠ .hexa) (w : List Nat) (hw : w = S "inf" ∨ w = S "nan")
    (ht : text none fmt = minus neg ++ w) (hc : ctext none (printfLetter fmt) = minus neg ++ w) (buf : List Nat) (hb : 5 ≤ buf.length) :
    ∃ n out out', rtoa text junk md (-1) fmt buf = .ok (n, out) ∧ dtoaC ctext (-1) fmt buf = .ok (n, out') ∧ ftoaC ctext (-1) fmt buf = .ok (n, out') ∧
      out.take n = minus neg ++ w ∧ out'.take n = minus neg ++ w ∧
      atof f fpu (minus neg ++ w) v =
        .ok (true, .dec (some (if w = S "inf" then .bits (F.infBits + (if neg then F.signBit else 0)) else .nan neg))) := by
  have hlen : (minus neg ++ w).length ≤ 4 := by
    rcases hw with rfl | rfl <;> cases neg <;> decide
  obtain ⟨n, out, h1, -, h3, h4⟩ := rtoa_room text junk md (-1) fmt hfmt buf
  obtain ⟨n', out', e1, e2, -, h5, -⟩ := C121_snprintf_partial ctext (-1) fmt (minus neg ++ w) buf (by decide) (by decide) (by rw [if_pos rfl, hc]) (by omega)
  rw [if_pos rfl, ht] at h3 h4
  have h3 := h3 (by omega)
  have h5 := h5 (by omega)
  subst h3
  obtain ⟨rfl, h6⟩ := h5
  obtain ⟨r, hr⟩ := (h4 (by omega)).2
  refine ⟨_, out, out', h1, e2, e1, by rw [← hr, List.take_left], by rw [h6]; unfold overwrite; rw [List.append_assoc, List.take_left], ?_⟩
  have same : ∀ x : List Nat, SameWord x x := fun x => List.forall₂_same.2 fun _ _ => Or.inl rfl
  rcases hw with rfl | rfl
  · rw [if_pos rfl]
    exact (C116_words hf fpu neg _ v).1 (Or.inl (same _))
  · rw [if_neg (by decide)]
    exact (C116_words hf fpu neg _ v).2 (same _)

/-- The number 16777217 as `%g` gives it. -/
def sixDigits : Decimal := ⟨false, S "1", some (S "67772"), some (101, some 43, S "07")⟩

/-- C124 does not hold in general (1).  Without `std::to_chars`, what is written without precision has six digits: 16777217 (the bits 0x4170000010000000) is written as 1.67772e+07 and read
as 16777200 (0x416ffffe00000000), with success. -/
theorem C124_refuted (fpu : Fpu) (v : Rat) : ∃ text : PrintfText, text none (printfLetter .flex) = sixDigits.text ∧ binary64.val 0x4170000010000000 = 16777217 ∧
    SignificantDigits 6 (binary64.val 0x4170000010000000) sixDigits ∧
    ∀ buf : List Nat, 12 ≤ buf.length → ∃ out, dtoaC text (-1) .flex buf = .ok (11, out) ∧
      atof dbl fpu (out.take 11) v = .ok (true, .dec (some (.bits 0x416ffffe00000000))) := by
  refine ⟨fun _ _ => sixDigits.text, rfl, by decide +kernel, ⟨7, by decide +kernel, by decide +kernel, by decide +kernel⟩, fun buf hb => ?_⟩
  obtain ⟨n, out, -, e2, -, h5, -⟩ := C121_snprintf_partial (fun _ _ => sixDigits.text) (-1) .flex sixDigits.text buf (by decide) (by decide) rfl (by decide)
  have hl : sixDigits.text.length = 11 := by decide
  obtain ⟨rfl, h6⟩ := h5 (by omega)
  rw [hl] at e2
  refine ⟨out, e2, ?_⟩
  rw [h6, ← hl]
  unfold overwrite
  rw [List.append_assoc, List.take_left]
  refine atof_nearest (Or.inl ⟨rfl, rfl⟩) fpu sixDigits v ⟨by decide, by decide, ?_⟩ (Or.inl (by decide)) ?_ (by decide +kernel) (by decide)
  · intro e sg ds h
    cases h
    exact ⟨Or.inl rfl, Or.inr (Or.inl rfl), by decide, by decide⟩
  · have : sixDigits.mag = binary64.val 0x416ffffe00000000 := by decide +kernel
    rw [this]
    exact nearest_self binary64 (by decide +kernel)

/-- C124 does not hold in general (2).  With `std::to_chars`, a negative number in hexadecimal format is written with the minus sign after the prefix, and this is not read.
Of the others, 2 is written as 0x1p+1, and read as 16 even if the variable read into is 0 before. -/
theorem C124_hex_refuted (f : Fmt) (fpu : Fpu) (v : Rat) (junk : Nat → Nat) (md : Nat) (buf : List Nat) (hb : 9 ≤ buf.length) :
    (∃ out r, rtoa (fun _ _ => S "-1.8p+0") junk md (-1) .hexa buf = .ok (9, out) ∧ out.take 9 = S "0x-1.8p+0" ∧ atof f fpu (out.take 9) v = .ok (false, r)) ∧
    (∃ out, rtoa (fun _ _ => S "1p+1") junk md (-1) .hexa buf = .ok (6, out) ∧ out.take 6 = S "0x1p+1" ∧ atof f fpu (out.take 6) 0 = .ok (true, .hex 16)) := by
  constructor
  · obtain ⟨n, out, h1, -, h2, -⟩ := C121_std_hex_partial (fun _ _ => S "-1.8p+0") junk md (-1) (S "-1.8p+0") buf rfl (by decide) (by omega)
    obtain ⟨rfl, h3⟩ := h2 hb
    have ht : out.take 9 = S "0x-1.8p+0" := by rw [h3]; rfl
    refine ⟨out, .hex v, h1, ht, ?_⟩
    rw [ht]
    have h : atofHex (S "0x-1.8p+0") v = .ok (some (false, v)) := rfl
    unfold atof
    rw [h]
    rfl
  · obtain ⟨n, out, h1, -, h2, -⟩ := C121_std_hex_partial (fun _ _ => S "1p+1") junk md (-1) (S "1p+1") buf rfl (by decide) (by omega)
    obtain ⟨rfl, h3⟩ := h2 (Nat.le_trans (by decide) hb)
    have ht : out.take 6 = S "0x1p+1" := by rw [h3]; rfl
    refine ⟨out, h1, ht, ?_⟩
    rw [ht]
    have h : atofHex (S "0x1p+1") 0 = .ok (some (true, 16)) := by decide +kernel
    unfold atof
    rw [h]
    rfl

end C4
