import Verif.Base64
import Verif.Spec.Base64
import Verif.Spec.Format
import Verif.Props.SubstrCompare
/-
Properties C56-C59, C86: base64.
-/
namespace C4
open Spec

/-! ### Appending -/

theorem stamp_length (t buf : List Nat) : (stamp t buf).length = buf.length := by
  simp [stamp]; omega

theorem stamp_nil (buf : List Nat) : stamp [] buf = buf := by simp [stamp]

theorem stamp_fits {t buf : List Nat} (h : t.length ≤ buf.length) : stamp t buf = overwrite t buf := by
  simp [stamp, overwrite, List.take_of_length_le h]

theorem stamp_full {t buf : List Nat} (h : buf.length ≤ t.length) : stamp t buf = t.take buf.length := by
  simp [stamp, List.drop_eq_nil_of_le h]

theorem bAppend_stamp (acc buf : List Nat) (c : Nat) :
    bAppend (stamp acc buf, acc.length) c = .ok (stamp (acc ++ [c]) buf, (acc ++ [c]).length) := by
  unfold bAppend
  simp only [stamp_length]
  by_cases h : acc.length < buf.length
  · rw [if_pos h, stamp_fits (by omega), stamp_fits (by simp; omega)]
    obtain ⟨x, hx⟩ : ∃ x, buf.drop acc.length = x :: buf.drop (acc.length + 1) :=
      ⟨_, List.drop_eq_getElem_cons h⟩
    unfold overwrite
    rw [hx, wr_append_left, Res.ok_bind]
    simp
  · rw [if_neg h, stamp_full (by omega), stamp_full (by simp; omega), List.take_append_of_le_length (by omega)]
    simp

theorem sextetToChar_get : ∀ i, i < 64 → sextetToChar[i]? = some (letter i) := by decide +kernel

theorem bAppendIdx_stamp (acc buf : List Nat) {i : Nat} (h : i < 64) :
    bAppendIdx (stamp acc buf, acc.length) i = .ok (stamp (acc ++ [letter i]) buf, (acc ++ [letter i]).length) := by
  unfold bAppendIdx
  rw [rd_some (sextetToChar_get i h), Res.ok_bind, bAppend_stamp]

/-! ### Arithmetic of the groups -/

theorem val3 {d0 d1 d2 : Nat} (h1 : d1 < 256) (h2 : d2 < 256) :
    (d0 <<< 16) ||| (d1 <<< 8) ||| d2 = d0 * 65536 + d1 * 256 + d2 := by
  have e1 : (d0 <<< 16) ||| (d1 <<< 8) = (d0 <<< 16) + (d1 <<< 8) :=
    (Nat.shiftLeft_add_eq_or_of_lt (by rw [Nat.shiftLeft_eq]; omega) d0).symm
  have e2 : (d0 <<< 16) + (d1 <<< 8) = (d0 * 256 + d1) <<< 8 := by simp only [Nat.shiftLeft_eq]; omega
  rw [e1, e2, ← Nat.shiftLeft_add_eq_or_of_lt (by omega), Nat.shiftLeft_eq]; omega

theorem and_63 (a : Nat) : a &&& 63 = a % 64 := Nat.and_two_pow_sub_one_eq_mod a 6
theorem and_255 (a : Nat) : a &&& 255 = a % 256 := Nat.and_two_pow_sub_one_eq_mod a 8
theorem and_3 (a : Nat) : a &&& 3 = a % 4 := Nat.and_two_pow_sub_one_eq_mod a 2

theorem bits8 (v : Nat) : bits 8 v = [v / 128 % 2, v / 64 % 2, v / 32 % 2, v / 16 % 2, v / 8 % 2, v / 4 % 2, v / 2 % 2, v % 2] := by
  simp [bits]

theorem bits6 (v : Nat) : bits 6 v = [v / 32 % 2, v / 16 % 2, v / 8 % 2, v / 4 % 2, v / 2 % 2, v % 2] := by
  simp [bits]

theorem bv6 (a b c d e f : Nat) : bitsValue [a, b, c, d, e, f] 0 = 32 * a + 16 * b + 8 * c + 4 * d + 2 * e + f := by
  simp only [bitsValue]; omega

theorem sextets3 {d0 d1 d2 : Nat} (h0 : d0 < 256) (h1 : d1 < 256) (h2 : d2 < 256) (r : List Nat) :
    sextets (byteBits (d0 :: d1 :: d2 :: r)) =
      d0 / 4 :: (d0 % 4 * 16 + d1 / 16) :: (d1 % 16 * 4 + d2 / 64) :: d2 % 64 :: sextets (byteBits r) := by
  simp only [byteBits, List.map_cons, List.flatten_cons, bits8, List.cons_append, List.nil_append, sextets, bv6, List.cons.injEq, and_true]
  refine ⟨?_, ?_, ?_, ?_⟩ <;> omega

theorem sextets2 {d0 d1 : Nat} (h0 : d0 < 256) (h1 : d1 < 256) :
    sextets (byteBits [d0, d1]) = [d0 / 4, d0 % 4 * 16 + d1 / 16, d1 % 16 * 4] := by
  simp only [byteBits, List.map_cons, List.map_nil, List.flatten_cons, List.flatten_nil, bits8, List.cons_append, List.nil_append,
    List.append_nil, sextets, bv6, List.cons.injEq, and_true]
  refine ⟨?_, ?_, ?_⟩ <;> omega

theorem sextets1 {d0 : Nat} (h0 : d0 < 256) : sextets (byteBits [d0]) = [d0 / 4, d0 % 4 * 16] := by
  simp only [byteBits, List.map_cons, List.map_nil, List.flatten_cons, List.flatten_nil, bits8,
    List.append_nil, sextets, bv6, List.cons.injEq, and_true]
  refine ⟨?_, ?_⟩ <;> omega

theorem padText_quartet (a b c d : Nat) (t : List Nat) : padText (a :: b :: c :: d :: t) = a :: b :: c :: d :: padText t := by
  unfold padText
  have : (a :: b :: c :: d :: t).length % 4 = t.length % 4 := by simp only [List.length_cons]; omega
  rw [this]; simp

theorem base64Text3 {d0 d1 d2 : Nat} (h0 : d0 < 256) (h1 : d1 < 256) (h2 : d2 < 256) (r : List Nat) :
    base64Text (d0 :: d1 :: d2 :: r) =
      letter (d0 / 4) :: letter (d0 % 4 * 16 + d1 / 16) :: letter (d1 % 16 * 4 + d2 / 64) :: letter (d2 % 64) :: base64Text r := by
  unfold base64Text
  rw [sextets3 h0 h1 h2, List.map_cons, List.map_cons, List.map_cons, List.map_cons, padText_quartet]

theorem base64Text2 {d0 d1 : Nat} (h0 : d0 < 256) (h1 : d1 < 256) :
    base64Text [d0, d1] = [letter (d0 / 4), letter (d0 % 4 * 16 + d1 / 16), letter (d1 % 16 * 4), 61] := by
  unfold base64Text
  rw [sextets2 h0 h1]; rfl

theorem base64Text1 {d0 : Nat} (h0 : d0 < 256) : base64Text [d0] = [letter (d0 / 4), letter (d0 % 4 * 16), 61, 61] := by
  unfold base64Text
  rw [sextets1 h0]; rfl

/-! ### C56 -/

theorem encodeLoop_spec (data : List Nat) (hd : Bytes data) (acc buf : List Nat) :
    base64EncodeLoop data (stamp acc buf, acc.length) =
      .ok (stamp (acc ++ base64Text data) buf, (acc ++ base64Text data).length) := by
  match data, hd with
  | [], _ => simp [base64EncodeLoop, base64Text, byteBits, sextets, padText]
  | [d0], hd =>
    have h0 : d0 < 256 := hd d0 (by simp)
    rw [base64EncodeLoop, base64Text1 h0]
    have e1 : ((d0 <<< 16) >>> 18) &&& 63 = d0 / 4 := by
      rw [and_63, Nat.shiftRight_eq_div_pow, Nat.shiftLeft_eq]; omega
    have e2 : ((d0 <<< 16) >>> 12) &&& 63 = d0 % 4 * 16 := by
      rw [and_63, Nat.shiftRight_eq_div_pow, Nat.shiftLeft_eq]; omega
    simp only [e1, e2]
    rw [bAppendIdx_stamp _ _ (by omega), Res.ok_bind, bAppendIdx_stamp _ _ (by omega), Res.ok_bind,
      bAppend_stamp, Res.ok_bind, bAppend_stamp]
    simp
  | [d0, d1], hd =>
    have h0 : d0 < 256 := hd d0 (by simp)
    have h1 : d1 < 256 := hd d1 (by simp)
    rw [base64EncodeLoop, base64Text2 h0 h1]
    have ev : (d0 <<< 16) ||| (d1 <<< 8) = d0 * 65536 + d1 * 256 := by
      have := val3 (d0 := d0) (d1 := d1) (d2 := 0) h1 (by omega)
      simpa using this
    have e1 : ((d0 * 65536 + d1 * 256) >>> 18) &&& 63 = d0 / 4 := by
      rw [and_63, Nat.shiftRight_eq_div_pow]; omega
    have e2 : ((d0 * 65536 + d1 * 256) >>> 12) &&& 63 = d0 % 4 * 16 + d1 / 16 := by
      rw [and_63, Nat.shiftRight_eq_div_pow]; omega
    have e3 : ((d0 * 65536 + d1 * 256) >>> 6) &&& 63 = d1 % 16 * 4 := by
      rw [and_63, Nat.shiftRight_eq_div_pow]; omega
    simp only [ev, e1, e2, e3]
    rw [bAppendIdx_stamp _ _ (by omega), Res.ok_bind, bAppendIdx_stamp _ _ (by omega), Res.ok_bind,
      bAppendIdx_stamp _ _ (by omega), Res.ok_bind, bAppend_stamp]
    simp
  | d0 :: d1 :: d2 :: d, hd =>
    have h0 : d0 < 256 := hd d0 (by simp)
    have h1 : d1 < 256 := hd d1 (by simp)
    have h2 : d2 < 256 := hd d2 (by simp)
    have ih := encodeLoop_spec d (fun c hc => hd c (by simp [hc]))
      (acc ++ [letter (d0 / 4)] ++ [letter (d0 % 4 * 16 + d1 / 16)] ++ [letter (d1 % 16 * 4 + d2 / 64)] ++ [letter (d2 % 64)]) buf
    rw [base64EncodeLoop, base64Text3 h0 h1 h2]
    have ev := val3 (d0 := d0) h1 h2
    have e1 : ((d0 * 65536 + d1 * 256 + d2) >>> 18) &&& 63 = d0 / 4 := by
      rw [and_63, Nat.shiftRight_eq_div_pow]; omega
    have e2 : ((d0 * 65536 + d1 * 256 + d2) >>> 12) &&& 63 = d0 % 4 * 16 + d1 / 16 := by
      rw [and_63, Nat.shiftRight_eq_div_pow]; omega
    have e3 : ((d0 * 65536 + d1 * 256 + d2) >>> 6) &&& 63 = d1 % 16 * 4 + d2 / 64 := by
      rw [and_63, Nat.shiftRight_eq_div_pow]; omega
    have e4 : (d0 * 65536 + d1 * 256 + d2) &&& 63 = d2 % 64 := by
      rw [and_63]; omega
    simp only [ev, e1, e2, e3, e4]
    rw [bAppendIdx_stamp _ _ (by omega), Res.ok_bind, bAppendIdx_stamp _ _ (by omega), Res.ok_bind,
      bAppendIdx_stamp _ _ (by omega), Res.ok_bind, bAppendIdx_stamp _ _ (by omega), Res.ok_bind, ih]
    simp

/-- **C56**: for every byte string and every buffer, `base64_encode` returns the length of the RFC 4648 encoding and stores as
much of it as fits, nothing outside the buffer. -/
theorem C56_encode (data : List Nat) (hd : Bytes data) (buf : List Nat) :
    base64Encode data buf = .ok ((base64Text data).length, stamp (base64Text data) buf) := by
  unfold base64Encode
  have := encodeLoop_spec data hd [] buf
  rw [stamp_nil] at this
  simp only [List.length_nil, List.nil_append] at this
  rw [this, Res.ok_bind]

/-- **C56**: it is a bounded writer in the sense of the formatting functions (`to_chars(buf, fmt::base64(v))`). -/
theorem C56_writer (data : List Nat) (hd : Bytes data) : Writes (base64Encode data) (base64Text data) := by
  intro buf
  exact ⟨_, C56_encode data hd buf, stamp_length _ _, fun h => stamp_fits h⟩

/-- **C56**: the size is four characters for every three bytes or part of them. -/
theorem C56_size (data : List Nat) (hd : Bytes data) : (base64Text data).length = 4 * ((data.length + 2) / 3) := by
  match data, hd with
  | [], _ => rfl
  | [d0], hd => rw [base64Text1 (hd d0 (by simp))]; simp
  | [d0, d1], hd => rw [base64Text2 (hd d0 (by simp)) (hd d1 (by simp))]; simp
  | d0 :: d1 :: d2 :: d, hd =>
    rw [base64Text3 (hd d0 (by simp)) (hd d1 (by simp)) (hd d2 (by simp))]
    have := C56_size d (fun c hc => hd c (by simp [hc]))
    simp only [List.length_cons, this]
    omega

example : base64Text (S "Many hands") = S "TWFueSBoYW5kcw==" := by decide +kernel
example : base64Encode (S "Many") (S "......") = .ok (8, S "TWFueQ") := by decide +kernel

/-! ### Decoding -/

theorem charToSextet_letter : ∀ i, i < 64 → charToSextet[letter i]? = some i := by decide +kernel
theorem letter_ne_pad : ∀ i, i < 64 → letter i ≠ 61 := by decide +kernel
theorem letter_lt : ∀ i, i < 64 → letter i < 128 := by decide +kernel
theorem charToSextet_some : ∀ c, c < 128 → c ≠ 61 → charToSextet[c]? ≠ some 255 → ∃ i, i < 64 ∧ letter i = c := by
  decide +kernel

theorem bVal_letter (sgn : Bool) (val shift : Nat) {i : Nat} (h : i < 64) (hs : shift ≤ 3) :
    bVal sgn val (letter i) shift = .ok (val ||| i * 2 ^ (shift * 6)) := by
  unfold bVal
  rw [rd_some (charToSextet_letter i h), Res.ok_bind]
  have hn : ¬ (sgn = true ∧ i ≥ 128) := by omega
  simp only [if_neg hn, Nat.shiftLeft_eq]
  have hlt : i * 2 ^ (shift * 6) < 2 ^ 32 := by
    have h1 : 2 ^ (shift * 6) ≤ 2 ^ 18 := Nat.pow_le_pow_right (by omega) (by omega)
    have : i * 2 ^ (shift * 6) ≤ 63 * 2 ^ 18 := Nat.mul_le_mul (by omega) h1
    omega
  rw [Nat.mod_eq_of_lt hlt]

theorem or_add {a b k : Nat} (h : b < 2 ^ k) : b ||| a * 2 ^ k = a * 2 ^ k + b := by
  have := Nat.shiftLeft_add_eq_or_of_lt h a
  rw [Nat.shiftLeft_eq] at this
  rw [this, Nat.or_comm]

theorem decodeLoop_quartet (sgn : Bool) {a b c d : Nat} (ha : a < 64) (hb : b < 64) (hc : c < 64) (hd : d < 64)
    (r acc buf : List Nat) :
    base64DecodeLoop sgn (letter a :: letter b :: letter c :: letter d :: r) (stamp acc buf, acc.length) =
      base64DecodeLoop sgn r (stamp (acc ++ [a * 4 + b / 16, b % 16 * 16 + c / 4, c % 4 * 64 + d]) buf,
        (acc ++ [a * 4 + b / 16, b % 16 * 16 + c / 4, c % 4 * 64 + d]).length) := by
  rw [base64DecodeLoop, if_neg (by simp [letter_ne_pad c hc, letter_ne_pad d hd])]
  rw [bVal_letter sgn _ _ hd (by omega), Res.ok_bind, bVal_letter sgn _ _ hc (by omega), Res.ok_bind,
    bVal_letter sgn _ _ hb (by omega), Res.ok_bind, bVal_letter sgn _ _ ha (by omega), Res.ok_bind]
  have ev : (((0 ||| d * 2 ^ (0 * 6)) ||| c * 2 ^ (1 * 6)) ||| b * 2 ^ (2 * 6)) ||| a * 2 ^ (3 * 6) =
      a * 262144 + b * 4096 + c * 64 + d := by
    have h1 : (0 ||| d * 2 ^ (0 * 6)) = d := by simp
    have h2 : d ||| c * 2 ^ (1 * 6) = c * 2 ^ (1 * 6) + d := or_add (by omega)
    have h3 : (c * 2 ^ (1 * 6) + d) ||| b * 2 ^ (2 * 6) = b * 2 ^ (2 * 6) + (c * 2 ^ (1 * 6) + d) := or_add (by omega)
    have h4 : (b * 2 ^ (2 * 6) + (c * 2 ^ (1 * 6) + d)) ||| a * 2 ^ (3 * 6) =
        a * 2 ^ (3 * 6) + (b * 2 ^ (2 * 6) + (c * 2 ^ (1 * 6) + d)) := or_add (by omega)
    rw [h1, h2, h3, h4]
    omega
  rw [ev]
  have e1 : ((a * 262144 + b * 4096 + c * 64 + d) >>> 16) &&& 255 = a * 4 + b / 16 := by
    rw [and_255, Nat.shiftRight_eq_div_pow]; omega
  have e2 : ((a * 262144 + b * 4096 + c * 64 + d) >>> 8) &&& 255 = b % 16 * 16 + c / 4 := by
    rw [and_255, Nat.shiftRight_eq_div_pow]; omega
  have e3 : (a * 262144 + b * 4096 + c * 64 + d) &&& 255 = c % 4 * 64 + d := by
    rw [and_255]; omega
  rw [e1, e2, e3, bAppend_stamp, Res.ok_bind, bAppend_stamp, Res.ok_bind, bAppend_stamp, Res.ok_bind]
  simp

theorem decodeTail_pad1 (sgn : Bool) {a b c : Nat} (ha : a < 64) (hb : b < 64) (hc : c < 64) (acc buf : List Nat) :
    base64DecodeTail sgn [letter a, letter b, letter c, 61] (stamp acc buf, acc.length) =
      .ok (stamp (acc ++ [a * 4 + b / 16, b % 16 * 16 + c / 4]) buf, (acc ++ [a * 4 + b / 16, b % 16 * 16 + c / 4]).length) := by
  unfold base64DecodeTail
  rw [if_neg (by simp), rd_some (c := letter c) (by rfl), Res.ok_bind, rd_some (c := 61) (by rfl), Res.ok_bind,
    rd_some (c := letter b) (by rfl), Res.ok_bind, rd_some (c := letter a) (by rfl), Res.ok_bind,
    if_neg (letter_ne_pad c hc), if_pos rfl,
    bVal_letter sgn _ _ hc (by omega), Res.ok_bind,
    bVal_letter sgn _ _ hb (by omega), Res.ok_bind, bVal_letter sgn _ _ ha (by omega), Res.ok_bind]
  have ev : ((0 ||| c * 2 ^ (1 * 6)) ||| b * 2 ^ (2 * 6)) ||| a * 2 ^ (3 * 6) =
      a * 262144 + b * 4096 + c * 64 := by
    have h1 : (0 ||| c * 2 ^ (1 * 6)) = c * 2 ^ (1 * 6) := Nat.zero_or _
    have h3 : (c * 2 ^ (1 * 6)) ||| b * 2 ^ (2 * 6) = b * 2 ^ (2 * 6) + c * 2 ^ (1 * 6) := or_add (by omega)
    have h4 : (b * 2 ^ (2 * 6) + c * 2 ^ (1 * 6)) ||| a * 2 ^ (3 * 6) =
        a * 2 ^ (3 * 6) + (b * 2 ^ (2 * 6) + c * 2 ^ (1 * 6)) := or_add (by omega)
    rw [h1, h3, h4]
    omega
  rw [ev]
  have e1 : ((a * 262144 + b * 4096 + c * 64) >>> 16) &&& 255 = a * 4 + b / 16 := by
    rw [and_255, Nat.shiftRight_eq_div_pow]; omega
  have e2 : ((a * 262144 + b * 4096 + c * 64) >>> 8) &&& 255 = b % 16 * 16 + c / 4 := by
    rw [and_255, Nat.shiftRight_eq_div_pow]; omega
  rw [e1, e2, bAppend_stamp, Res.ok_bind, bAppend_stamp]
  simp

theorem decodeTail_pad2 (sgn : Bool) {a b : Nat} (ha : a < 64) (hb : b < 64) (acc buf : List Nat) :
    base64DecodeTail sgn [letter a, letter b, 61, 61] (stamp acc buf, acc.length) =
      .ok (stamp (acc ++ [a * 4 + b / 16]) buf, (acc ++ [a * 4 + b / 16]).length) := by
  unfold base64DecodeTail
  rw [if_neg (by simp), rd_some (c := 61) (by rfl), Res.ok_bind, rd_some (c := 61) (by rfl), Res.ok_bind,
    rd_some (c := letter b) (by rfl), Res.ok_bind, rd_some (c := letter a) (by rfl), Res.ok_bind, if_pos rfl,
    bVal_letter sgn _ _ hb (by omega), Res.ok_bind, bVal_letter sgn _ _ ha (by omega), Res.ok_bind]
  have ev : (0 ||| b * 2 ^ (2 * 6)) ||| a * 2 ^ (3 * 6) = a * 262144 + b * 4096 := by
    have h1 : (0 ||| b * 2 ^ (2 * 6)) = b * 2 ^ (2 * 6) := Nat.zero_or _
    have h4 : (b * 2 ^ (2 * 6)) ||| a * 2 ^ (3 * 6) = a * 2 ^ (3 * 6) + b * 2 ^ (2 * 6) := or_add (by omega)
    rw [h1, h4]
  rw [ev]
  have e1 : ((a * 262144 + b * 4096) >>> 16) &&& 255 = a * 4 + b / 16 := by
    rw [and_255, Nat.shiftRight_eq_div_pow]; omega
  rw [e1, bAppend_stamp]

/-- Loop and final quartet. -/
def decodeFrom (sgn : Bool) (s : List Nat) (st : BufPos) : Res BufPos := do
  let (d, st) ← base64DecodeLoop sgn s st
  base64DecodeTail sgn d st

theorem base64Decode_eq (sgn : Bool) (s buf : List Nat) (h : s.length % 4 = 0) :
    base64Decode sgn s buf = (decodeFrom sgn s (buf, 0) >>= fun st => .ok (st.2, st.1)) := by
  unfold base64Decode decodeFrom
  rw [and_3, if_pos h, Res.bind_assoc]

/-! ### C86: decoding of well formed texts -/

theorem letter_inj : ∀ i, i < 64 → ∀ j, j < 64 → letter i = letter j → i = j := by decide +kernel

theorem letters_inj {l l' : List Nat} (h : ∀ i ∈ l, i < 64) (h' : ∀ i ∈ l', i < 64) (e : l.map letter = l'.map letter) : l = l' := by
  induction l generalizing l' with
  | nil => cases l' with
    | nil => rfl
    | cons _ _ => cases e
  | cons x l ih => cases l' with
    | nil => cases e
    | cons y l' =>
      simp only [List.map_cons, List.cons.injEq] at e
      rw [letter_inj x (h x (by simp)) y (h' y (by simp)) e.1,
        ih (fun i hi => h i (by simp [hi])) (fun i hi => h' i (by simp [hi])) e.2]

theorem padText_filter {l : List Nat} (h : ∀ i ∈ l, i < 64) : (padText (l.map letter)).filter (· ≠ 61) = l.map letter := by
  unfold padText
  rw [List.filter_append, List.filter_eq_self.mpr, List.filter_eq_nil_iff.mpr]
  · simp
  · intro c hc
    rw [List.mem_replicate] at hc
    simp [hc.2]
  · intro c hc
    obtain ⟨i, hi, rfl⟩ := List.mem_map.mp hc
    simpa using letter_ne_pad i (h i hi)

theorem byteBits_length (d : List Nat) : (byteBits d).length = 8 * d.length := by
  induction d with
  | nil => rfl
  | cons x d ih =>
    have : byteBits (x :: d) = bits 8 x ++ byteBits d := by simp [byteBits]
    rw [this, List.length_append, ih, bits8]; simp; omega

theorem byteBits_inj {d d' : List Nat} (h : Bytes d) (h' : Bytes d') (e : byteBits d = byteBits d') : d = d' := by
  induction d generalizing d' with
  | nil =>
    have := congrArg List.length e
    rw [byteBits_length, byteBits_length] at this
    cases d' with
    | nil => rfl
    | cons _ _ => simp at this
  | cons x d ih =>
    have hl := congrArg List.length e
    rw [byteBits_length, byteBits_length] at hl
    cases d' with
    | nil => simp at hl
    | cons y d' =>
      have hx : x < 256 := h x (by simp)
      have hy : y < 256 := h' y (by simp)
      have e1 : byteBits (x :: d) = bits 8 x ++ byteBits d := by simp [byteBits]
      have e2 : byteBits (y :: d') = bits 8 y ++ byteBits d' := by simp [byteBits]
      rw [e1, e2] at e
      obtain ⟨e3, e4⟩ := List.append_inj e (by rw [bits8, bits8]; rfl)
      rw [ih (fun i hi => h i (by simp [hi])) (fun i hi => h' i (by simp [hi])) e4]
      rw [bits8, bits8] at e3
      simp only [List.cons.injEq, and_true] at e3
      congr 1
      omega

/-- A text stands for at most one byte string. -/
theorem Spec.DecodesTo.unique {t d d' : List Nat} (h : DecodesTo t d) (h' : DecodesTo t d') : d = d' := by
  obtain ⟨hb, idx, sl, h1, h2, h3, h4⟩ := h
  obtain ⟨hb', idx', sl', h1', h2', h3', h4'⟩ := h'
  have : idx = idx' := by
    refine letters_inj h1 h1' ?_
    rw [← padText_filter h1, ← padText_filter h1', ← h2, ← h2']
  subst this
  rw [h4] at h4'
  have hl := congrArg List.length h4'
  simp only [List.length_append, byteBits_length] at hl
  have hn : d.length = d'.length := by omega
  exact byteBits_inj hb hb' (List.append_inj h4' (by rw [byteBits_length, byteBits_length, hn])).1

theorem quartet_bits {a b c d : Nat} (hb : b < 64) (hc : c < 64) (hd : d < 64) :
    bits 6 a ++ bits 6 b ++ bits 6 c ++ bits 6 d =
      bits 8 (a * 4 + b / 16) ++ bits 8 (b % 16 * 16 + c / 4) ++ bits 8 (c % 4 * 64 + d) := by
  simp only [bits6, bits8, List.cons_append, List.nil_append, List.cons.injEq, and_true]
  refine ⟨?_, ?_, ?_, ?_, ?_, ?_, ?_, ?_, ?_, ?_, ?_, ?_, ?_, ?_, ?_, ?_, ?_, ?_, ?_, ?_, ?_, ?_, ?_, ?_⟩ <;> omega

theorem decodesTo_quartet {a b c d : Nat} (ha : a < 64) (hb : b < 64) (hc : c < 64) (hd : d < 64) {t data : List Nat}
    (h : DecodesTo t data) :
    DecodesTo (letter a :: letter b :: letter c :: letter d :: t)
      ([a * 4 + b / 16, b % 16 * 16 + c / 4, c % 4 * 64 + d] ++ data) := by
  obtain ⟨hB, idx, sl, h1, h2, h3, h4⟩ := h
  refine ⟨?_, a :: b :: c :: d :: idx, sl, ?_, ?_, h3, ?_⟩
  · intro x hx
    simp only [List.cons_append, List.nil_append, List.mem_cons] at hx
    rcases hx with rfl | rfl | rfl | hx
    · omega
    · omega
    · omega
    · exact hB x hx
  · intro i hi
    simp only [List.mem_cons] at hi
    rcases hi with rfl | rfl | rfl | rfl | hi
    · exact ha
    · exact hb
    · exact hc
    · exact hd
    · exact h1 i hi
  · rw [List.map_cons, List.map_cons, List.map_cons, List.map_cons, padText_quartet, ← h2]
  · have e : byteBits ([a * 4 + b / 16, b % 16 * 16 + c / 4, c % 4 * 64 + d] ++ data) =
        bits 8 (a * 4 + b / 16) ++ bits 8 (b % 16 * 16 + c / 4) ++ bits 8 (c % 4 * 64 + d) ++ byteBits data := by
      simp [byteBits]
    rw [e, ← quartet_bits hb hc hd]
    simp only [List.map_cons, List.flatten_cons, h4, List.append_assoc]

theorem decodesTo_pad1 {a b c : Nat} (ha : a < 64) (hb : b < 64) (hc : c < 64) :
    DecodesTo [letter a, letter b, letter c, 61] [a * 4 + b / 16, b % 16 * 16 + c / 4] := by
  refine ⟨?_, [a, b, c], [c / 2 % 2, c % 2], ?_, rfl, by simp, ?_⟩
  · intro x hx
    simp at hx
    omega
  · intro i hi; simp at hi; omega
  · simp only [byteBits, List.map_cons, List.map_nil, List.flatten_cons, List.flatten_nil, List.append_nil, bits6, bits8,
      List.cons_append, List.nil_append, List.cons.injEq, and_true]
    refine ⟨?_, ?_, ?_, ?_, ?_, ?_, ?_, ?_, ?_, ?_, ?_, ?_, ?_, ?_, ?_, ?_⟩ <;> omega

theorem decodesTo_pad2 {a b : Nat} (ha : a < 64) (hb : b < 64) : DecodesTo [letter a, letter b, 61, 61] [a * 4 + b / 16] := by
  refine ⟨?_, [a, b], [b / 8 % 2, b / 4 % 2, b / 2 % 2, b % 2], ?_, rfl, by simp, ?_⟩
  · intro x hx
    simp at hx
    omega
  · intro i hi; simp at hi; omega
  · simp only [byteBits, List.map_cons, List.map_nil, List.flatten_cons, List.flatten_nil, List.append_nil, bits6, bits8,
      List.cons_append, List.nil_append, List.cons.injEq, and_true]
    refine ⟨?_, ?_, ?_, ?_, ?_, ?_, ?_, ?_⟩ <;> omega

theorem decodeFrom_wf (sgn : Bool) {t : List Nat} (h : Base64WF t) :
    ∃ data, DecodesTo t data ∧ ∀ acc buf, decodeFrom sgn t (stamp acc buf, acc.length) =
      .ok (stamp (acc ++ data) buf, (acc ++ data).length) := by
  induction h with
  | nil =>
    refine ⟨[], ⟨fun x hx => by simp at hx, [], [], by simp, rfl, by simp, rfl⟩, fun acc buf => ?_⟩
    simp [decodeFrom, base64DecodeLoop, base64DecodeTail]
  | pad1 ha hb hc =>
    obtain ⟨a, ha, rfl⟩ := ha
    obtain ⟨b, hb, rfl⟩ := hb
    obtain ⟨c, hc, rfl⟩ := hc
    refine ⟨_, decodesTo_pad1 ha hb hc, fun acc buf => ?_⟩
    unfold decodeFrom
    rw [base64DecodeLoop, if_pos (.inr rfl), Res.ok_bind]
    exact decodeTail_pad1 sgn ha hb hc acc buf
  | pad2 ha hb =>
    obtain ⟨a, ha, rfl⟩ := ha
    obtain ⟨b, hb, rfl⟩ := hb
    refine ⟨_, decodesTo_pad2 ha hb, fun acc buf => ?_⟩
    unfold decodeFrom
    rw [base64DecodeLoop, if_pos (.inr rfl), Res.ok_bind]
    exact decodeTail_pad2 sgn ha hb acc buf
  | quartet ha hb hc hd _ ih =>
    obtain ⟨a, ha, rfl⟩ := ha
    obtain ⟨b, hb, rfl⟩ := hb
    obtain ⟨c, hc, rfl⟩ := hc
    obtain ⟨d, hd, rfl⟩ := hd
    obtain ⟨data, h1, h2⟩ := ih
    refine ⟨_, decodesTo_quartet ha hb hc hd h1, fun acc buf => ?_⟩
    unfold decodeFrom
    rw [decodeLoop_quartet sgn ha hb hc hd]
    have := h2 (acc ++ [a * 4 + b / 16, b % 16 * 16 + c / 4, c % 4 * 64 + d]) buf
    unfold decodeFrom at this
    rw [this]
    simp

theorem wf_length {t : List Nat} (h : Base64WF t) : t.length % 4 = 0 := by
  induction h with
  | nil => rfl
  | pad1 => simp
  | pad2 => simp
  | quartet _ _ _ _ _ ih => simp only [List.length_cons]; omega

/-- **C86**: for every well formed text there is exactly one byte string it stands for; `base64_decode` returns its length and
stores as much of it as fits in the buffer. -/
theorem C86_decode (sgn : Bool) {t : List Nat} (h : Base64WF t) :
    ∃ data, DecodesTo t data ∧ (∀ d, DecodesTo t d → d = data) ∧
      ∀ buf, base64Decode sgn t buf = .ok (data.length, stamp data buf) := by
  obtain ⟨data, h1, h2⟩ := decodeFrom_wf sgn h
  refine ⟨data, h1, fun d hd => hd.unique h1, fun buf => ?_⟩
  rw [base64Decode_eq sgn t buf (wf_length h)]
  have := h2 [] buf
  rw [stamp_nil] at this
  simp only [List.length_nil, List.nil_append] at this
  rw [this, Res.ok_bind]

example : Base64WF (S "TWFuTR==") := by
  rw [show S "TWFuTR==" = [letter 19, letter 22, letter 5, letter 46, letter 19, letter 17, 61, 61] by decide +kernel]
  exact .quartet ⟨_, by omega, rfl⟩ ⟨_, by omega, rfl⟩ ⟨_, by omega, rfl⟩ ⟨_, by omega, rfl⟩
    (.pad2 ⟨_, by omega, rfl⟩ ⟨_, by omega, rfl⟩)
example : base64Decode true (S "TWFuTR==") (S "...") = .ok (4, S "Man") := by decide +kernel

/-! ### C57 -/

theorem encode_wf (data : List Nat) (hd : Bytes data) : Base64WF (base64Text data) := by
  match data, hd with
  | [], _ => exact .nil
  | [d0], hd =>
    have h0 : d0 < 256 := hd d0 (by simp)
    rw [base64Text1 h0]; exact .pad2 ⟨_, by omega, rfl⟩ ⟨_, by omega, rfl⟩
  | [d0, d1], hd =>
    have h0 : d0 < 256 := hd d0 (by simp)
    have h1 : d1 < 256 := hd d1 (by simp)
    rw [base64Text2 h0 h1]; exact .pad1 ⟨_, by omega, rfl⟩ ⟨_, by omega, rfl⟩ ⟨_, by omega, rfl⟩
  | d0 :: d1 :: d2 :: d, hd =>
    have h0 : d0 < 256 := hd d0 (by simp)
    have h1 : d1 < 256 := hd d1 (by simp)
    have h2 : d2 < 256 := hd d2 (by simp)
    rw [base64Text3 h0 h1 h2]
    exact .quartet ⟨_, by omega, rfl⟩ ⟨_, by omega, rfl⟩ ⟨_, by omega, rfl⟩ ⟨_, by omega, rfl⟩
      (encode_wf d (fun c hc => hd c (by simp [hc])))

theorem encode_decodesTo (data : List Nat) (hd : Bytes data) : DecodesTo (base64Text data) data := by
  match data, hd with
  | [], hd => exact ⟨hd, [], [], by simp, rfl, by simp, rfl⟩
  | [d0], hd =>
    have h0 : d0 < 256 := hd d0 (by simp)
    rw [base64Text1 h0]
    have := decodesTo_pad2 (a := d0 / 4) (b := d0 % 4 * 16) (by omega) (by omega)
    rwa [show d0 / 4 * 4 + d0 % 4 * 16 / 16 = d0 by omega] at this
  | [d0, d1], hd =>
    have h0 : d0 < 256 := hd d0 (by simp)
    have h1 : d1 < 256 := hd d1 (by simp)
    rw [base64Text2 h0 h1]
    have := decodesTo_pad1 (a := d0 / 4) (b := d0 % 4 * 16 + d1 / 16) (c := d1 % 16 * 4) (by omega) (by omega) (by omega)
    rwa [show d0 / 4 * 4 + (d0 % 4 * 16 + d1 / 16) / 16 = d0 by omega,
      show (d0 % 4 * 16 + d1 / 16) % 16 * 16 + d1 % 16 * 4 / 4 = d1 by omega] at this
  | d0 :: d1 :: d2 :: d, hd =>
    have h0 : d0 < 256 := hd d0 (by simp)
    have h1 : d1 < 256 := hd d1 (by simp)
    have h2 : d2 < 256 := hd d2 (by simp)
    rw [base64Text3 h0 h1 h2]
    have := decodesTo_quartet (a := d0 / 4) (b := d0 % 4 * 16 + d1 / 16) (c := d1 % 16 * 4 + d2 / 64) (d := d2 % 64)
      (by omega) (by omega) (by omega) (by omega) (encode_decodesTo d (fun c hc => hd c (by simp [hc])))
    rwa [show d0 / 4 * 4 + (d0 % 4 * 16 + d1 / 16) / 16 = d0 by omega,
      show (d0 % 4 * 16 + d1 / 16) % 16 * 16 + (d1 % 16 * 4 + d2 / 64) / 4 = d1 by omega,
      show (d1 % 16 * 4 + d2 / 64) % 4 * 64 + d2 % 64 = d2 by omega] at this

/-- `base64_valid` loop: exactly the texts of letters and `=`. -/
theorem validLoop_spec (sgn : Bool) (s : List Nat) (hs : ∀ c ∈ s, sgn = true ∨ c < 128) :
    ∃ r, base64ValidLoop sgn s = .ok r ∧ (r = true ↔ ∀ c ∈ s, Base64Char c ∨ c = 61) := by
  induction s with
  | nil => exact ⟨true, rfl, by simp⟩
  | cons c s ih =>
    obtain ⟨r, e, hr⟩ := ih fun c hc => hs c (by simp [hc])
    rw [base64ValidLoop]
    by_cases h1 : sgn = true ∧ c ≥ 128
    · rw [if_pos h1]
      refine ⟨false, rfl, by simp, fun h => ?_⟩
      rcases h c (by simp) with ⟨i, hi, rfl⟩ | h
      · have := letter_lt i hi; omega
      · omega
    · rw [if_neg h1]
      have hlt : c < 128 := by
        rcases hs c (by simp) with h | h
        · rw [h] at h1; simp at h1; exact h1
        · exact h
      by_cases h2 : c = 61
      · rw [if_pos h2]
        refine ⟨r, e, hr.trans ?_⟩
        simp [h2]
      · rw [if_neg h2]
        obtain ⟨x, hx⟩ : ∃ x, charToSextet[c]? = some x := ⟨_, List.getElem?_eq_getElem (by simpa [charToSextet] using hlt)⟩
        rw [rd_some hx, Res.ok_bind]
        by_cases h3 : x = 255
        · rw [if_pos h3]
          refine ⟨false, rfl, by simp, fun h => ?_⟩
          rcases h c (by simp) with ⟨i, hi, rfl⟩ | h
          · rw [charToSextet_letter i hi] at hx
            cases hx; omega
          · exact absurd h h2
        · rw [if_neg h3]
          refine ⟨r, e, hr.trans ?_⟩
          obtain ⟨i, hi, hl⟩ := charToSextet_some c hlt h2 (by rw [hx]; simpa using h3)
          have hB : Base64Char c := ⟨i, hi, hl.symm⟩
          simp [hB]

/-- **C59**, the part that holds: where `char` is signed (or for ASCII texts) `base64_valid` is true exactly for the texts of
letters and `=` whose length is a multiple of four.  (Missing: the place of the `=`, see `C59_refuted`.) -/
theorem C59_valid_partial (sgn : Bool) (s : List Nat) (hs : ∀ c ∈ s, sgn = true ∨ c < 128) :
    ∃ r, base64Valid sgn s = .ok r ∧ (r = true ↔ s.length % 4 = 0 ∧ ∀ c ∈ s, Base64Char c ∨ c = 61) := by
  unfold base64Valid
  rw [and_3]
  by_cases h : s.length % 4 = 0
  · rw [if_neg (by simpa using h)]
    obtain ⟨r, e, hr⟩ := validLoop_spec sgn s hs
    exact ⟨r, e, by simp [hr, h]⟩
  · rw [if_pos h]
    exact ⟨false, rfl, by simp [h]⟩

theorem wf_chars {t : List Nat} (h : Base64WF t) : ∀ c ∈ t, Base64Char c ∨ c = 61 := by
  induction h with
  | nil => simp
  | pad1 ha hb hc => intro x hx; simp at hx; rcases hx with rfl | rfl | rfl | rfl <;> simp [*]
  | pad2 ha hb => intro x hx; simp at hx; rcases hx with rfl | rfl | rfl <;> simp [*]
  | quartet ha hb hc hd _ ih =>
    intro x hx
    simp only [List.mem_cons] at hx
    rcases hx with rfl | rfl | rfl | rfl | hx
    · exact .inl ha
    · exact .inl hb
    · exact .inl hc
    · exact .inl hd
    · exact ih x hx

/-- **C59**: every well formed text is accepted. -/
theorem C59_accepts (sgn : Bool) {t : List Nat} (h : Base64WF t) : base64Valid sgn t = .ok true := by
  have hc := wf_chars h
  obtain ⟨r, e, hr⟩ := C59_valid_partial sgn t (fun c hx => by
    rcases hc c hx with ⟨i, hi, rfl⟩ | rfl
    · exact .inr (letter_lt i hi)
    · exact .inr (by omega))
  rw [e, hr.mpr ⟨wf_length h, hc⟩]

/-- **C57**: for every byte string, encoding into a buffer that is large enough and decoding the text into a buffer that is
large enough gives the bytes back, and the text is accepted by `base64_valid`. -/
theorem C57_roundtrip (sgn : Bool) (data : List Nat) (hd : Bytes data) (buf out : List Nat)
    (hb : 4 * ((data.length + 2) / 3) ≤ buf.length) (ho : data.length ≤ out.length) :
    ∃ n b, base64Encode data buf = .ok (n, b) ∧ base64Valid sgn (b.take n) = .ok true ∧
      base64Decode sgn (b.take n) out = .ok (data.length, overwrite data out) := by
  rw [C56_encode data hd]
  refine ⟨_, _, rfl, ?_⟩
  rw [stamp_fits (by rw [C56_size data hd]; exact hb), overwrite_take]
  refine ⟨C59_accepts sgn (encode_wf data hd), ?_⟩
  obtain ⟨d, _, h2, h3⟩ := C86_decode sgn (encode_wf data hd)
  rw [h3, ← h2 data (encode_decodesTo data hd), stamp_fits ho]

example : base64Decode true (S "TWFueSBoYW5kcw==") (S "...........") = .ok (10, S "Many hands.") := by decide +kernel

/-! ### C58 -/

theorem bVal_ascii (sgn : Bool) (val shift : Nat) {c : Nat} (h : c < 128) : ∃ v, bVal sgn val c shift = .ok v := by
  unfold bVal
  rw [rd_ok (show c < charToSextet.length by simpa [charToSextet] using h), Res.ok_bind]
  exact ⟨_, rfl⟩

theorem decodeLoop_ascii (sgn : Bool) (s : List Nat) (hs : ∀ c ∈ s, c < 128) (h4 : s.length % 4 = 0) :
    ∃ out d, (d = [] ∨ ∃ a b c e r, d = a :: b :: c :: e :: r ∧ a < 128 ∧ b < 128 ∧ c < 128) ∧
      ∀ acc buf, base64DecodeLoop sgn s (stamp acc buf, acc.length) = .ok (d, stamp (acc ++ out) buf, (acc ++ out).length) := by
  match s, hs, h4 with
  | [], _, _ => exact ⟨[], [], .inl rfl, fun acc buf => by simp [base64DecodeLoop]⟩
  | [_], _, h4 => simp at h4
  | [_, _], _, h4 => simp at h4
  | [_, _, _], _, h4 => simp at h4
  | a :: b :: c :: e :: r, hs, h4 =>
    by_cases h : c = 61 ∨ e = 61
    · refine ⟨[], a :: b :: c :: e :: r, .inr ⟨a, b, c, e, r, rfl, hs a (by simp), hs b (by simp), hs c (by simp)⟩, fun acc buf => ?_⟩
      rw [base64DecodeLoop, if_pos h]; simp
    · obtain ⟨v1, e1⟩ := bVal_ascii sgn 0 0 (hs e (by simp))
      obtain ⟨v2, e2⟩ := bVal_ascii sgn v1 1 (hs c (by simp))
      obtain ⟨v3, e3⟩ := bVal_ascii sgn v2 2 (hs b (by simp))
      obtain ⟨v4, e4⟩ := bVal_ascii sgn v3 3 (hs a (by simp))
      obtain ⟨out, d, hd, ih⟩ := decodeLoop_ascii sgn r (fun x hx => hs x (by simp [hx])) (by simp at h4; omega)
      refine ⟨[(v4 >>> 16) &&& 255, (v4 >>> 8) &&& 255, v4 &&& 255] ++ out, d, hd, fun acc buf => ?_⟩
      rw [base64DecodeLoop, if_neg h, e1, Res.ok_bind, e2, Res.ok_bind, e3, Res.ok_bind, e4, Res.ok_bind,
        bAppend_stamp, Res.ok_bind, bAppend_stamp, Res.ok_bind, bAppend_stamp, Res.ok_bind, ih]
      simp

theorem decodeTail_ascii (sgn : Bool) (d : List Nat)
    (hd : d = [] ∨ ∃ a b c e r, d = a :: b :: c :: e :: r ∧ a < 128 ∧ b < 128 ∧ c < 128) :
    ∃ out, ∀ acc buf, base64DecodeTail sgn d (stamp acc buf, acc.length) = .ok (stamp (acc ++ out) buf, (acc ++ out).length) := by
  unfold base64DecodeTail
  rcases hd with rfl | ⟨a, b, c, e, r, rfl, ha, hb, hc⟩
  · exact ⟨[], fun acc buf => by simp⟩
  · have hl : ¬ (a :: b :: c :: e :: r).length = 0 := by simp
    simp only [if_neg hl, rd, List.getElem?_cons_succ, List.getElem?_cons_zero, Res.ok_bind]
    by_cases h1 : c = 61
    · simp only [if_pos h1]
      obtain ⟨v1, e1⟩ := bVal_ascii sgn 0 2 hb
      obtain ⟨v2, e2⟩ := bVal_ascii sgn v1 3 ha
      refine ⟨[(v2 >>> 16) &&& 255], fun acc buf => ?_⟩
      rw [e1, Res.ok_bind, e2, Res.ok_bind, bAppend_stamp]
    · simp only [if_neg h1]
      by_cases h2 : e = 61
      · simp only [if_pos h2]
        obtain ⟨v1, e1⟩ := bVal_ascii sgn 0 1 hc
        obtain ⟨v2, e2⟩ := bVal_ascii sgn v1 2 hb
        obtain ⟨v3, e3⟩ := bVal_ascii sgn v2 3 ha
        refine ⟨[(v3 >>> 16) &&& 255, (v3 >>> 8) &&& 255], fun acc buf => ?_⟩
        rw [e1, Res.ok_bind, e2, Res.ok_bind, e3, Res.ok_bind, bAppend_stamp, Res.ok_bind, bAppend_stamp]
        simp
      · simp only [if_neg h2]
        exact ⟨[], fun acc buf => by simp⟩

/-- **C58**: for every ASCII text (not only valid ones) whose length is a multiple of four there is an output such that,
whatever the buffer, `base64_decode` returns the length of that output and stores as much of it as fits; for every other
length the error callback is called. -/
theorem C58_bounded (sgn : Bool) (s : List Nat) (hs : ∀ c ∈ s, c < 128) :
    (s.length % 4 = 0 → ∃ out, ∀ buf, base64Decode sgn s buf = .ok (out.length, stamp out buf)) ∧
    (s.length % 4 ≠ 0 → ∀ buf, base64Decode sgn s buf = .abort) := by
  refine ⟨fun h => ?_, fun h buf => ?_⟩
  · obtain ⟨o1, d, hd, h1⟩ := decodeLoop_ascii sgn s hs h
    obtain ⟨o2, h2⟩ := decodeTail_ascii sgn d hd
    refine ⟨o1 ++ o2, fun buf => ?_⟩
    rw [base64Decode_eq sgn s buf h]
    have := h1 [] buf
    rw [stamp_nil] at this
    simp only [List.length_nil, List.nil_append] at this
    unfold decodeFrom
    rw [this, Res.ok_bind]
    simp only [h2, Res.ok_bind]
  · unfold base64Decode
    rw [and_3, if_neg h]

/-- **C58** for the texts the assertion admits. -/
theorem C58_valid (sgn : Bool) (s : List Nat) (hv : base64Valid sgn s = .ok true) :
    ∃ out, ∀ buf, base64Decode sgn s buf = .ok (out.length, stamp out buf) := by
  have hlt : ∀ (s : List Nat), base64ValidLoop sgn s = .ok true → ∀ c ∈ s, c < 128 := by
    intro s
    induction s with
    | nil => simp
    | cons x s ih =>
      intro h c hc
      rw [base64ValidLoop] at h
      split at h
      · cases h
      · rename_i h1
        split at h
        · rename_i h2
          rcases List.mem_cons.mp hc with rfl | hc
          · omega
          · exact ih h c hc
        · by_cases hx : x < 128
          · rw [rd_ok (show x < charToSextet.length by simpa [charToSextet] using hx), Res.ok_bind] at h
            split at h
            · cases h
            · rcases List.mem_cons.mp hc with rfl | hc
              · exact hx
              · exact ih h c hc
          · rw [rd_ub (by simp [charToSextet]; omega)] at h
            cases h
  unfold base64Valid at hv
  rw [and_3] at hv
  split at hv
  · cases hv
  · rename_i h4
    exact (C58_bounded sgn s (hlt s hv)).1 (by simpa using h4)

example : base64Decode true (S "a=bcA===") (S "...") = .ok (4, [255, 246, 220]) := by decide +kernel

/-! ### C59 -/

theorem wf_four {a b c d : Nat} (h : Base64WF [a, b, c, d]) : a ≠ 61 ∧ b ≠ 61 := by
  have key : ∀ {x}, Base64Char x → x ≠ 61 := by rintro x ⟨i, hi, rfl⟩; exact letter_ne_pad i hi
  cases h with
  | pad1 ha hb _ => exact ⟨key ha, key hb⟩
  | pad2 ha hb => exact ⟨key ha, key hb⟩
  | quartet ha hb _ _ _ => exact ⟨key ha, key hb⟩

/-- **C59 is false**: padding is accepted anywhere. -/
theorem C59_refuted : ∃ s, base64Valid true s = .ok true ∧ ¬ Base64WF s :=
  ⟨S "====", by decide +kernel, fun h => (wf_four h).1 rfl⟩

/-- **C59 is false** where `char` is unsigned: a byte from 128 on is looked up outside the table. -/
theorem C59_refuted_unsigned : base64Valid false [65, 65, 65, 200] = .ub := by decide +kernel

end C4
