import Verif.Charconv.ReadLemmas
import Verif.Props.CharconvWrite
/-
Properties C10-C14: reading integers.
-/
namespace C4
open Spec

/-- A reading result `(returned bool, stored value, overflow flag)` is right for the set `D` of denoted
integers: true exactly if something is denoted, and then the stored value is it, modulo the type. -/
def Spec.Reads (t : ITy) (D : Int → Prop) (r : Bool × Int × Bool) : Prop :=
  (r.1 = true ↔ ∃ n, D n) ∧ ∀ n, D n → StoredAs t n r.2.1

/-- Denotation of digit strings as a set of integers. -/
def Spec.digitInt (b : Nat) (s : List Nat) (x : Int) : Prop := ∃ n : Nat, DigitText b s n ∧ x = n

/-- Denotation of unsigned texts as a set of integers. -/
def Spec.uintInt (s : List Nat) (x : Int) : Prop := ∃ n : Nat, UintDenotes s n ∧ x = n

theorem zero_stored (t : ITy) : StoredAs t 0 0 :=
  ⟨min_nonpos t, by have := max_pos t; omega, by simp⟩

theorem loop_reads {t : ITy} {b : Nat} {L : List Nat → Int → Bool → Bool × Int × Bool}
    (h : LoopOK t b L) {s : List Nat} (hs : s ≠ []) : Reads t (digitInt b s) (L s 0 false) := by
  by_cases hd : ∃ ds, IsDigits b s ds
  · obtain ⟨ds, hd⟩ := hd
    obtain ⟨v', o', h1, h2⟩ := h.digits hd 0 0 false (zero_stored t)
    rw [h1]
    refine ⟨by simp; exact ⟨_, _, ⟨hs, ds, hd, rfl⟩, rfl⟩, ?_⟩
    rintro x ⟨n, ⟨_, ds', hd', rfl⟩, rfl⟩
    rw [hd'.unique hd]
    exact h2
  · obtain ⟨v', o', h1⟩ := h.not_digits s 0 false (min_nonpos t) (by have := max_pos t; omega) hd
    rw [h1]
    refine ⟨⟨by simp, ?_⟩, ?_⟩
    · rintro ⟨_, n, ⟨_, ds, hd', _⟩, _⟩; exact absurd ⟨ds, hd'⟩ hd
    · rintro x ⟨n, ⟨_, ds, hd', _⟩, _⟩; exact absurd ⟨ds, hd'⟩ hd

/-! ### C10 -/

/-- C10: `read_dec` accepts exactly non-empty strings of decimal digits and stores the value modulo the type. -/
theorem C10_read_dec (t : ITy) (s : List Nat) (hs : s ≠ []) : Reads t (digitInt 10 s) (readDec t s) :=
  loop_reads (readDec_loop t) hs

/-- C10: `read_hex`. -/
theorem C10_read_hex (t : ITy) (s : List Nat) (hs : s ≠ []) : Reads t (digitInt 16 s) (readHex t s) :=
  loop_reads (readHex_loop t) hs

/-- C10: `read_oct`. -/
theorem C10_read_oct (t : ITy) (s : List Nat) (hs : s ≠ []) : Reads t (digitInt 8 s) (readOct t s) :=
  loop_reads (readOct_loop t) hs

/-- C10: `read_bin`. -/
theorem C10_read_bin (t : ITy) (s : List Nat) (hs : s ≠ []) : Reads t (digitInt 2 s) (readBin t s) :=
  loop_reads (readBin_loop t) hs

example : DigitText 10 (S "00300") 300 := ⟨by decide, [0, 0, 3, 0, 0], ⟨by decide, by decide⟩, by decide⟩
example : readDec ⟨.w8, false⟩ (S "00300") = (true, 44, false) := by decide +kernel
example : readDec ⟨.w8, true⟩ (S "200") = (true, -56, false) := by decide +kernel
example : readHex ⟨.w16, true⟩ (S "fFfE") = (true, -2, false) := by decide +kernel
example : (readBin ⟨.w16, true⟩ (S "102")).1 = false := by decide +kernel

/-! ### C11 -/

theorem reads_congr {t : ITy} {D D' : Int → Prop} {r : Bool × Int × Bool} (h : ∀ n, D n ↔ D' n)
    (hr : Reads t D r) : Reads t D' r := by
  have : D = D' := funext fun n => propext (h n)
  rw [← this]; exact hr

theorem reads_none {t : ITy} {D : Int → Prop} {v : Int} {o : Bool} (h : ∀ n, ¬ D n) :
    Reads t D (false, v, o) :=
  ⟨⟨by simp, fun ⟨n, hn⟩ => absurd hn (h n)⟩, fun n hn => absurd hn (h n)⟩

theorem uintInt_dec {c : Nat} {s : List Nat} (h : ¬ ∃ c' s', c = 48 ∧ s = c' :: s' ∧ (radixOf c').isSome) (n : Int) :
    digitInt 10 (c :: s) n ↔ uintInt (c :: s) n := by
  constructor
  · rintro ⟨m, h1, rfl⟩; exact ⟨m, .dec h1, rfl⟩
  · rintro ⟨m, h1, rfl⟩
    cases h1 with
    | dec h1 => exact ⟨m, h1, rfl⟩
    | pre hr _ => exact absurd ⟨_, _, rfl, rfl, by rw [hr]; rfl⟩ h

theorem uintInt_pre {c r : Nat} {s : List Nat} (h : radixOf c = some r) (n : Int) :
    digitInt r s n ↔ uintInt (48 :: c :: s) n := by
  constructor
  · rintro ⟨m, h1, rfl⟩; exact ⟨m, .pre h h1, rfl⟩
  · rintro ⟨m, h1, rfl⟩
    cases h1 with
    | dec h1 =>
      obtain ⟨_, ds, hd, _⟩ := h1
      rw [isDigits_cons] at hd
      obtain ⟨_, _, _, _, _, hd⟩ := hd
      rw [isDigits_cons] at hd
      obtain ⟨d, _, _, hd1, hd2, _⟩ := hd
      have := radixOf_not_digit h d hd1
      omega
    | pre hr h1 => rw [h] at hr; cases hr; exact ⟨m, h1, rfl⟩

/-- The body shared by `atou` and `atoi` after the sign: what it computes for a non-empty text. -/
def magBody (t : ITy) (s : List Nat) : Bool × Int × Bool :=
  match s with
  | 48 :: c :: s' =>
    match radixOf c with
    | some r =>
      if s' = [] then (false, 0, false)
      else if r = 16 then readHex t s' else if r = 2 then readBin t s' else readOct t s'
    | none => readDec t s
  | _ => readDec t s

theorem radixOf_cases {c r : Nat} (h : radixOf c = some r) :
    (r = 16 ∧ (c = 120 ∨ c = 88)) ∨ (r = 8 ∧ (c = 111 ∨ c = 79)) ∨ (r = 2 ∧ (c = 98 ∨ c = 66)) := by
  unfold radixOf at h
  split at h
  · injection h; omega
  · split at h
    · injection h; omega
    · split at h
      · injection h; omega
      · cases h

theorem digitInt_nil {b : Nat} (n : Int) : ¬ digitInt b [] n := by
  rintro ⟨_, ⟨h, _⟩, _⟩; exact h rfl

theorem magBody_reads (t : ITy) {s : List Nat} (hs : s ≠ []) : Reads t (uintInt s) (magBody t s) := by
  unfold magBody
  split
  · rename_i c s'
    split
    · rename_i r hr
      refine reads_congr (uintInt_pre hr) ?_
      split
      · rename_i h; subst h
        exact reads_none digitInt_nil
      · rename_i hne
        rcases radixOf_cases hr with ⟨rfl, _⟩ | ⟨rfl, _⟩ | ⟨rfl, _⟩
        · rw [if_pos rfl]; exact C10_read_hex t s' hne
        · rw [if_neg (by omega), if_neg (by omega)]; exact C10_read_oct t s' hne
        · rw [if_neg (by omega), if_pos rfl]; exact C10_read_bin t s' hne
    · rename_i hr
      refine reads_congr (uintInt_dec ?_) (C10_read_dec t _ (by simp))
      rintro ⟨c', s'', _, h, h'⟩
      injection h with h1 h2
      rw [h1] at hr; rw [hr] at h'; simp at h'
  · rename_i hn
    cases s with
    | nil => exact absurd rfl hs
    | cons c s =>
      refine reads_congr (uintInt_dec ?_) (C10_read_dec t _ (by simp))
      rintro ⟨c', s'', rfl, rfl, _⟩
      exact hn c' s'' rfl

theorem radixOf_none {c : Nat} (h : ¬ (c = 120 ∨ c = 88)) (h2 : ¬ (c = 98 ∨ c = 66))
    (h3 : ¬ (c = 111 ∨ c = 79)) : radixOf c = none := by
  simp [radixOf, h, h2, h3]

theorem atou_eq (t : ITy) {c : Nat} {s : List Nat} (h : c ≠ 45) : atou t (c :: s) = .ok (magBody t (c :: s)) := by
  unfold atou
  simp only [List.length_cons, Nat.add_eq_zero_iff, Nat.succ_ne_self, and_false, if_false, rd,
    List.getElem?_cons_zero, Res.ok_bind]
  rw [if_neg h]
  by_cases h48 : c = 48
  · subst h48
    simp only [ne_eq, not_true_eq_false, if_false]
    cases s with
    | nil => obtain ⟨w, sgn⟩ := t; cases w <;> cases sgn <;> decide +kernel
    | cons p s =>
      simp only [List.length_cons, List.getElem?_cons_succ, List.getElem?_cons_zero, Res.ok_bind]
      rw [if_pos (by omega)]
      unfold magBody
      have hlen : (s.length + 1 + 1 > 2) ↔ s ≠ [] := by
        cases s <;> simp
      by_cases hx : p = 120 ∨ p = 88
      · have hr : radixOf p = some 16 := by simp [radixOf, hx]
        rw [if_pos hx]; simp only [hr, hlen]
        by_cases hs : s = [] <;> simp [hs]
      · rw [if_neg hx]
        by_cases hb : p = 98 ∨ p = 66
        · have hr : radixOf p = some 2 := by rcases hb with rfl | rfl <;> rfl
          rw [if_pos hb]; simp only [hr, hlen]
          by_cases hs : s = [] <;> simp [hs]
        · rw [if_neg hb]
          by_cases ho : p = 111 ∨ p = 79
          · have hr : radixOf p = some 8 := by rcases ho with rfl | rfl <;> rfl
            rw [if_pos ho]; simp only [hr, hlen]
            by_cases hs : s = [] <;> simp [hs]
          · rw [if_neg ho]; simp only [radixOf_none hx hb ho]
  · rw [if_pos h48]
    unfold magBody
    split
    · rename_i heq; injection heq with h1 _; exact absurd h1 h48
    · rfl

/-- C11: `atou` never reads outside the string; it returns true exactly for the documented texts, and then
stores the denoted number modulo 2^width. -/
theorem C11_atou (t : ITy) (s : List Nat) : ∃ r, atou t s = .ok r ∧ Reads t (uintInt s) r := by
  cases s with
  | nil =>
    refine ⟨_, rfl, reads_none ?_⟩
    rintro n ⟨m, h, _⟩; obtain ⟨c, s, e, _⟩ := h.head; simp at e
  | cons c s =>
    by_cases h : c = 45
    · subst h
      refine ⟨(false, 0, false), by simp [atou, rd], reads_none ?_⟩
      rintro n ⟨m, h, _⟩; obtain ⟨c, s, e, _, _⟩ := h.head; simp at e; omega
    · exact ⟨_, atou_eq t h, magBody_reads t (by simp)⟩

example : UintDenotes (S "0X1f") 31 :=
  .pre (r := 16) rfl ⟨by decide, [1, 15], ⟨by decide, by decide⟩, by decide⟩
example : atou ⟨.w8, false⟩ (S "0X1f") = .ok (true, 31, false) := by decide +kernel
example : atou ⟨.w8, false⟩ (S "0") = .ok (true, 0, false) := by decide +kernel
example : atou ⟨.w8, false⟩ (S "0x") = .ok (false, 0, false) := by decide +kernel
example : ¬ ∃ n, UintDenotes (S "+1") n := by
  rintro ⟨n, h⟩; obtain ⟨c, s, e, h1, _⟩ := h.head
  have : S "+1" = [43, 49] := by decide
  rw [this] at e; injection e; omega

/-! ### C12 -/

/-- Apply the sign to the magnitude that was read. -/
def withSign (t : ITy) (r : Bool × Int × Bool) (sign : Int) : Bool × Int × Bool :=
  if r.1 then (true, (mulSign t r.2.1 sign).1, r.2.2 || (mulSign t r.2.1 sign).2) else (false, r.2.1, r.2.2)

theorem mulSign_stored (t : ITy) (v n sign : Int) (h : StoredAs t n v) :
    StoredAs t (n * sign) (mulSign t v sign).1 := by
  unfold mulSign
  refine (wrap_stored t _).congr ?_
  have h1 := arith_dvd t (v * sign)
  have h2 := Dvd.dvd.mul_right h.2.2 sign
  have := Int.dvd_add h1 h2
  ring_nf at this ⊢
  exact this

theorem withSign_reads {t : ITy} {D D' : Int → Prop} {r : Bool × Int × Bool} {sign : Int}
    (h : Reads t D r) (hd : ∀ n, D n → D' (n * sign)) (hd' : ∀ n, D' n → ∃ m, D m ∧ n = m * sign) :
    Reads t D' (withSign t r sign) := by
  unfold withSign
  split
  · rename_i hr
    obtain ⟨n, hn⟩ := h.1.mp hr
    refine ⟨by simp; exact ⟨_, hd n hn⟩, ?_⟩
    intro x hx
    obtain ⟨m, hm, rfl⟩ := hd' x hx
    exact mulSign_stored t _ _ _ (h.2 m hm)
  · rename_i hr
    apply reads_none
    intro x hx
    obtain ⟨m, hm, rfl⟩ := hd' x hx
    exact hr (h.1.mpr ⟨m, hm⟩)

/-- `readDec` after the leading zero was skipped: the same result, as a leading zero adds nothing. -/
theorem readDec_zero (t : ITy) (s : List Nat) : readDec t (48 :: s) = readDec t s := by
  unfold readDec
  rw [readDecLoop, if_neg (by omega)]
  have h : mulAdd t 10 0 (48 - 48) = (0, false) := by
    obtain ⟨w, sgn⟩ := t
    cases w <;> cases sgn <;> decide +kernel
  rw [h]; rfl

theorem atoiMag_eq (t : ITy) (str : List Nat) (start : Nat) (h : start < str.length) :
    atoiMag t str start = .ok (magBody t (str.drop start)) := by
  unfold atoiMag
  rw [rd_ok h]
  simp only [Res.ok_bind]
  rw [List.drop_eq_getElem_cons h]
  by_cases h48 : str[start] = 48
  · rw [if_neg (by simp [h48])]
    rw [h48]
    by_cases h1 : str.length > start + 1
    · rw [if_pos h1, rd_ok h1]
      simp only [Res.ok_bind]
      rw [List.drop_eq_getElem_cons h1]
      unfold magBody
      have hlen : (str.length > start + 2) ↔ str.drop (start + 1 + 1) ≠ [] := by
        rw [ne_eq, List.drop_eq_nil_iff]; omega
      generalize str[start + 1] = p
      by_cases hx : p = 120 ∨ p = 88
      · have hr : radixOf p = some 16 := by simp [radixOf, hx]
        rw [if_pos hx]; simp only [hr, hlen]
        split <;> simp_all
      · rw [if_neg hx]
        by_cases hb : p = 98 ∨ p = 66
        · have hr : radixOf p = some 2 := by rcases hb with rfl | rfl <;> rfl
          rw [if_pos hb]; simp only [hr, hlen]
          split <;> simp_all
        · rw [if_neg hb]
          by_cases ho : p = 111 ∨ p = 79
          · have hr : radixOf p = some 8 := by rcases ho with rfl | rfl <;> rfl
            rw [if_pos ho]; simp only [hr, hlen]
            split <;> simp_all
          · rw [if_neg ho]; simp only [radixOf_none hx hb ho]
            rw [readDec_zero]
    · rw [if_neg h1]
      have : str.drop (start + 1) = [] := by rw [List.drop_eq_nil_iff]; omega
      rw [this]; rfl
  · rw [if_pos h48]
    unfold magBody
    split
    · rename_i heq; injection heq with h1 _; exact absurd h1 h48
    · rfl

theorem atoi_eq_pos (t : ITy) {c : Nat} {s : List Nat} (h : c ≠ 45) :
    atoi t (c :: s) = .ok (withSign t (magBody t (c :: s)) 1) := by
  unfold atoi
  rw [if_neg (by simp), rd_ok (by simp)]
  simp only [Res.ok_bind, List.getElem_cons_zero, h, if_false, false_and]
  rw [atoiMag_eq t _ 0 (by simp)]
  simp only [Res.ok_bind, withSign, List.drop_zero]
  split <;> rfl

theorem atoi_eq_neg (t : ITy) {c : Nat} {s : List Nat} :
    atoi t (45 :: c :: s) = .ok (withSign t (magBody t (c :: s)) (-1)) := by
  unfold atoi
  rw [if_neg (by simp), rd_ok (by simp)]
  simp only [Res.ok_bind, List.getElem_cons_zero, if_true, true_and]
  rw [if_neg (by simp), atoiMag_eq t _ 1 (by simp)]
  simp only [Res.ok_bind, withSign, List.drop_succ_cons, List.drop_zero]
  split <;> rfl

/-- C12: `atoi` never reads outside the string; it returns true exactly for an optional '-' and a text of the
`atou` language, and then stores the denoted integer modulo 2^width. -/
theorem C12_atoi (t : ITy) (s : List Nat) : ∃ r, atoi t s = .ok r ∧ Reads t (IntDenotes s) r := by
  cases s with
  | nil =>
    refine ⟨_, rfl, reads_none ?_⟩
    intro n h
    cases h with
    | pos h => obtain ⟨c, s, e, _⟩ := h.head; simp at e
  | cons c s =>
    by_cases h : c = 45
    · subst h
      cases s with
      | nil =>
        refine ⟨(false, 0, false), by simp [atoi, rd], reads_none ?_⟩
        intro n h
        cases h with
        | pos h => obtain ⟨c, s, e, _, _⟩ := h.head; simp at e; omega
        | neg h => obtain ⟨c, s, e, _⟩ := h.head; simp at e
      | cons c s =>
        refine ⟨_, atoi_eq_neg t, withSign_reads (magBody_reads t (by simp)) ?_ ?_⟩
        · rintro _ ⟨n, h, rfl⟩
          rw [Int.mul_neg, Int.mul_one]; exact .neg h
        · intro n h
          cases h with
          | pos h => obtain ⟨c, s, e, _, _⟩ := h.head; simp at e; omega
          | neg h => exact ⟨_, ⟨_, h, rfl⟩, by omega⟩
    · refine ⟨_, atoi_eq_pos t h, withSign_reads (magBody_reads t (by simp)) ?_ ?_⟩
      · rintro _ ⟨n, h, rfl⟩
        rw [Int.mul_one]; exact .pos h
      · intro n h'
        cases h' with
        | pos h' => exact ⟨_, ⟨_, h', rfl⟩, by omega⟩
        | neg h' => exact absurd rfl h

example : IntDenotes (S "-0b0101") (-5) :=
  .neg (n := 5) (.pre (c := 98) (r := 2) rfl ⟨by decide, [0, 1, 0, 1], ⟨by decide, by decide⟩, by decide⟩)
example : atoi ⟨.w8, true⟩ (S "-0b0101") = .ok (true, -5, false) := by decide +kernel
example : atoi ⟨.w8, true⟩ (S "-") = .ok (false, 0, false) := by decide +kernel
example : (atoi ⟨.w8, true⟩ (S "--1")) = .ok (false, 0, false) := by decide +kernel

/-! ### C13 -/

theorem charDigit_digitChar {d : Nat} (h : d < 16) : charDigit (digitChar d) = some d := by
  unfold digitChar charDigit
  split
  · rw [if_pos (by omega)]; congr 1; omega
  · rw [if_neg (by omega), if_pos (by omega)]; congr 1; omega

theorem digitText_padded {r : Nat} (h2 : 2 ≤ r) (h16 : r ≤ 16) (v n : Nat) : DigitText r (paddedText r v n) v := by
  refine ⟨?_, List.replicate (n - (numeral r v).length) 0 ++ numeral r v, ⟨?_, ?_⟩, ?_⟩
  · have := numeral_length_pos h2 v
    intro h
    have h' := congrArg List.length h
    rw [paddedText_length, List.length_nil] at h'
    omega
  · simp only [paddedText, numeralText, List.map_append, List.map_replicate, List.map_map]
    congr 1
    apply List.map_congr_left
    intro d hd
    exact charDigit_digitChar (by have := numeral_digits h2 d hd; omega)
  · intro d hd
    rw [List.mem_append] at hd
    rcases hd with hd | hd
    · have := List.eq_of_mem_replicate hd; omega
    · exact numeral_digits h2 d hd
  · rw [value_append_list, value_replicate_zero, value_numeral h2]; omega

/-- The text written by `utoa` denotes the value. -/
theorem uintText_denotes {r : Nat} (hr : isRadix r) (v n : Nat) : UintDenotes (uintText r v n) v := by
  unfold uintText
  rcases hr with rfl | rfl | rfl | rfl
  · exact .pre (c := 98) (r := 2) rfl (digitText_padded (by omega) (by omega) v n)
  · exact .pre (c := 111) (r := 8) rfl (digitText_padded (by omega) (by omega) v n)
  · exact .dec (digitText_padded (by omega) (by omega) v n)
  · exact .pre (c := 120) (r := 16) rfl (digitText_padded (by omega) (by omega) v n)

/-- The text written by `itoa` denotes the value. -/
theorem intText_denotes {r : Nat} (hr : isRadix r) (v : Int) (n : Nat) : IntDenotes (intText r v n) v := by
  unfold intText
  split
  · have : v = -(v.natAbs : Int) := by omega
    conv => arg 2; rw [this]
    exact .neg (uintText_denotes hr _ n)
  · have : v = (v.natAbs : Int) := by omega
    conv => arg 2; rw [this]
    exact .pos (uintText_denotes hr _ n)

/-- C13: reading back with `atou` what `utoa` wrote into a large enough buffer gives the value. -/
theorem C13_unsigned (w : W) (v r nd : Nat) (hv : v < 2 ^ w.bits) (hr : isRadix r) (hnd : nd < 2 ^ 32 - 3)
    (buf : List Nat) (hb : (uintText r v nd).length ≤ buf.length) :
    ∃ n buf' o, utoaRadixPad w v r nd buf = .ok (n, buf') ∧
      atou ⟨w, false⟩ (buf'.take n) = .ok (true, v, o) := by
  have hw := C07_utoa_padded w v r nd hv hr hnd buf hb
  obtain ⟨r', h1, h2, h3⟩ := C11_atou ⟨w, false⟩ (uintText r v nd)
  have hd := uintText_denotes hr v nd
  have ht : r'.1 = true := h2.mpr ⟨v, v, hd, rfl⟩
  have hs := h3 v ⟨v, hd, rfl⟩
  have hval : r'.2.1 = (v : Int) := by
    refine hs.eq_of_fits (by simp [ITy.min]) ?_
    simp only [ITy.max, Bool.false_eq_true, if_false]
    omega
  refine ⟨_, _, r'.2.2, hw, ?_⟩
  rw [overwrite_take, h1, ← ht, ← hval]

/-- C13: reading back with `atoi` what `itoa` wrote into a large enough buffer gives the value, including the
minimum of the type. -/
theorem C13_signed (w : W) (v : Int) (r nd : Nat) (hl : w.minI ≤ v) (hu : v < 2 ^ (w.bits - 1)) (hr : isRadix r)
    (hnd : nd < 2 ^ 32 - 3) (buf : List Nat) (hb : (intText r v nd).length ≤ buf.length) :
    ∃ n buf' o, itoaRadixPad w v r nd buf = .ok (n, buf') ∧
      atoi ⟨w, true⟩ (buf'.take n) = .ok (true, v, o) := by
  have hw := C08_itoa_padded w v r nd hr hl hu hnd buf hb
  obtain ⟨r', h1, h2, h3⟩ := C12_atoi ⟨w, true⟩ (intText r v nd)
  have hd := intText_denotes hr v nd
  have ht : r'.1 = true := h2.mpr ⟨v, hd⟩
  have hval : r'.2.1 = v := by
    refine (h3 v hd).eq_of_fits ?_ ?_
    · cases w <;> simpa [ITy.min, W.minI, W.bits] using hl
    · cases w <;> simp [ITy.max, W.bits] at hu ⊢ <;> omega
  refine ⟨_, _, r'.2.2, hw, ?_⟩
  rw [overwrite_take, h1, ← ht, ← hval]

/-- C13 for the plain decimal overloads `utoa(buf,v)` (via `to_chars`). -/
theorem C13_unsigned_text (w : W) (v r nd : Nat) (hv : v < 2 ^ w.bits) (hr : isRadix r) :
    ∃ o, atou ⟨w, false⟩ (uintText r v nd) = .ok (true, v, o) := by
  obtain ⟨r', h1, h2, h3⟩ := C11_atou ⟨w, false⟩ (uintText r v nd)
  have hd := uintText_denotes hr v nd
  have ht : r'.1 = true := h2.mpr ⟨v, v, hd, rfl⟩
  have hval : r'.2.1 = (v : Int) := by
    refine (h3 v ⟨v, hd, rfl⟩).eq_of_fits (by simp [ITy.min]) ?_
    simp only [ITy.max, Bool.false_eq_true, if_false]
    omega
  exact ⟨r'.2.2, by rw [h1, ← ht, ← hval]⟩

/-- C13 for the text of signed values. -/
theorem C13_signed_text (w : W) (v : Int) (r nd : Nat) (hl : w.minI ≤ v) (hu : v < 2 ^ (w.bits - 1)) (hr : isRadix r) :
    ∃ o, atoi ⟨w, true⟩ (intText r v nd) = .ok (true, v, o) := by
  obtain ⟨r', h1, h2, h3⟩ := C12_atoi ⟨w, true⟩ (intText r v nd)
  have hd := intText_denotes hr v nd
  have ht : r'.1 = true := h2.mpr ⟨v, hd⟩
  have hval : r'.2.1 = v := by
    refine (h3 v hd).eq_of_fits ?_ ?_
    · cases w <;> simpa [ITy.min, W.minI, W.bits] using hl
    · cases w <;> simp [ITy.max, W.bits] at hu ⊢ <;> omega
  exact ⟨r'.2.2, by rw [h1, ← ht, ← hval]⟩

example : itoaRadixPad .w8 (-128) 16 4 (S "........") = .ok (7, S "-0x0080.") := by decide +kernel
example : atoi ⟨.w8, true⟩ (S "-0x0080") = .ok (true, -128, false) := by decide +kernel

/-! ### C14 -/

/-- C14 refuted: reading the minimum of a 32-bit (or 64-bit) signed type overflows, although the value is in
range: the magnitude 2^31 is computed in the signed type itself. -/
theorem C14_refuted :
    IntDenotes (S "-2147483648") (-2147483648) ∧ (-2147483648 : Int) = (ITy.mk .w32 true).min ∧
    atoi ⟨.w32, true⟩ (S "-2147483648") = .ok (true, -2147483648, true) ∧
    IntDenotes (S "-9223372036854775808") (-9223372036854775808) ∧
    (-9223372036854775808 : Int) = (ITy.mk .w64 true).min ∧
    atoi ⟨.w64, true⟩ (S "-9223372036854775808") = .ok (true, -9223372036854775808, true) := by
  refine ⟨?_, by decide, by decide +kernel, ?_, by decide, by decide +kernel⟩
  · have : S "-2147483648" = intText 10 (-2147483648) 0 := by decide +kernel
    rw [this]; exact intText_denotes (by decide) _ _
  · have : S "-9223372036854775808" = intText 10 (-9223372036854775808) 0 := by decide +kernel
    rw [this]; exact intText_denotes (by decide) _ _

theorem loop_no_overflow {t : ITy} {b : Nat} {L : List Nat → Int → Bool → Bool × Int × Bool}
    (h : LoopOK t b L) (hb : 2 ≤ b) {s : List Nat} {n : Nat} (hd : DigitText b s n)
    (h1 : (n : Int) ≤ t.prom.max) (h2 : (n : Int) ≤ t.max + 1) : (L s 0 false).2.2 = false := by
  obtain ⟨hs, ds, hd, rfl⟩ := hd
  obtain ⟨v', e⟩ := h.no_overflow hb hd 0 0 false (zero_stored t) (by have := max_pos t; intro _; omega) h1 h2
  rw [e]

theorem magBody_no_overflow {t : ITy} {s : List Nat} {n : Nat} (hd : UintDenotes s n)
    (h1 : (n : Int) ≤ t.prom.max) (h2 : (n : Int) ≤ t.max + 1) : (magBody t s).2.2 = false := by
  have hs : s ≠ [] := by obtain ⟨c, s', rfl, _⟩ := hd.head; simp
  unfold magBody
  split
  · rename_i c s'
    split
    · rename_i r hr
      obtain ⟨m, hm, e⟩ := (uintInt_pre hr n).mpr ⟨n, hd, rfl⟩
      have e' : n = m := by omega
      subst e'
      split
      · rfl
      · rcases radixOf_cases hr with ⟨rfl, _⟩ | ⟨rfl, _⟩ | ⟨rfl, _⟩
        · rw [if_pos rfl]; exact loop_no_overflow (readHex_loop t) (by omega) hm h1 h2
        · rw [if_neg (by omega), if_neg (by omega)]; exact loop_no_overflow (readOct_loop t) (by omega) hm h1 h2
        · rw [if_neg (by omega), if_pos rfl]; exact loop_no_overflow (readBin_loop t) (by omega) hm h1 h2
    · rename_i hr
      obtain ⟨m, hm, e⟩ := (uintInt_dec (by
        rintro ⟨c', s'', _, h, h'⟩
        injection h with h1 h2
        rw [h1] at hr; rw [hr] at h'; simp at h') n).mpr ⟨n, hd, rfl⟩
      have e' : n = m := by omega
      subst e'
      exact loop_no_overflow (readDec_loop t) (by omega) hm h1 h2
  · rename_i hn
    cases s with
    | nil => exact absurd rfl hs
    | cons c s =>
      obtain ⟨m, hm, e⟩ := (uintInt_dec (by
        rintro ⟨c', s'', rfl, rfl, _⟩
        exact hn c' s'' rfl) n).mpr ⟨n, hd, rfl⟩
      have e' : n = m := by omega
      subst e'
      exact loop_no_overflow (readDec_loop t) (by omega) hm h1 h2

/-- C14, partial: reading a text whose value is in the range of the signed type overflows nowhere, except that
for 32- and 64-bit types the minimum itself must be excluded (see `C14_refuted`); for 8- and 16-bit types the
minimum is included.
Full statement (false of the code): the same without the hypothesis `hmin`. -/
theorem C14_no_overflow_partial (w : W) (s : List Nat) (n : Int) (hd : IntDenotes s n)
    (hl : (ITy.mk w true).min ≤ n) (hu : n ≤ (ITy.mk w true).max)
    (hmin : w = .w8 ∨ w = .w16 ∨ n ≠ (ITy.mk w true).min) :
    atoi ⟨w, true⟩ s = .ok (true, n, false) := by
  obtain ⟨r, h1, h2, h3⟩ := C12_atoi ⟨w, true⟩ s
  have ht : r.1 = true := h2.mpr ⟨n, hd⟩
  have hval : r.2.1 = n := (h3 n hd).eq_of_fits hl hu
  suffices hf : r.2.2 = false by rw [h1, ← ht, ← hval, ← hf]
  cases hd with
  | @pos _ m hm =>
    obtain ⟨c, s', rfl, hc1, hc2⟩ := hm.head
    rw [atoi_eq_pos _ (by omega)] at h1
    injection h1 with h1
    have hmb : (magBody ⟨w, true⟩ (c :: s')).2.2 = false := magBody_no_overflow hm
      (by cases w <;> simp [ITy.prom, ITy.max, W.bits] at hu ⊢ <;> omega) (by omega)
    have hmv := ((magBody_reads ⟨w, true⟩ (s := c :: s') (by simp)).2 m ⟨m, hm, rfl⟩).eq_of_fits hl hu
    rw [← h1]
    unfold withSign
    split
    · simp only [hmb, hmv, Bool.false_or]
      unfold mulSign
      rw [arith_no_overflow]
      · cases w <;> simp [ITy.prom, ITy.min, W.bits] at hl ⊢
      · cases w <;> simp [ITy.prom, ITy.max, W.bits] at hu ⊢ <;> omega
    · exact hmb
  | @neg s' m hm =>
    obtain ⟨c, s'', rfl, hc1, hc2⟩ := hm.head
    rw [atoi_eq_neg] at h1
    injection h1 with h1
    have hmb : (magBody ⟨w, true⟩ (c :: s'')).2.2 = false := magBody_no_overflow hm
      (by cases w <;> simp [ITy.prom, ITy.max, ITy.min, W.bits] at hl hmin ⊢ <;> omega)
      (by cases w <;> simp [ITy.max, ITy.min, W.bits] at hl ⊢ <;> omega)
    have hst := (magBody_reads ⟨w, true⟩ (s := c :: s'') (by simp)).2 m ⟨m, hm, rfl⟩
    rw [← h1]
    unfold withSign
    split
    · simp only [hmb, Bool.false_or]
      unfold mulSign
      rw [arith_no_overflow]
      · have h4 := hst.1; have h5 := hst.2.1
        cases w <;> simp [ITy.prom, ITy.min, ITy.max, W.bits] at h4 h5 ⊢ <;> omega
      · have h4 := hst.1; have h5 := hst.2.1
        by_cases hmm : (m : Int) ≤ (ITy.mk w true).max
        · have := hst.eq_of_fits (by have := min_nonpos ⟨w, true⟩; omega) hmm
          rw [this]
          cases w <;> simp [ITy.prom, ITy.min, ITy.max, W.bits] at h4 h5 ⊢
        · have h6 := hst.2.2
          cases w <;> simp [ITy.prom, ITy.min, ITy.max, W.bits] at h4 h5 hmin hmm hl ⊢ <;> omega
    · exact hmb

example : atoi ⟨.w64, true⟩ (S "-9223372036854775807") = .ok (true, -9223372036854775807, false) := by
  decide +kernel
example : atoi ⟨.w16, true⟩ (S "-32768") = .ok (true, -32768, false) := by decide +kernel

end C4
