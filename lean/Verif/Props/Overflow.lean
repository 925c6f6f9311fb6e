import Verif.Charconv.Overflow
import Verif.Substr.SearchLemmas
import Verif.Props.CharconvRead
/-
Properties C15-C17: overflow detection.
-/
namespace C4
open Spec

/-! ### Digit strings without leading zero -/

theorem charDigit_zero_iff {c d : Nat} (h : charDigit c = some d) : d = 0 ↔ c = 48 := by
  rcases charDigit_cases h with h | h | h <;> omega

theorem isDigits_length {b : Nat} {s ds : List Nat} (h : IsDigits b s ds) : ds.length = s.length := by
  have := congrArg List.length h.1
  simpa using this.symm

/-- Skipping leading zeros: `f` is the first position at or after `k` that is not '0'. -/
theorem skip_zeros_value {b : Nat} {s ds : List Nat} (hd : IsDigits b s ds) :
    (∀ c ∈ s, c = 48) → value b ds = 0 := by
  induction s generalizing ds with
  | nil => intro _; rw [isDigits_nil] at hd; subst hd; rfl
  | cons c s ih =>
    intro h
    rw [isDigits_cons] at hd
    obtain ⟨d, ds, rfl, hc, hdb, hds⟩ := hd
    rw [value_cons, ih hds (fun x hx => h x (by simp [hx])), (charDigit_zero_iff hc).mpr (h c (by simp))]
    simp

theorem drop_zeros_value {b : Nat} {s ds : List Nat} (hd : IsDigits b s ds) (k : Nat) :
    (∀ i, i < k → s[i]? = some 48) → IsDigits b (s.drop k) (ds.drop k) ∧ value b (ds.drop k) = value b ds := by
  induction k generalizing s ds with
  | zero => intro _; simpa using hd
  | succ k ih =>
    intro h
    cases s with
    | nil => have := h 0 (by omega); simp at this
    | cons c s =>
      have h0 := h 0 (by omega)
      simp at h0
      subst h0
      rw [isDigits_cons] at hd
      obtain ⟨d, ds, rfl, hc, hdb, hds⟩ := hd
      obtain ⟨h1, h2⟩ := ih hds (fun i hi => by have := h (i+1) (by omega); simpa using this)
      refine ⟨by simpa using h1, ?_⟩
      rw [List.drop_succ_cons, h2, value_cons, (charDigit_zero_iff hc).mpr rfl]
      simp

/-- The effect of the `first_not_of('0', start)` idiom on a digit string starting at `start`. -/
theorem skipZeros_digits {b : Nat} {pre s : List Nat} {n : Nat} (hd : DigitText b s n)
    (f : Nat → Res Bool) (res : Bool) (h0 : n = 0 → res = false)
    (hf : ∀ k s' ds, (pre ++ s).drop k = s' → pre.length ≤ k → k < (pre ++ s).length → IsDigits b s' ds → n = value b ds →
      (∀ c, s'[0]? = some c → c ≠ 48) → s' ≠ [] → f k = .ok res) :
    skipZeros (pre ++ s) pre.length f = .ok res := by
  obtain ⟨hs, ds, hd, rfl⟩ := hd
  obtain ⟨r, h1, h2⟩ := firstNotOf_spec (pre ++ s) 48 pre.length
  unfold skipZeros
  rw [h1]
  simp only [Res.ok_bind]
  cases r with
  | none =>
    simp only [IsFirst] at h2
    have : value b ds = 0 := skip_zeros_value hd (by
      intro c hc
      obtain ⟨i, hi, e⟩ := List.getElem_of_mem hc
      by_contra hne
      refine h2 (pre.length + i) (by omega) (by simp; omega) ⟨c, ?_, hne⟩
      rw [List.getElem?_append_right (by omega)]
      simp [hi, e])
    rw [h0 this]
  | some k =>
    obtain ⟨h3, h4, ⟨x, hx, hxne⟩, h5⟩ := h2
    have hz := drop_zeros_value hd (k - pre.length) (by
      intro i hi
      have hi' : i < s.length := by simp at h4; omega
      have := h5 (pre.length + i) (by omega) (by omega)
      have hget : (pre ++ s)[pre.length + i]? = some s[i] := by
        rw [List.getElem?_append_right (by omega)]; simp [hi']
      by_contra hne
      refine this ⟨s[i], hget, ?_⟩
      intro he
      rw [List.getElem?_eq_getElem hi', he] at hne
      exact hne rfl)
    have hdrop : (pre ++ s).drop k = s.drop (k - pre.length) := by
      rw [List.drop_append, List.drop_eq_nil_of_le h3, List.nil_append]
    refine hf k (s.drop (k - pre.length)) (ds.drop (k - pre.length)) hdrop h3 h4 hz.1 hz.2.symm ?_ ?_
    · intro c hc
      rw [← hdrop, List.getElem?_drop, Nat.add_zero, hx] at hc
      injection hc with hc
      rw [← hc]; exact hxne
    · rw [← hdrop]
      intro h
      rw [List.drop_eq_nil_iff] at h
      omega

theorem value_ge_of_head {b : Nat} {s ds : List Nat} (hd : IsDigits b s ds)
    (hz : ∀ c, s[0]? = some c → c ≠ 48) (hne : s ≠ []) : b ^ (s.length - 1) ≤ value b ds := by
  cases s with
  | nil => exact absurd rfl hne
  | cons c s =>
    rw [isDigits_cons] at hd
    obtain ⟨d, ds, rfl, hc, hdb, hds⟩ := hd
    have := value_pos_of_head (b := b) (ds := ds) (d := d) (fun h => hz c rfl ((charDigit_zero_iff hc).mp h))
    rw [isDigits_length hds] at this
    simpa using this

theorem value_lt_of_digits {b : Nat} {s ds : List Nat} (hd : IsDigits b s ds) : value b ds < b ^ s.length := by
  rw [← isDigits_length hd]; exact value_lt hd.2

/-- A digit character compared with a decimal digit character compares the digit values. -/
theorem char_cmp {c d l e : Nat} (hc : charDigit c = some d) (hl : charDigit l = some e) (he : e < 10) :
    (c < l ↔ d < e) ∧ (c > l ↔ d > e) := by
  obtain ⟨_, _, _⟩ := charDigit_lt10 hl he
  rcases charDigit_cases hc with h | h | h <;> constructor <;> constructor <;> intro _ <;> omega

theorem checkOverflowLoop_spec {b : Nat} {s ds l ls : List Nat} (hd : IsDigits b s ds) (hl : IsDigits b l ls)
    (h10 : ∀ e ∈ ls, e < 10) (hlen : s.length = l.length) :
    checkOverflowLoop s l = decide (value b ds > value b ls) := by
  induction s generalizing ds l ls with
  | nil =>
    cases l with
    | cons _ _ => simp at hlen
    | nil =>
      rw [isDigits_nil] at hd hl
      subst hd hl
      simp [checkOverflowLoop]
  | cons c s ih =>
    cases l with
    | nil => simp at hlen
    | cons x l =>
      rw [isDigits_cons] at hd hl
      obtain ⟨d, ds, rfl, hc, hdb, hds⟩ := hd
      obtain ⟨e, ls, rfl, hx, heb, hls⟩ := hl
      have hcmp := char_cmp hc hx (h10 e (by simp))
      have hlen' : s.length = l.length := by simpa using hlen
      have hrec := ih hds hls (fun e he => h10 e (by simp [he])) hlen'
      have h1 := value_lt_of_digits hds
      have h2 := value_lt_of_digits hls
      rw [value_cons, value_cons, isDigits_length hds, isDigits_length hls, ← hlen']
      rw [← hlen'] at h2
      rw [checkOverflowLoop]
      by_cases hlt : c < x
      · have hde := hcmp.1.mp hlt
        rw [if_pos hlt, eq_comm, decide_eq_false_iff_not]
        have : (d + 1) * b ^ s.length ≤ e * b ^ s.length := Nat.mul_le_mul_right _ hde
        rw [Nat.add_mul] at this
        omega
      · rw [if_neg hlt]
        by_cases hgt : c > x
        · have hde := hcmp.2.mp hgt
          rw [if_pos hgt, eq_comm, decide_eq_true_iff]
          have : (e + 1) * b ^ s.length ≤ d * b ^ s.length := Nat.mul_le_mul_right _ hde
          rw [Nat.add_mul] at this
          omega
        · rw [if_neg hgt, hrec]
          have hde : d = e := by
            have h3 := hcmp.1; have h4 := hcmp.2; omega
          rw [hde]
          congr 1
          simp

theorem checkOverflow_spec {b : Nat} (hb : 1 ≤ b) {s ds l ls : List Nat} (hd : IsDigits b s ds) (hl : IsDigits b l ls)
    (h10 : ∀ e ∈ ls, e < 10) (hz : ∀ c, s[0]? = some c → c ≠ 48) (hne : s ≠ [])
    (hzl : ∀ c, l[0]? = some c → c ≠ 48) (hnel : l ≠ []) :
    checkOverflow s l = decide (value b ds > value b ls) := by
  unfold checkOverflow
  split
  · rename_i h; exact checkOverflowLoop_spec hd hl h10 h
  · have h1 := value_lt_of_digits hd
    have h2 := value_lt_of_digits hl
    have h3 := value_ge_of_head hd hz hne
    have h4 := value_ge_of_head hl hzl hnel
    congr 1
    apply propext
    constructor
    · intro h
      have : b ^ l.length ≤ b ^ (s.length - 1) := Nat.pow_le_pow_right hb (by omega)
      omega
    · intro h
      by_contra hc
      have : b ^ s.length ≤ b ^ (l.length - 1) := Nat.pow_le_pow_right hb (by omega)
      omega

/-- Length and head test: for a digit string without leading zero, the test
`!(len < k || (len == k && str[0] <= c))` is `value >= (e+1) * b^(k-1)`, where `e` is the digit of `c`. -/
theorem len_head_value {b k e c : Nat} (hb : 1 ≤ b) (hk : 1 ≤ k) (he : e < 10) (heb : e < b) (hce : charDigit c = some e)
    {s ds : List Nat} (hd : IsDigits b s ds) (hz : ∀ c, s[0]? = some c → c ≠ 48) (hne : s ≠ []) :
    lenHeadOverflow s k c = .ok (decide (value b ds ≥ (e + 1) * b ^ (k - 1))) := by
  unfold lenHeadOverflow
  have h1 := value_lt_of_digits hd
  have h3 := value_ge_of_head hd hz hne
  split
  · rename_i h
    congr 1
    rw [eq_comm, decide_eq_false_iff_not]
    have : b ^ s.length ≤ b ^ (k - 1) := Nat.pow_le_pow_right hb (by omega)
    have : 1 * b ^ (k - 1) ≤ (e + 1) * b ^ (k - 1) := Nat.mul_le_mul_right _ (by omega)
    omega
  · split
    · rename_i hlen
      cases s with
      | nil => exact absurd rfl hne
      | cons x s =>
        rw [isDigits_cons] at hd
        obtain ⟨d, ds, rfl, hx, hdb, hds⟩ := hd
        have h2 := value_lt_of_digits hds
        simp only [rd, List.getElem?_cons_zero, Res.ok_bind]
        congr 1
        have hcmp := char_cmp hx hce he
        have hxc : x ≤ c ↔ d ≤ e := by
          have h3 := hcmp.1; have h4 := hcmp.2; omega
        rw [value_cons, isDigits_length hds]
        have hk' : k - 1 = s.length := by simp at hlen; omega
        rw [hk']
        by_cases hde : d ≤ e
        · have e1 : decide (x ≤ c) = true := by rw [decide_eq_true_iff]; exact hxc.mpr hde
          rw [e1, Bool.not_true, eq_comm, decide_eq_false_iff_not]
          have : d * b ^ s.length ≤ e * b ^ s.length := Nat.mul_le_mul_right _ hde
          rw [Nat.add_mul]
          omega
        · have e1 : decide (x ≤ c) = false := by
            rw [decide_eq_false_iff_not]; intro h; exact hde (hxc.mp h)
          rw [e1, Bool.not_false, eq_comm, decide_eq_true_iff]
          have : (e + 1) * b ^ s.length ≤ d * b ^ s.length := Nat.mul_le_mul_right _ (by omega)
          omega
    · rename_i h hlen
      congr 1
      rw [eq_comm, decide_eq_true_iff]
      have h4 : b ^ k ≤ b ^ (s.length - 1) := Nat.pow_le_pow_right hb (by omega)
      have h5 : (e + 1) * b ^ (k - 1) ≤ b * b ^ (k - 1) := Nat.mul_le_mul_right _ (by omega)
      have h6 : b * b ^ (k - 1) = b ^ k := by
        obtain ⟨j, rfl⟩ : ∃ j, k = j + 1 := ⟨k - 1, by omega⟩
        rw [Nat.pow_succ]; simp [Nat.mul_comm]
      omega

/-- Length test: `!(len <= k)` is `value >= b^k`. -/
theorem len_value {b k : Nat} (hb : 1 ≤ b)
    {s ds : List Nat} (hd : IsDigits b s ds) (hz : ∀ c, s[0]? = some c → c ≠ 48) (hne : s ≠ []) :
    (!decide (s.length ≤ k)) = decide (value b ds ≥ b ^ k) := by
  have h1 := value_lt_of_digits hd
  have h3 := value_ge_of_head hd hz hne
  by_cases h : s.length ≤ k
  · have e1 : decide (s.length ≤ k) = true := by simpa using h
    have : b ^ s.length ≤ b ^ k := Nat.pow_le_pow_right hb h
    have e2 : decide (value b ds ≥ b ^ k) = false := by rw [decide_eq_false_iff_not]; omega
    rw [e1, e2]; rfl
  · have e1 : decide (s.length ≤ k) = false := by simpa using h
    have : b ^ k ≤ b ^ (s.length - 1) := Nat.pow_le_pow_right hb (by omega)
    have e2 : decide (value b ds ≥ b ^ k) = true := by rw [decide_eq_true_iff]; omega
    rw [e1, e2]; rfl

/-! ### The limit tables -/

/-- A limit text: decimal-looking digits of value `v` in base `b` without leading zero. -/
structure LimitText (b : Nat) (l : List Nat) (v : Nat) : Prop where
  digits : ∃ ls, IsDigits b l ls ∧ (∀ e ∈ ls, e < 10) ∧ value b ls = v
  head : ∀ c, l[0]? = some c → c ≠ 48
  ne : l ≠ []

theorem limit_of {b : Nat} {l : List Nat} {v : Nat} (ls : List Nat) (h1 : l.map charDigit = ls.map some)
    (h2 : ∀ d ∈ ls, d < b) (h3 : ∀ e ∈ ls, e < 10) (h4 : value b ls = v) (h5 : ∃ c t, l = c :: t ∧ c ≠ 48) :
    LimitText b l v := by
  obtain ⟨c, t, rfl, hc⟩ := h5
  refine ⟨⟨ls, ⟨h1, h2⟩, h3, h4⟩, ?_, by simp⟩
  intro c' h; simp at h; omega

/-- The digits of an ASCII decimal-digit text. -/
def digs (l : List Nat) : List Nat := l.map (· - 48)

theorem limit_auto {b : Nat} {l : List Nat} {v : Nat} (h1 : (l.map charDigit = (digs l).map some) ∧
    (∀ d ∈ digs l, d < b) ∧ (∀ e ∈ digs l, e < 10) ∧ value b (digs l) = v ∧ l.head? ≠ some 48 ∧ l ≠ []) :
    LimitText b l v := by
  obtain ⟨h1, h2, h3, h4, h5, h6⟩ := h1
  refine limit_of (digs l) h1 h2 h3 h4 ?_
  cases l with
  | nil => exact absurd rfl h6
  | cons c t => exact ⟨c, t, rfl, by simpa using h5⟩

theorem limit_maxDec (t : ITy) : LimitText 10 (maxValueDec t) t.max.toNat := by
  obtain ⟨w, sgn⟩ := t
  cases w <;> cases sgn <;> exact limit_auto (by decide +kernel)

theorem limit_minDec (w : W) : LimitText 10 (minValueDec w) (2 ^ (w.bits - 1)) := by
  cases w <;> exact limit_auto (by decide +kernel)
theorem limit_minHex (w : W) : LimitText 16 (minValueHex w) (2 ^ (w.bits - 1)) := by
  cases w <;> exact limit_auto (by decide +kernel)
theorem limit_minOct (w : W) : LimitText 8 (minValueOct w) (2 ^ (w.bits - 1)) := by
  cases w <;> exact limit_auto (by decide +kernel)
theorem limit_minBin (w : W) : LimitText 2 (minValueBin w) (2 ^ (w.bits - 1)) := by
  cases w <;> exact limit_auto (by decide +kernel)

theorem checkOverflow_limit {b : Nat} (hb : 1 ≤ b) {s ds l : List Nat} {v : Nat} (hd : IsDigits b s ds)
    (hz : ∀ c, s[0]? = some c → c ≠ 48) (hne : s ≠ []) (hl : LimitText b l v) :
    checkOverflow s l = decide (value b ds > v) := by
  obtain ⟨⟨ls, h1, h2, rfl⟩, h3, h4⟩ := hl
  exact checkOverflow_spec hb hd h1 h2 hz hne h3 h4

theorem octOverflow_spec (t : ITy) {s ds : List Nat} (hd : IsDigits 8 s ds)
    (hz : ∀ c, s[0]? = some c → c ≠ 48) (hne : s ≠ []) :
    isOctOverflow t s = .ok (decide ((value 8 ds : Int) > t.max)) := by
  obtain ⟨w, sgn⟩ := t
  have h6 : ∀ k, 1 ≤ k → (!decide (s.length < k)) = decide (value 8 ds ≥ 8 ^ (k - 1)) := by
    intro k hk
    rw [← len_value (k := k - 1) (by omega) hd hz hne]
    congr 2; apply propext; omega
  cases w <;> cases sgn <;> simp only [isOctOverflow]
  · rw [len_head_value (e := 3) (b := 8) (by omega) (by omega) (by omega) (by omega) rfl hd hz hne]
    congr 2; apply propext; simp [ITy.max, W.bits]; omega
  · rw [len_head_value (e := 1) (b := 8) (by omega) (by omega) (by omega) (by omega) rfl hd hz hne]
    congr 2; apply propext; simp [ITy.max, W.bits]; omega
  · rw [len_head_value (e := 1) (b := 8) (by omega) (by omega) (by omega) (by omega) rfl hd hz hne]
    congr 2; apply propext; simp [ITy.max, W.bits]; omega
  · rw [h6 6 (by omega)]
    congr 2; apply propext; simp [ITy.max, W.bits]; omega
  · rw [len_head_value (e := 3) (b := 8) (by omega) (by omega) (by omega) (by omega) rfl hd hz hne]
    congr 2; apply propext; simp [ITy.max, W.bits]; omega
  · rw [len_head_value (e := 1) (b := 8) (by omega) (by omega) (by omega) (by omega) rfl hd hz hne]
    congr 2; apply propext; simp [ITy.max, W.bits]; omega
  · rw [len_head_value (e := 1) (b := 8) (by omega) (by omega) (by omega) (by omega) rfl hd hz hne]
    congr 2; apply propext; simp [ITy.max, W.bits]; omega
  · rw [h6 22 (by omega)]
    congr 2; apply propext; simp [ITy.max, W.bits]; omega

/-! ### Shapes of integer texts -/

/-- The shapes of a text denoting a natural number, as the code distinguishes them. -/
theorem uint_shapes {s : List Nat} {n : Nat} (h : UintDenotes s n) :
    (∃ c s', s = c :: s' ∧ c ≠ 48 ∧ c ≠ 45 ∧ DigitText 10 s n) ∨
    (s = [48] ∧ n = 0) ∨
    (∃ c s', s = 48 :: c :: s' ∧ radixOf c = none ∧ DigitText 10 (c :: s') n) ∨
    (∃ c s' r, s = 48 :: c :: s' ∧ radixOf c = some r ∧ DigitText r s' n) := by
  obtain ⟨c, s', rfl, h1, h2⟩ := h.head
  cases h with
  | dec h =>
    by_cases hc : c = 48
    · subst hc
      right
      obtain ⟨_, ds, hd, rfl⟩ := h
      rw [isDigits_cons] at hd
      obtain ⟨d, ds, rfl, hd1, hd2, hd⟩ := hd
      have hd0 : d = 0 := (charDigit_zero_iff hd1).mpr rfl
      cases s' with
      | nil => left; rw [isDigits_nil] at hd; subst hd; subst hd0; exact ⟨rfl, rfl⟩
      | cons c s' =>
        right; left
        refine ⟨c, s', rfl, ?_, by simp, ds, hd, ?_⟩
        · rw [isDigits_cons] at hd
          obtain ⟨d', _, _, hd1, hd2, _⟩ := hd
          cases hr : radixOf c with
          | none => rfl
          | some r => have := radixOf_not_digit hr d' hd1; omega
        · rw [value_cons, hd0]; simp
    · left; exact ⟨c, s', rfl, hc, by omega, h⟩
  | pre hr h => right; right; right; exact ⟨_, _, _, rfl, hr, h⟩

theorem head_ne_of_cons {c : Nat} {s : List Nat} (h : c ≠ 48) : ∀ x, (c :: s)[0]? = some x → x ≠ 48 := by
  intro x hx; simp at hx; omega

theorem check_direct {s l : List Nat} {n v : Nat} (hd : DigitText 10 s n) (h : ∃ c s', s = c :: s' ∧ c ≠ 48)
    (hl : LimitText 10 l v) : checkOverflow s l = decide (n > v) := by
  obtain ⟨c, s', rfl, hc⟩ := h
  obtain ⟨hne, ds, hd, rfl⟩ := hd
  exact checkOverflow_limit (by omega) hd (head_ne_of_cons hc) hne hl

theorem skip_check {b : Nat} (hb : 1 ≤ b) {pre s l : List Nat} {n v : Nat} (hd : DigitText b s n)
    (hl : LimitText b l v) :
    skipZeros (pre ++ s) pre.length (fun fno => .ok (checkOverflow ((pre ++ s).drop fno) l)) =
      .ok (decide (n > v)) := by
  refine skipZeros_digits hd _ _ (by intro h; simp; omega) ?_
  intro k s' ds h1 h2 h3 h4 h5 h6 h7
  rw [h1, checkOverflow_limit hb h4 h6 h7 hl, h5]

theorem skip_len {b m : Nat} (hb : 1 ≤ b) {pre s : List Nat} {n : Nat} (hd : DigitText b s n) :
    skipZeros (pre ++ s) pre.length (fun fno => .ok (!decide ((pre ++ s).length ≤ fno + m))) =
      .ok (decide (n ≥ b ^ m)) := by
  have hp : 0 < b ^ m := Nat.pow_pos hb
  refine skipZeros_digits hd _ _ (by intro h; simp; omega) ?_
  intro k s' ds h1 h2 h3 h4 h5 h6 h7
  rw [h5, ← len_value hb h4 h6 h7]
  have hl : s'.length = (pre ++ s).length - k := by rw [← h1]; simp
  congr 3
  apply propext; omega

theorem skip_oct {pre s : List Nat} {n : Nat} (t : ITy) (hd : DigitText 8 s n) :
    skipZeros (pre ++ s) pre.length (fun fno => isOctOverflow t ((pre ++ s).drop fno)) =
      .ok (decide ((n : Int) > t.max)) := by
  refine skipZeros_digits hd _ _ (by intro h; have := max_pos t; simp; omega) ?_
  intro k s' ds h1 h2 h3 h4 h5 h6 h7
  rw [h1, octOverflow_spec t h4 h6 h7, h5]

/-! ### C15 -/

/-- C15: for every text of the `atou` language, `overflows<T>` (T unsigned) is true exactly if the denoted
number does not fit in `T`. -/
theorem C15_overflows_unsigned (w : W) (s : List Nat) (n : Nat) (h : UintDenotes s n) :
    overflowsU w s = .ok (decide (n ≥ 2 ^ w.bits)) := by
  have hmax : (ITy.mk w false).max.toNat = 2 ^ w.bits - 1 := by cases w <;> rfl
  have hpos : 0 < 2 ^ w.bits := Nat.pow_pos (by omega)
  have hconv : ∀ m : Nat, decide (m > (ITy.mk w false).max.toNat) = decide (m ≥ 2 ^ w.bits) := by
    intro m; congr 1; apply propext; omega
  rcases uint_shapes h with ⟨c, s', rfl, hc, hc', hd⟩ | ⟨rfl, rfl⟩ | ⟨c, s', rfl, hr, hd⟩ | ⟨c, s', r, rfl, hr, hd⟩
  · unfold overflowsU
    rw [if_neg (by simp), rd_ok (by simp)]
    simp only [Res.ok_bind, List.getElem_cons_zero]
    rw [if_neg hc, if_neg hc', check_direct hd ⟨c, s', rfl, hc⟩ (limit_maxDec _), hconv]
  · unfold overflowsU
    simp [rd]
  · unfold overflowsU
    have := skip_check (pre := [48]) (by omega) hd (limit_maxDec ⟨w, false⟩)
    simp only [List.length_cons, List.length_nil, List.cons_append, List.nil_append] at this
    rw [if_neg (by simp), rd_ok (by simp)]
    simp only [Res.ok_bind, List.getElem_cons_zero, if_true]
    rw [if_neg (by simp), rd_ok (by simp)]
    simp only [Res.ok_bind, List.getElem_cons_zero, List.getElem_cons_succ]
    have hr' : ¬(c = 120 ∨ c = 88) ∧ ¬(c = 98 ∨ c = 66) ∧ ¬(c = 111 ∨ c = 79) := by
      refine ⟨?_, ?_, ?_⟩ <;> (rintro (rfl | rfl) <;> simp [radixOf] at hr)
    rw [if_neg hr'.1, if_neg hr'.2.1, if_neg hr'.2.2, this, hconv]
  · unfold overflowsU
    rw [if_neg (by simp), rd_ok (by simp)]
    simp only [Res.ok_bind, List.getElem_cons_zero, if_true]
    rw [if_neg (by simp), rd_ok (by simp)]
    simp only [Res.ok_bind, List.getElem_cons_zero, List.getElem_cons_succ]
    rcases radixOf_cases hr with ⟨rfl, hc⟩ | ⟨rfl, hc⟩ | ⟨rfl, hc⟩
    · rw [if_pos hc]
      refine (skip_len (pre := [48, c]) (by omega) hd).trans ?_
      cases w <;> rfl
    · rw [if_neg (by omega), if_neg (by omega), if_pos hc]
      refine (skip_oct (pre := [48, c]) ⟨w, false⟩ hd).trans ?_
      congr 2; apply propext
      cases w <;> simp [ITy.max, W.bits] <;> omega
    · rw [if_neg (by omega), if_pos hc]
      refine (skip_len (pre := [48, c]) (by omega) hd).trans ?_
      cases w <;> rfl

example : UintDenotes (S "0o000400") 256 :=
  .pre (r := 8) rfl ⟨by decide, [0, 0, 0, 4, 0, 0], ⟨by decide, by decide⟩, by decide⟩
example : overflowsU .w8 (S "0o000400") = .ok true := by decide +kernel
example : overflowsU .w8 (S "0o000377") = .ok false := by decide +kernel
example : overflowsU .w64 (S "018446744073709551615") = .ok false := by decide +kernel

/-! ### C16 -/

/-- C16 (exactness): for every text of the `atoi` language, `overflows<T>` (T signed) is true exactly if the
denoted number is outside the range of `T`. -/
theorem C16_overflows_signed (w : W) (s : List Nat) (n : Int) (h : IntDenotes s n) :
    overflowsI w s = .ok (decide (n < (ITy.mk w true).min ∨ n > (ITy.mk w true).max)) := by
  have hmin0 := min_nonpos ⟨w, true⟩
  have hmax0 := max_pos ⟨w, true⟩
  cases h with
  | @pos _ n h =>
    have hconv : ∀ m : Nat, decide ((m : Int) > (ITy.mk w true).max) =
        decide ((m : Int) < (ITy.mk w true).min ∨ (m : Int) > (ITy.mk w true).max) := by
      intro m; congr 1; apply propext; omega
    have hconv' : ∀ m : Nat, decide (m > (ITy.mk w true).max.toNat) =
        decide ((m : Int) < (ITy.mk w true).min ∨ (m : Int) > (ITy.mk w true).max) := by
      intro m; congr 1; apply propext; omega
    rcases uint_shapes h with ⟨c, s', rfl, hc, hc', hd⟩ | ⟨rfl, rfl⟩ | ⟨c, s', rfl, hr, hd⟩ | ⟨c, s', r, rfl, hr, hd⟩
    · unfold overflowsI
      rw [if_neg (by simp), rd_ok (by simp)]
      simp only [Res.ok_bind, List.getElem_cons_zero]
      rw [if_neg hc', if_neg hc, check_direct hd ⟨c, s', rfl, hc⟩ (limit_maxDec _), hconv']
    · unfold overflowsI
      simp [rd]; omega
    · unfold overflowsI
      have := skip_check (pre := [48]) (by omega) hd (limit_maxDec ⟨w, true⟩)
      simp only [List.length_cons, List.length_nil, List.cons_append, List.nil_append] at this
      rw [if_neg (by simp), rd_ok (by simp)]
      simp only [Res.ok_bind, List.getElem_cons_zero, if_true]
      rw [if_neg (by omega), if_neg (by simp), rd_ok (by simp)]
      simp only [Res.ok_bind, List.getElem_cons_zero, List.getElem_cons_succ]
      have hr' : ¬(c = 120 ∨ c = 88) ∧ ¬(c = 98 ∨ c = 66) ∧ ¬(c = 111 ∨ c = 79) := by
        refine ⟨?_, ?_, ?_⟩ <;> (rintro (rfl | rfl) <;> simp [radixOf] at hr)
      rw [if_neg hr'.1, if_neg hr'.2.1, if_neg hr'.2.2, this, hconv']
    · unfold overflowsI
      rw [if_neg (by simp), rd_ok (by simp)]
      simp only [Res.ok_bind, List.getElem_cons_zero, if_true]
      rw [if_neg (by omega), if_neg (by simp), rd_ok (by simp)]
      simp only [Res.ok_bind, List.getElem_cons_zero, List.getElem_cons_succ]
      rcases radixOf_cases hr with ⟨rfl, hc⟩ | ⟨rfl, hc⟩ | ⟨rfl, hc⟩
      · rw [if_pos hc]
        refine skipZeros_digits (pre := [48, c]) hd _ _ (by intro h; rw [decide_eq_false_iff_not]; omega) ?_
        intro k s'' ds h1 h2 h3 h4 h5 h6 h7
        have hlh := len_head_value (b := 16) (k := w.bytes * 2) (e := 7) (c := 55) (by omega)
          (by cases w <;> decide) (by omega) (by omega) rfl h4 h6 h7
        unfold lenHeadOverflow at hlh
        have hl : (48 :: c :: s').length - k = s''.length := by rw [← h1]; simp
        have hrd : rd (48 :: c :: s') k = rd s'' 0 := by
          unfold rd; rw [← h1, List.getElem?_drop, Nat.add_zero]; rfl
        have hgoal : (8 * 16 ^ (w.bytes * 2 - 1) : Nat) = (ITy.mk w true).max + 1 := by cases w <;> rfl
        simp only [hl, hrd]
        refine hlh.trans ?_
        rw [← hconv, h5]
        congr 2; apply propext
        omega
      · rw [if_neg (by omega), if_neg (by omega), if_pos hc]
        refine (skip_oct (pre := [48, c]) ⟨w, true⟩ hd).trans ?_
        rw [hconv]
      · rw [if_neg (by omega), if_pos hc]
        refine (skip_len (pre := [48, c]) (by omega) hd).trans ?_
        rw [← hconv]
        congr 2; apply propext
        cases w <;> simp [ITy.max, W.bits, W.bytes] <;> omega
  | @neg s' n h =>
    have hconv : ∀ m : Nat, decide (m > 2 ^ (w.bits - 1)) =
        decide (-(m : Int) < (ITy.mk w true).min ∨ -(m : Int) > (ITy.mk w true).max) := by
      intro m; congr 1; apply propext
      cases w <;> simp [ITy.max, ITy.min, W.bits]
    rcases uint_shapes h with ⟨c, s', rfl, hc, hc', hd⟩ | ⟨rfl, rfl⟩ | ⟨c, s', rfl, hr, hd⟩ | ⟨c, s', r, rfl, hr, hd⟩
    · unfold overflowsI
      rw [if_neg (by simp), rd_ok (by simp)]
      simp only [Res.ok_bind, List.getElem_cons_zero, if_true]
      rw [rd_ok (by simp)]
      simp only [Res.ok_bind, List.getElem_cons_zero, List.getElem_cons_succ, List.drop_succ_cons, List.drop_zero]
      rw [if_neg hc, check_direct hd ⟨c, s', rfl, hc⟩ (limit_minDec w), hconv]
    · unfold overflowsI
      simp [rd]; omega
    · unfold overflowsI
      have := skip_check (pre := [45, 48]) (by omega) hd (limit_minDec w)
      simp only [List.length_cons, List.length_nil, List.cons_append, List.nil_append] at this
      rw [if_neg (by simp), rd_ok (by simp)]
      simp only [Res.ok_bind, List.getElem_cons_zero, if_true]
      rw [rd_ok (by simp)]
      simp only [Res.ok_bind, List.getElem_cons_zero, List.getElem_cons_succ, if_true]
      rw [if_neg (by simp), rd_ok (by simp)]
      simp only [Res.ok_bind, List.getElem_cons_zero, List.getElem_cons_succ]
      have hr' : ¬(c = 120 ∨ c = 88) ∧ ¬(c = 98 ∨ c = 66) ∧ ¬(c = 111 ∨ c = 79) := by
        refine ⟨?_, ?_, ?_⟩ <;> (rintro (rfl | rfl) <;> simp [radixOf] at hr)
      rw [if_neg hr'.1, if_neg hr'.2.1, if_neg hr'.2.2, this, hconv]
    · unfold overflowsI
      rw [if_neg (by simp), rd_ok (by simp)]
      simp only [Res.ok_bind, List.getElem_cons_zero, if_true]
      rw [rd_ok (by simp)]
      simp only [Res.ok_bind, List.getElem_cons_zero, List.getElem_cons_succ, if_true]
      rw [if_neg (by simp), rd_ok (by simp)]
      simp only [Res.ok_bind, List.getElem_cons_zero, List.getElem_cons_succ]
      rcases radixOf_cases hr with ⟨rfl, hc⟩ | ⟨rfl, hc⟩ | ⟨rfl, hc⟩
      · rw [if_pos hc]
        refine (skip_check (pre := [45, 48, c]) (by omega) hd (limit_minHex w)).trans ?_
        rw [hconv]
      · rw [if_neg (by omega), if_neg (by omega), if_pos hc]
        refine (skip_check (pre := [45, 48, c]) (by omega) hd (limit_minOct w)).trans ?_
        rw [hconv]
      · rw [if_neg (by omega), if_pos hc]
        refine (skip_check (pre := [45, 48, c]) (by omega) hd (limit_minBin w)).trans ?_
        rw [hconv]

example : overflowsI .w8 (S "-0X081") = .ok true := by decide +kernel
example : overflowsI .w8 (S "-0X080") = .ok false := by decide +kernel
example : IntDenotes (S "-0X080") (-128) :=
  .neg (n := 128) (.pre (c := 88) (r := 16) rfl ⟨by decide, [0, 8, 0], ⟨by decide, by decide⟩, by decide⟩)
example : overflowsI .w32 (S "0o20000000000") = .ok true := by decide +kernel

/-- C16 (memory safety) refuted: `overflows<T>("-")` with `T` signed reads the character after the end of the
string. -/
theorem C16_refuted (w : W) : overflowsI w (S "-") = .ub := by cases w <;> decide +kernel

theorem skipZeros_safe (s : List Nat) (k : Nat) (f : Nat → Res Bool)
    (hf : ∀ i, k ≤ i → i < s.length → ∃ b, f i = .ok b) : ∃ b, skipZeros s k f = .ok b := by
  obtain ⟨r, h1, h2⟩ := firstNotOf_spec s 48 k
  unfold skipZeros
  rw [h1]
  cases r with
  | none => exact ⟨_, rfl⟩
  | some i => obtain ⟨b, hb⟩ := hf i h2.1 h2.2.1; exact ⟨b, by simpa using hb⟩

theorem isOct_safe (t : ITy) (s : List Nat) : ∃ b, isOctOverflow t s = .ok b := by
  have h : ∀ k c, 1 ≤ k → ∃ b, lenHeadOverflow s k c = .ok b := by
    intro k c hk
    unfold lenHeadOverflow
    split
    · exact ⟨_, rfl⟩
    · split
      · rw [rd_ok (by omega)]; exact ⟨_, rfl⟩
      · exact ⟨_, rfl⟩
  obtain ⟨w, sgn⟩ := t
  cases w <;> cases sgn <;> simp only [isOctOverflow] <;> first | exact h _ _ (by omega) | exact ⟨_, rfl⟩

/-- C15 (memory safety): `overflows<T>` for unsigned `T` reads inside the string for every string. -/
theorem C15_safe (w : W) (s : List Nat) : ∃ b, overflowsU w s = .ok b := by
  unfold overflowsU
  split
  · exact ⟨_, rfl⟩
  · rename_i h0
    rw [rd_ok (by omega)]
    simp only [Res.ok_bind]
    split
    · split
      · exact ⟨_, rfl⟩
      · rename_i h1
        rw [rd_ok (by omega)]
        simp only [Res.ok_bind]
        split
        · exact skipZeros_safe _ _ _ fun _ _ _ => ⟨_, rfl⟩
        · split
          · exact skipZeros_safe _ _ _ fun _ _ _ => ⟨_, rfl⟩
          · split
            · exact skipZeros_safe _ _ _ fun _ _ _ => isOct_safe _ _
            · exact skipZeros_safe _ _ _ fun _ _ _ => ⟨_, rfl⟩
    · split
      · exact ⟨_, rfl⟩
      · exact ⟨_, rfl⟩

/-- C16 (memory safety), partial: for every string other than "-", `overflows<T>` for signed `T` reads inside the
string.  Full statement (false, see `C16_refuted`): for every string. -/
theorem C16_safe_partial (w : W) (s : List Nat) (hs : s ≠ S "-") : ∃ b, overflowsI w s = .ok b := by
  unfold overflowsI
  split
  · exact ⟨_, rfl⟩
  · rename_i h0
    rw [rd_ok (by omega)]
    simp only [Res.ok_bind]
    split
    · rename_i hm
      have h1 : 1 < s.length := by
        match s, hs, h0, hm with
        | [c], hs, _, hm => simp at hm; subst hm; exact absurd rfl hs
        | _ :: _ :: _, _, _, _ => simp
      rw [rd_ok h1]
      simp only [Res.ok_bind]
      split
      · split
        · exact ⟨_, rfl⟩
        · rw [rd_ok (by omega)]
          simp only [Res.ok_bind]
          split
          · exact skipZeros_safe _ _ _ fun _ _ _ => ⟨_, rfl⟩
          · split
            · exact skipZeros_safe _ _ _ fun _ _ _ => ⟨_, rfl⟩
            · split
              · exact skipZeros_safe _ _ _ fun _ _ _ => ⟨_, rfl⟩
              · exact skipZeros_safe _ _ _ fun _ _ _ => ⟨_, rfl⟩
      · exact ⟨_, rfl⟩
    · split
      · split
        · exact ⟨_, rfl⟩
        · rename_i h1
          rw [rd_ok (by omega)]
          simp only [Res.ok_bind]
          split
          · refine skipZeros_safe _ _ _ fun i _ hi => ?_
            split
            · exact ⟨_, rfl⟩
            · split
              · rw [rd_ok hi]; exact ⟨_, rfl⟩
              · exact ⟨_, rfl⟩
          · split
            · exact skipZeros_safe _ _ _ fun _ _ _ => ⟨_, rfl⟩
            · split
              · exact skipZeros_safe _ _ _ fun _ _ _ => isOct_safe _ _
              · exact skipZeros_safe _ _ _ fun _ _ _ => ⟨_, rfl⟩
      · exact ⟨_, rfl⟩

/-! ### C17 -/

/-- C17 for unsigned types: overflow-checked reading succeeds exactly if the text denotes a number in the range
of the type, and then stores exactly that number. -/
theorem C17_unsigned (w : W) (s : List Nat) :
    ∃ r, overflowCheckedU w s = .ok r ∧
      (r.1 = true ↔ ∃ n, UintDenotes s n ∧ n < 2 ^ w.bits) ∧ (r.1 = true → ∀ n, UintDenotes s n → r.2.1 = n) := by
  obtain ⟨r, h1, h2, h3⟩ := C11_atou ⟨w, false⟩ s
  obtain ⟨b, hb⟩ := C15_safe w s
  unfold overflowCheckedU
  rw [hb]
  simp only [Res.ok_bind]
  have hex : ∀ n, UintDenotes s n → b = decide (n ≥ 2 ^ w.bits) := by
    intro n hn
    have := C15_overflows_unsigned w s n hn
    rw [hb] at this
    injection this
  cases b with
  | true =>
    refine ⟨_, rfl, ⟨by simp, ?_⟩, by simp⟩
    rintro ⟨n, hn, hlt⟩
    have := hex n hn
    rw [eq_comm, decide_eq_true_iff] at this
    omega
  | false =>
    have hfit : ∀ n, UintDenotes s n → n < 2 ^ w.bits := by
      intro n hn
      have := hex n hn
      rw [eq_comm, decide_eq_false_iff_not] at this
      omega
    refine ⟨r, h1, ⟨fun h => ?_, ?_⟩, ?_⟩
    · obtain ⟨_, n, hn, rfl⟩ := h2.mp h
      exact ⟨n, hn, hfit n hn⟩
    · rintro ⟨n, hn, _⟩; exact h2.mpr ⟨n, n, hn, rfl⟩
    · intro _ n hn
      refine (h3 n ⟨n, hn, rfl⟩).eq_of_fits (by simp [ITy.min]) ?_
      have := hfit n hn
      simp only [ITy.max, Bool.false_eq_true, if_false]
      omega

/-- C17 for signed types, for every string other than "-" (for which `overflows` reads out of bounds,
`C16_refuted`): overflow-checked reading succeeds exactly if the text denotes a number in the range of the type,
and then stores exactly that number.
Full statement: the same without `hs`. -/
theorem C17_signed_partial (w : W) (s : List Nat) (hs : s ≠ S "-") :
    ∃ r, overflowCheckedI w s = .ok r ∧
      (r.1 = true ↔ ∃ n, IntDenotes s n ∧ (ITy.mk w true).min ≤ n ∧ n ≤ (ITy.mk w true).max) ∧
      (r.1 = true → ∀ n, IntDenotes s n → r.2.1 = n) := by
  obtain ⟨r, h1, h2, h3⟩ := C12_atoi ⟨w, true⟩ s
  obtain ⟨b, hb⟩ := C16_safe_partial w s hs
  unfold overflowCheckedI
  rw [hb]
  simp only [Res.ok_bind]
  have hex : ∀ n, IntDenotes s n → b = decide (n < (ITy.mk w true).min ∨ n > (ITy.mk w true).max) := by
    intro n hn
    have := C16_overflows_signed w s n hn
    rw [hb] at this
    injection this
  cases b with
  | true =>
    refine ⟨_, rfl, ⟨by simp, ?_⟩, by simp⟩
    rintro ⟨n, hn, hlt⟩
    have := hex n hn
    rw [eq_comm, decide_eq_true_iff] at this
    omega
  | false =>
    have hfit : ∀ n, IntDenotes s n → (ITy.mk w true).min ≤ n ∧ n ≤ (ITy.mk w true).max := by
      intro n hn
      have := hex n hn
      rw [eq_comm, decide_eq_false_iff_not] at this
      omega
    refine ⟨r, h1, ⟨fun h => ?_, ?_⟩, ?_⟩
    · obtain ⟨n, hn⟩ := h2.mp h
      exact ⟨n, hn, hfit n hn⟩
    · rintro ⟨n, hn, _⟩; exact h2.mpr ⟨n, hn⟩
    · intro _ n hn
      exact (h3 n hn).eq_of_fits (hfit n hn).1 (hfit n hn).2

/-- C17 refuted as stated: reading "-" overflow-checked into a signed type reads out of bounds. -/
theorem C17_refuted (w : W) : overflowCheckedI w (S "-") = .ub := by cases w <;> decide +kernel

example : overflowCheckedI .w16 (S "-0x8000") = .ok (true, -32768, false) := by decide +kernel
example : overflowCheckedI .w16 (S "-0x8001") = .ok (false, 0, false) := by decide +kernel
example : overflowCheckedU .w16 (S "65536") = .ok (false, 0, false) := by decide +kernel

end C4
