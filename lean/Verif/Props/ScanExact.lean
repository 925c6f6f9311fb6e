import Verif.Spec.StrtodText
import Verif.Props.ScanOne
/-
Property C131: exactly which texts `atof` and `atod` accept with `sscanf`.
-/
namespace C4
open Spec Scan Spec.Strtod

namespace ScanX

/-! The texts that may follow within a number. -/

def ExpDigits (u : List Nat) : Prop := ∀ c ∈ u, Dec c
def ExpDigits1 (u : List Nat) : Prop := u ≠ [] ∧ ∀ c ∈ u, Dec c
def ExpRest (u : List Nat) : Prop := ∃ sg ds, u = sg ++ ds ∧ Strtod.Sign sg ∧ ExpDigits1 ds
def Frac (D : Nat → Prop) (e E : Nat) (u : List Nat) : Prop := ∃ f x, u = f ++ x ∧ (∀ c ∈ f, D c) ∧ Exponent e E x
def Frac1 (D : Nat → Prop) (e E : Nat) (u : List Nat) : Prop := ∃ f x, u = f ++ x ∧ f ≠ [] ∧ (∀ c ∈ f, D c) ∧ Exponent e E x
def Int (D : Nat → Prop) (e E : Nat) (u : List Nat) : Prop := Frac D e E u ∨ ∃ i v, u = i ++ 46 :: v ∧ (∀ c ∈ i, D c) ∧ Frac D e E v

theorem expRest_cons (c : Nat) (u : List Nat) : ExpRest (c :: u) ↔ ((c = 43 ∨ c = 45) ∧ ExpDigits1 u) ∨ (Dec c ∧ ExpDigits u) := by
  constructor
  · rintro ⟨sg, ds, h, hs, hd, ha⟩
    rcases hs with rfl | rfl | rfl
    · obtain rfl : ds = c :: u := by simpa using h.symm
      exact .inr ⟨ha c (by simp), fun x hx => ha x (by simp [hx])⟩
    all_goals
      simp only [List.cons_append, List.nil_append, List.cons.injEq] at h
      obtain ⟨rfl, rfl⟩ := h
      exact .inl ⟨by simp, hd, ha⟩
  · rintro (⟨h, hu⟩ | ⟨h, hu⟩)
    · exact ⟨[c], u, rfl, by rcases h with rfl | rfl <;> simp [Strtod.Sign], hu⟩
    · exact ⟨[], c :: u, rfl, .inl rfl, by simp, by simpa using ⟨h, hu⟩⟩

theorem not_expRest_nil : ¬ ExpRest [] := by
  rintro ⟨sg, ds, h, -, hd, -⟩
  exact hd (List.append_eq_nil_iff.1 h.symm).2

theorem exponent_cons (e E c : Nat) (u : List Nat) : Exponent e E (c :: u) ↔ (c = e ∨ c = E) ∧ ExpRest u := by
  constructor
  · rintro (h | ⟨l, sg, ds, h, hl, hs, hd, ha⟩)
    · cases h
    · simp only [List.cons.injEq] at h
      obtain ⟨rfl, rfl⟩ := h
      exact ⟨hl, sg, ds, rfl, hs, hd, ha⟩
  · rintro ⟨h, sg, ds, rfl, hs, hd, ha⟩
    exact .inr ⟨c, sg, ds, rfl, h, hs, hd, ha⟩

theorem frac_nil (D : Nat → Prop) (e E : Nat) : Frac D e E [] := ⟨[], [], rfl, by simp, .inl rfl⟩

theorem frac_cons (D : Nat → Prop) (e E c : Nat) (u : List Nat) : Frac D e E (c :: u) ↔ (D c ∧ Frac D e E u) ∨ ((c = e ∨ c = E) ∧ ExpRest u) := by
  constructor
  · rintro ⟨f, x, h, hf, hx⟩
    cases f with
    | nil =>
      obtain rfl : x = c :: u := by simpa using h.symm
      exact .inr ((exponent_cons e E c u).1 hx)
    | cons d f =>
      simp only [List.cons_append, List.cons.injEq] at h
      obtain ⟨rfl, rfl⟩ := h
      exact .inl ⟨hf c (by simp), f, x, rfl, fun y hy => hf y (by simp [hy]), hx⟩
  · rintro (⟨h, f, x, rfl, hf, hx⟩ | h)
    · exact ⟨c :: f, x, rfl, by simpa using ⟨h, hf⟩, hx⟩
    · exact ⟨[], c :: u, rfl, by simp, (exponent_cons e E c u).2 h⟩

theorem frac1_cons (D : Nat → Prop) (e E c : Nat) (u : List Nat) : Frac1 D e E (c :: u) ↔ D c ∧ Frac D e E u := by
  constructor
  · rintro ⟨f, x, h, hn, hf, hx⟩
    cases f with
    | nil => exact absurd rfl hn
    | cons d f =>
      simp only [List.cons_append, List.cons.injEq] at h
      obtain ⟨rfl, rfl⟩ := h
      exact ⟨hf c (by simp), f, x, rfl, fun y hy => hf y (by simp [hy]), hx⟩
  · rintro ⟨h, f, x, rfl, hf, hx⟩
    exact ⟨c :: f, x, rfl, by simp, by simpa using ⟨h, hf⟩, hx⟩

theorem not_frac1_nil (D : Nat → Prop) (e E : Nat) : ¬ Frac1 D e E [] := by
  rintro ⟨f, x, h, hn, -, -⟩
  exact hn (List.append_eq_nil_iff.1 h.symm).1

theorem int_cons (D : Nat → Prop) (e E c : Nat) (u : List Nat) :
    Int D e E (c :: u) ↔ (D c ∧ Int D e E u) ∨ (c = 46 ∧ Frac D e E u) ∨ ((c = e ∨ c = E) ∧ ExpRest u) := by
  constructor
  · rintro (h | ⟨i, v, h, hi, hv⟩)
    · rcases (frac_cons D e E c u).1 h with ⟨h1, h2⟩ | h
      · exact .inl ⟨h1, .inl h2⟩
      · exact .inr (.inr h)
    · cases i with
      | nil =>
        simp only [List.nil_append, List.cons.injEq] at h
        obtain ⟨rfl, rfl⟩ := h
        exact .inr (.inl ⟨rfl, hv⟩)
      | cons d i =>
        simp only [List.cons_append, List.cons.injEq] at h
        obtain ⟨rfl, rfl⟩ := h
        exact .inl ⟨hi c (by simp), .inr ⟨i, v, rfl, fun y hy => hi y (by simp [hy]), hv⟩⟩
  · rintro (⟨h, h' | ⟨i, v, rfl, hi, hv⟩⟩ | ⟨rfl, h⟩ | h)
    · exact .inl ((frac_cons D e E c u).2 (.inl ⟨h, h'⟩))
    · exact .inr ⟨c :: i, v, rfl, by simpa using ⟨h, hi⟩, hv⟩
    · exact .inr ⟨[], u, rfl, by simp, h⟩
    · exact .inl ((frac_cons D e E c u).2 (.inr h))

theorem real_cons (D : Nat → Prop) (e E c : Nat) (u : List Nat) : Real D e E (c :: u) ↔ (D c ∧ Int D e E u) ∨ (c = 46 ∧ Frac1 D e E u) := by
  constructor
  · rintro ⟨m, x, h, ⟨i, f, hi, hf, hne, hm⟩, hx⟩
    cases i with
    | nil =>
      rcases hm with rfl | ⟨rfl, rfl⟩
      · simp only [List.nil_append, List.cons_append, List.cons.injEq] at h
        obtain ⟨rfl, rfl⟩ := h
        exact .inr ⟨rfl, f, x, rfl, by simpa using hne, hf, hx⟩
      · exact absurd rfl hne
    | cons d i =>
      have hi' : ∀ y ∈ i, D y := fun y hy => hi y (by simp [hy])
      have hd := hi d (by simp)
      rcases hm with rfl | ⟨rfl, rfl⟩
      · simp only [List.cons_append, List.append_assoc, List.cons.injEq] at h
        obtain ⟨rfl, rfl⟩ := h
        exact .inl ⟨hd, .inr ⟨i, f ++ x, rfl, hi', f, x, rfl, hf, hx⟩⟩
      · simp only [List.cons_append, List.cons.injEq] at h
        obtain ⟨rfl, rfl⟩ := h
        exact .inl ⟨hd, .inl ⟨i, x, rfl, hi', hx⟩⟩
  · rintro (⟨h, ⟨i, x, rfl, hi, hx⟩ | ⟨i, v, rfl, hi, f, x, rfl, hf, hx⟩⟩ | ⟨rfl, f, x, rfl, hn, hf, hx⟩)
    · exact ⟨c :: i, x, rfl, ⟨c :: i, [], by simpa using ⟨h, hi⟩, by simp, by simp, .inr ⟨rfl, rfl⟩⟩, hx⟩
    · exact ⟨c :: i ++ 46 :: f, x, by simp, ⟨c :: i, f, by simpa using ⟨h, hi⟩, hf, by simp, .inl rfl⟩, hx⟩
    · exact ⟨46 :: f, x, rfl, ⟨[], f, by simp, hf, by simpa using hn, .inl rfl⟩, hx⟩

theorem not_real_nil (D : Nat → Prop) (e E : Nat) : ¬ Real D e E [] := by
  rintro ⟨m, x, h, ⟨i, f, -, -, hne, hm⟩, -⟩
  have hm0 := (List.append_eq_nil_iff.1 h.symm).1
  rcases hm with rfl | ⟨rfl, rfl⟩
  · simp at hm0
  · exact hne (by simpa using hm0)

def NanTail (t : List Nat) : Prop := t = [] ∨ ∃ w, t = 40 :: (w ++ [41]) ∧ ∀ c ∈ w, Word c

/-- What may follow when `sscanf` is in a state. -/
def Lang : St → List Nat → Prop
  | .start, u => Number u
  | .sign, u => Unsigned u
  | .zero, u => Int Dec 101 69 u ∨ ∃ x m, u = x :: m ∧ (x = 120 ∨ x = 88) ∧ Real Hex 112 80 m
  | .int, u => Int Dec 101 69 u
  | .dot, u => Frac1 Dec 101 69 u
  | .intDot, u => Frac Dec 101 69 u
  | .frac, u => Frac Dec 101 69 u
  | .exp, u => ExpRest u
  | .expSign, u => ExpDigits1 u
  | .expDigit, u => ExpDigits u
  | .hexX, u => Real Hex 112 80 u
  | .hexInt, u => Int Hex 112 80 u
  | .hexDot, u => Frac1 Hex 112 80 u
  | .hexIntDot, u => Frac Hex 112 80 u
  | .hexFrac, u => Frac Hex 112 80 u
  | .pow, u => ExpRest u
  | .powSign, u => ExpDigits1 u
  | .powDigit, u => ExpDigits u
  | .inf n, u => (n ≤ 3 ∧ lower u = (S "inf").drop n) ∨ (n ≤ 8 ∧ lower u = (S "infinity").drop n)
  | .nan n, u => n ≤ 3 ∧ ∃ a t, u = a ++ t ∧ lower a = (S "nan").drop n ∧ NanTail t
  | .paren, u => ∃ w, u = w ++ [41] ∧ ∀ c ∈ w, Word c
  | .closed, u => u = []

theorem digit_iff (c : Nat) : digit c = true ↔ Dec c := by simp [digit, Dec]
theorem hexDigit_iff (c : Nat) : hexDigit c = true ↔ Hex c := by simp [hexDigit, Hex, digit, Dec, or_assoc]
theorem nanChar_iff (c : Nat) : nanChar c = true ↔ Word c := by simp [nanChar, Word, digit, Dec, or_assoc]

theorem lower_cons (c : Nat) (u : List Nat) : lower (c :: u) = (if 65 ≤ c ∧ c ≤ 90 then c + 32 else c) :: lower u := rfl
theorem lower_nil : lower [] = [] := rfl
theorem lower_eq_nil {u : List Nat} : lower u = [] ↔ u = [] := by simp [lower]

theorem lower_eq {c l : Nat} (h : 97 ≤ l ∧ l ≤ 122) : (if 65 ≤ c ∧ c ≤ 90 then c + 32 else c) = l ↔ c = l ∨ c + 32 = l := by
  split <;> omega

theorem letter (word : List Nat) (n c l : Nat) (h : word[n]? = some l) : letterAt word n c = true ↔ c = l ∨ c + 32 = l := by
  simp only [letterAt, h, Bool.or_eq_true, beq_iff_eq, Option.some.injEq]
  omega

theorem letter_none (word : List Nat) (n c : Nat) (h : word.length ≤ n) : letterAt word n c = false := by
  simp [letterAt, List.getElem?_eq_none h]

theorem S_inf : S "inf" = [105, 110, 102] := by decide
theorem S_infinity : S "infinity" = [105, 110, 102, 105, 110, 105, 116, 121] := by decide
theorem S_nan : S "nan" = [110, 97, 110] := by decide

theorem nanTail_cons (c : Nat) (u : List Nat) : NanTail (c :: u) ↔ c = 40 ∧ ∃ w, u = w ++ [41] ∧ ∀ x ∈ w, Word x := by
  constructor
  · rintro (h | ⟨w, h, hw⟩)
    · cases h
    · simp only [List.cons.injEq] at h
      exact ⟨h.1, w, h.2, hw⟩
  · rintro ⟨rfl, w, rfl, hw⟩
    exact .inr ⟨w, rfl, hw⟩

theorem paren_cons (c : Nat) (u : List Nat) : (∃ w, c :: u = w ++ [41] ∧ ∀ x ∈ w, Word x) ↔ (Word c ∧ ∃ w, u = w ++ [41] ∧ ∀ x ∈ w, Word x) ∨ (c = 41 ∧ u = []) := by
  constructor
  · rintro ⟨w, h, hw⟩
    cases w with
    | nil => simp only [List.nil_append, List.cons.injEq] at h; exact .inr h
    | cons d w =>
      simp only [List.cons_append, List.cons.injEq] at h
      obtain ⟨rfl, rfl⟩ := h
      exact .inl ⟨hw c (by simp), w, rfl, fun y hy => hw y (by simp [hy])⟩
  · rintro (⟨h, w, rfl, hw⟩ | ⟨rfl, rfl⟩)
    · exact ⟨c :: w, rfl, by simpa using ⟨h, hw⟩⟩
    · exact ⟨[], rfl, by simp⟩

/-- The word of an infinity, letter by letter. -/
theorem inf_cons (n c : Nat) (u : List Nat) : Lang (.inf n) (c :: u) ↔ letterAt (S "infinity") n c = true ∧ Lang (.inf (n + 1)) u := by
  by_cases hn : 8 ≤ n
  · rw [letter_none _ _ _ (by rw [S_infinity]; exact hn)]
    simp only [Lang, lower_cons, S_inf, S_infinity]
    rw [List.drop_eq_nil_of_le (by simp; omega), List.drop_eq_nil_of_le (by simpa using hn)]
    simp
  · have : n < 8 := by omega
    simp only [Lang, lower_cons, S_inf, S_infinity]
    interval_cases n <;> simp [letterAt, lower_eq] <;> grind


theorem nan_cons (n c : Nat) (u : List Nat) : Lang (.nan n) (c :: u) ↔ (letterAt (S "nan") n c = true ∧ Lang (.nan (n + 1)) u) ∨ (n = 3 ∧ c = 40 ∧ Lang .paren u) := by
  by_cases hn : 3 ≤ n
  · rw [letter_none _ _ _ (by rw [S_nan]; exact hn)]
    simp only [Lang, S_nan]
    rw [List.drop_eq_nil_of_le (by simpa using hn)]
    constructor
    · rintro ⟨h3, a, t, h, ha, ht⟩
      rw [lower_eq_nil] at ha
      subst ha
      rw [List.nil_append] at h
      subst h
      exact .inr ⟨by omega, (nanTail_cons c u).1 ht⟩
    · rintro (⟨h, -⟩ | ⟨rfl, h⟩)
      · cases h
      · exact ⟨Nat.le_refl _, [], c :: u, rfl, rfl, (nanTail_cons c u).2 h⟩
  · have hlt : n < 3 := by omega
    have key : ∀ l rest, (S "nan").drop n = l :: rest → (S "nan").drop (n + 1) = rest → (letterAt (S "nan") n c = true ↔ (if 65 ≤ c ∧ c ≤ 90 then c + 32 else c) = l) →
        (Lang (.nan n) (c :: u) ↔ (letterAt (S "nan") n c = true ∧ Lang (.nan (n + 1)) u) ∨ (n = 3 ∧ c = 40 ∧ Lang .paren u)) := by
      intro l rest h1 h2 h3
      rw [h3]
      simp only [Lang, h1, h2]
      constructor
      · rintro ⟨-, a, t, h, ha, ht⟩
        cases a with
        | nil => cases ha
        | cons d a =>
          simp only [List.cons_append, List.cons.injEq] at h
          obtain ⟨rfl, rfl⟩ := h
          rw [lower_cons, List.cons.injEq] at ha
          exact .inl ⟨ha.1, by omega, a, t, rfl, ha.2, ht⟩
      · rintro (⟨h, -, a, t, rfl, ha, ht⟩ | ⟨rfl, -⟩)
        · exact ⟨by omega, c :: a, t, rfl, by rw [lower_cons, h, ha], ht⟩
        · omega
    interval_cases n
    · exact key 110 [97, 110] (by decide) (by decide) (by rw [letter _ _ _ 110 (by decide), lower_eq (by decide)])
    · exact key 97 [110] (by decide) (by decide) (by rw [letter _ _ _ 97 (by decide), lower_eq (by decide)])
    · exact key 110 [] (by decide) (by decide) (by rw [letter _ _ _ 110 (by decide), lower_eq (by decide)])

theorem unsigned_inf (u : List Nat) : (lower u = S "inf" ∨ lower u = S "infinity") ↔ Lang (.inf 0) u := by simp [Lang]
theorem unsigned_nan (u : List Nat) : (∃ n t, u = n ++ t ∧ lower n = S "nan" ∧ (t = [] ∨ ∃ w, t = 40 :: (w ++ [41]) ∧ ∀ c ∈ w, Word c)) ↔ Lang (.nan 0) u := by
  simp only [Lang, NanTail, Nat.zero_le, true_and, List.drop_zero]

theorem unsigned_cons (c : Nat) (u : List Nat) : Unsigned (c :: u) ↔
    (Dec c ∧ Int Dec 101 69 u) ∨ (c = 46 ∧ Frac1 Dec 101 69 u) ∨ (c = 48 ∧ ∃ x m, u = x :: m ∧ (x = 120 ∨ x = 88) ∧ Real Hex 112 80 m) ∨
    ((c = 105 ∨ c + 32 = 105) ∧ Lang (.inf 1) u) ∨ ((c = 110 ∨ c + 32 = 110) ∧ Lang (.nan 1) u) := by
  unfold Unsigned
  rw [← or_assoc (a := lower _ = _), unsigned_inf, unsigned_nan, real_cons, inf_cons, nan_cons, letter _ 0 c 105 (by decide), letter _ 0 c 110 (by decide)]
  have : (∃ x m, c :: u = 48 :: x :: m ∧ (x = 120 ∨ x = 88) ∧ Real Hex 112 80 m) ↔ c = 48 ∧ ∃ x m, u = x :: m ∧ (x = 120 ∨ x = 88) ∧ Real Hex 112 80 m := by
    simp only [List.cons.injEq]
    constructor
    · rintro ⟨x, m, ⟨h1, h2⟩, h⟩
      exact ⟨h1, x, m, h2, h⟩
    · rintro ⟨h1, x, m, h2, h⟩
      exact ⟨x, m, ⟨h1, h2⟩, h⟩
  rw [this]
  simp only [Nat.reduceEqDiff, false_and, or_false, or_assoc]

theorem not_unsigned_nil : ¬ Unsigned [] := by
  unfold Unsigned
  rw [← or_assoc (a := lower _ = _), unsigned_inf, unsigned_nan]
  rintro (h | ⟨x, m, h, -⟩ | h | h)
  · exact not_real_nil _ _ _ h
  · cases h
  · simp [Lang, lower_nil, S_inf, S_infinity] at h
  · obtain ⟨-, a, t, h, ha, -⟩ := h
    rw [(List.append_eq_nil_iff.1 h.symm).1] at ha
    cases ha

theorem number_cons (c : Nat) (u : List Nat) : Number (c :: u) ↔ ((c = 43 ∨ c = 45) ∧ Unsigned u) ∨ Unsigned (c :: u) := by
  constructor
  · rintro ⟨sg, v, h, hs, hv⟩
    rcases hs with rfl | rfl | rfl
    · obtain rfl : v = c :: u := by simpa using h.symm
      exact .inr hv
    all_goals
      simp only [List.cons_append, List.nil_append, List.cons.injEq] at h
      obtain ⟨rfl, rfl⟩ := h
      exact .inl ⟨by simp, hv⟩
  · rintro (⟨h, hu⟩ | h)
    · exact ⟨[c], u, rfl, by rcases h with rfl | rfl <;> simp [Strtod.Sign], hu⟩
    · exact ⟨[], c :: u, rfl, .inl rfl, h⟩

theorem begin_lang (c : Nat) (u : List Nat) : Unsigned (c :: u) ↔ ∃ e, begin c = some e ∧ Lang e u := by
  rw [unsigned_cons]
  have hi : letterAt (S "infinity") 0 c = true ↔ c = 105 ∨ c + 32 = 105 := letter _ _ _ _ (by decide)
  have hn : letterAt (S "nan") 0 c = true ↔ c = 110 ∨ c + 32 = 110 := letter _ _ _ _ (by decide)
  unfold begin
  by_cases h0 : c = 48
  · subst h0
    have : Dec 48 := by unfold Dec; decide
    simp [Lang, this]
  · rw [if_neg h0]
    by_cases h1 : Dec c
    · rw [if_pos ((digit_iff c).2 h1)]
      have : c ≠ 46 ∧ c ≠ 105 ∧ c + 32 ≠ 105 ∧ c ≠ 110 ∧ c + 32 ≠ 110 := by unfold Dec at h1; omega
      simp [Lang, h0, h1, this]
    · rw [if_neg (fun h => h1 ((digit_iff c).1 h))]
      by_cases h2 : c = 46
      · subst h2
        simp [Lang, h1]
      · rw [if_neg h2]
        by_cases h3 : c = 105 ∨ c + 32 = 105
        · rw [if_pos (hi.2 h3)]
          have : ¬ (c = 110 ∨ c + 32 = 110) := by omega
          simp only [h0, h1, h2, h3, this, false_and, true_and, or_false, false_or, Option.some.injEq, exists_eq_left']
        · rw [if_neg (fun h => h3 (hi.1 h))]
          by_cases h4 : c = 110 ∨ c + 32 = 110
          · rw [if_pos (hn.2 h4)]
            simp only [h0, h1, h2, h3, h4, false_and, true_and, false_or, Option.some.injEq, exists_eq_left']
          · rw [if_neg (fun h => h4 (hn.1 h))]
            simp only [h0, h1, h2, h3, h4, false_and, or_false, reduceCtorEq, exists_false]


theorem int_nil (D : Nat → Prop) (e E : Nat) : Int D e E [] := .inl (frac_nil D e E)
theorem expDigits_cons (c : Nat) (u : List Nat) : ExpDigits (c :: u) ↔ Dec c ∧ ExpDigits u := by simp [ExpDigits]
theorem expDigits1_cons (c : Nat) (u : List Nat) : ExpDigits1 (c :: u) ↔ Dec c ∧ ExpDigits u := by simp [ExpDigits1, ExpDigits]

theorem lang_nil (st : St) : Lang st [] ↔ st.accepts = true := by
  cases st with
  | start => simpa [Lang, St.accepts, Number] using fun _ => not_unsigned_nil
  | sign => simpa [Lang, St.accepts] using not_unsigned_nil
  | zero => simpa [Lang, St.accepts] using int_nil _ _ _
  | int => simpa [Lang, St.accepts] using int_nil _ _ _
  | dot => simpa [Lang, St.accepts] using not_frac1_nil _ _ _
  | intDot => simpa [Lang, St.accepts] using frac_nil _ _ _
  | frac => simpa [Lang, St.accepts] using frac_nil _ _ _
  | exp => simpa [Lang, St.accepts] using not_expRest_nil
  | expSign => simp [Lang, St.accepts, ExpDigits1]
  | expDigit => simp [Lang, St.accepts, ExpDigits]
  | hexX => simpa [Lang, St.accepts] using not_real_nil _ _ _
  | hexInt => simpa [Lang, St.accepts] using int_nil _ _ _
  | hexDot => simpa [Lang, St.accepts] using not_frac1_nil _ _ _
  | hexIntDot => simpa [Lang, St.accepts] using frac_nil _ _ _
  | hexFrac => simpa [Lang, St.accepts] using frac_nil _ _ _
  | pow => simpa [Lang, St.accepts] using not_expRest_nil
  | powSign => simp [Lang, St.accepts, ExpDigits1]
  | powDigit => simp [Lang, St.accepts, ExpDigits]
  | inf n =>
    simp only [Lang, lower_nil, S_inf, S_infinity, St.accepts, List.nil_eq, List.drop_eq_nil_iff, List.length_cons, List.length_nil, Bool.or_eq_true, beq_iff_eq]
    omega
  | nan n =>
    simp only [Lang, St.accepts, beq_iff_eq, S_nan]
    constructor
    · rintro ⟨h, a, t, h1, h2, -⟩
      rw [(List.append_eq_nil_iff.1 h1.symm).1, lower_nil, List.nil_eq, List.drop_eq_nil_iff] at h2
      simp at h2
      omega
    · rintro rfl
      exact ⟨Nat.le_refl _, [], [], rfl, rfl, .inl rfl⟩
  | paren => simp [Lang, St.accepts]
  | closed => simp [Lang, St.accepts]

theorem ite_some {p : Prop} [Decidable p] {a : St} {o : Option St} {P : St → Prop} :
    (∃ e, (if p then some a else o) = some e ∧ P e) ↔ (p ∧ P a) ∨ (¬ p ∧ ∃ e, o = some e ∧ P e) := by
  by_cases h : p
  · simp [h]
  · simp [h]

theorem none_some {P : St → Prop} : (∃ e, (none : Option St) = some e ∧ P e) ↔ False := by simp

theorem lang_cons (st : St) (c : Nat) (u : List Nat) : Lang st (c :: u) ↔ ∃ e, step st c = some e ∧ Lang e u := by
  have hd := digit_iff c
  have hx := hexDigit_iff c
  cases st with
  | start =>
    simp only [Lang, step, number_cons, begin_lang, ite_some]
    by_cases h : c = 43 ∨ c = 45
    · have : begin c = none := by rcases h with rfl | rfl <;> decide
      simp [h, this]
    · simp [h]
  | sign => exact begin_lang c u
  | zero =>
    have h1 : (∃ x m, c :: u = x :: m ∧ (x = 120 ∨ x = 88) ∧ Real Hex 112 80 m) ↔ (c = 120 ∨ c = 88) ∧ Real Hex 112 80 u := by
      simp only [List.cons.injEq]
      constructor
      · rintro ⟨x, m, ⟨rfl, rfl⟩, h⟩; exact h
      · intro h; exact ⟨c, u, ⟨rfl, rfl⟩, h⟩
    simp only [Lang, step, ite_some, none_some, h1, int_cons, hd]
    unfold Dec
    grind
  | int =>
    simp only [Lang, step, ite_some, none_some, int_cons, hd]
    unfold Dec
    grind
  | dot => simp only [Lang, step, ite_some, none_some, frac1_cons, hd]; grind
  | intDot =>
    simp only [Lang, step, ite_some, none_some, frac_cons, hd]
    unfold Dec
    grind
  | frac =>
    simp only [Lang, step, ite_some, none_some, frac_cons, hd]
    unfold Dec
    grind
  | exp =>
    simp only [Lang, step, ite_some, none_some, expRest_cons, hd]
    unfold Dec
    grind
  | expSign => simp only [Lang, step, ite_some, none_some, expDigits1_cons, hd]; grind
  | expDigit => simp only [Lang, step, ite_some, none_some, expDigits_cons, hd]; grind
  | hexX =>
    simp only [Lang, step, ite_some, none_some, real_cons, hx]
    unfold Hex Dec
    grind
  | hexInt =>
    simp only [Lang, step, ite_some, none_some, int_cons, hx]
    unfold Hex Dec
    grind
  | hexDot => simp only [Lang, step, ite_some, none_some, frac1_cons, hx]; grind
  | hexIntDot =>
    simp only [Lang, step, ite_some, none_some, frac_cons, hx]
    unfold Hex Dec
    grind
  | hexFrac =>
    simp only [Lang, step, ite_some, none_some, frac_cons, hx]
    unfold Hex Dec
    grind
  | pow =>
    simp only [Lang, step, ite_some, none_some, expRest_cons, hd]
    unfold Dec
    grind
  | powSign => simp only [Lang, step, ite_some, none_some, expDigits1_cons, hd]; grind
  | powDigit => simp only [Lang, step, ite_some, none_some, expDigits_cons, hd]; grind
  | inf n =>
    rw [inf_cons]
    simp only [step, ite_some, none_some, and_false, or_false]
  | nan n =>
    rw [nan_cons]
    simp only [step, ite_some, none_some, and_false, or_false]
    constructor
    · rintro (h | ⟨rfl, h, h'⟩)
      · exact .inl h
      · refine .inr ⟨?_, ⟨rfl, h⟩, h'⟩
        rw [letter_none _ _ _ (by decide)]
        decide
    · rintro (h | ⟨-, ⟨h1, h2⟩, h'⟩)
      · exact .inl h
      · exact .inr ⟨h1, h2, h'⟩
  | paren =>
    simp only [Lang, step, ite_some, none_some, paren_cons, nanChar_iff]
    unfold Word Dec
    grind
  | closed => simp [Lang, step]

/-- The states that reading can reach. -/
def Ok : St → Prop
  | .inf n => n ≤ 8
  | .nan n => n ≤ 3
  | _ => True

theorem step_ok (st e : St) (c : Nat) (h : step st c = some e) : Ok e := by
  have hb : begin c = some e → Ok e := by
    intro h
    unfold begin at h
    split at h
    · cases h; trivial
    · split at h
      · cases h; trivial
      · split at h
        · cases h; trivial
        · split at h
          · cases h; simp [Ok]
          · split at h
            · cases h; simp [Ok]
            · cases h
  have hword : ∀ (word : List Nat) n, letterAt word n c = true → n < word.length := by
    intro word n h
    by_contra hn
    rw [letter_none _ _ _ (by omega)] at h
    cases h
  cases st with
  | start => simp only [step] at h; split at h; · cases h; trivial
             · exact hb h
  | sign => exact hb h
  | inf n =>
    simp only [step] at h
    split at h
    · rename_i h1
      cases h
      have := hword _ _ h1
      rw [S_infinity] at this
      exact this
    · cases h
  | nan n =>
    simp only [step] at h
    split at h
    · rename_i h1
      cases h
      have := hword _ _ h1
      rw [S_nan] at this
      exact this
    · split at h
      · cases h; trivial
      · cases h
  | _ =>
    simp only [step] at h
    repeat' split at h
    all_goals first | (cases h; done) | (cases h; trivial)

/-- Every state that reading can reach can be left with a number. -/
theorem lang_ex (st : St) (h : Ok st) : ∃ u, Lang st u := by
  have acc : st.accepts = true → ∃ u, Lang st u := fun h => ⟨[], (lang_nil st).2 h⟩
  have one : ∀ c e, step st c = some e → e.accepts = true → ∃ u, Lang st u := fun c e h1 h2 => ⟨[c], (lang_cons st c []).2 ⟨e, h1, (lang_nil e).2 h2⟩⟩
  cases st with
  | start => exact one 48 .zero (by decide) rfl
  | sign => exact one 48 .zero (by decide) rfl
  | dot => exact one 48 .frac (by decide) rfl
  | exp => exact one 48 .expDigit (by decide) rfl
  | expSign => exact one 48 .expDigit (by decide) rfl
  | hexX => exact one 48 .hexInt (by decide) rfl
  | hexDot => exact one 48 .hexFrac (by decide) rfl
  | pow => exact one 48 .powDigit (by decide) rfl
  | powSign => exact one 48 .powDigit (by decide) rfl
  | paren => exact one 41 .closed (by decide) rfl
  | inf n =>
    have h8 : n ≤ 8 := h
    refine ⟨(S "infinity").drop n, .inr ⟨h8, ?_⟩⟩
    interval_cases n <;> decide
  | nan n =>
    have h3 : n ≤ 3 := h
    refine ⟨(S "nan").drop n, h3, (S "nan").drop n, [], by simp, ?_, .inl rfl⟩
    interval_cases n <;> decide
  | _ => exact acc rfl

theorem lang_go (st e : St) (s u : List Nat) (h : go st s = some e) : Lang st (s ++ u) ↔ Lang e u := by
  induction s generalizing st with
  | nil => cases h; rfl
  | cons c s ih =>
    simp only [go, Option.bind_eq_some_iff] at h
    obtain ⟨m, h1, h2⟩ := h
    rw [List.cons_append, lang_cons, h1]
    simp only [Option.some.injEq, exists_eq_left']
    exact ih m h2

theorem go_ok (st e : St) (s : List Nat) (hs : Ok st) (h : go st s = some e) : Ok e := by
  induction s generalizing st with
  | nil => cases h; exact hs
  | cons c s ih =>
    simp only [go, Option.bind_eq_some_iff] at h
    obtain ⟨m, h1, h2⟩ := h
    exact ih m (step_ok st m c h1) h2

theorem item_spec (s : List Nat) (st : St) : go st (s.take (item s.length s st).1) = some (item s.length s st).2 ∧
    ∀ (h : (item s.length s st).1 < s.length), step (item s.length s st).2 s[(item s.length s st).1] = none := by
  induction s generalizing st with
  | nil => simp [item, go]
  | cons c s ih =>
    cases hs : step st c with
    | none =>
      have : item (c :: s).length (c :: s) st = (0, st) := by simp only [List.length_cons, item, hs]
      rw [this]
      exact ⟨rfl, fun _ => hs⟩
    | some m =>
      have : item (c :: s).length (c :: s) st = ((item s.length s m).1 + 1, (item s.length s m).2) := by simp only [List.length_cons, item, hs]
      rw [this]
      obtain ⟨h1, h2⟩ := ih m
      refine ⟨?_, fun h => ?_⟩
      · simp only [List.take_succ_cons, go, hs, Option.bind_some]
        exact h1
      · exact h2 (by simpa using h)

theorem takes_item (s : List Nat) : Takes s (item s.length s .start).1 ∧ (Number (s.take (item s.length s .start).1) ↔ (item s.length s .start).2.accepts = true) := by
  obtain ⟨h1, h2⟩ := item_spec s .start
  have hle := (item_le s.length s .start).2
  generalize (item s.length s .start).1 = n at *
  generalize (item s.length s .start).2 = e at *
  refine ⟨⟨hle, ?_, fun m hnm hm => ?_⟩, ?_⟩
  · obtain ⟨u, hu⟩ := lang_ex e (go_ok .start e _ trivial h1)
    exact ⟨u, (lang_go .start e _ u h1).2 hu⟩
  · rintro ⟨u, hu⟩
    have hlt : n < s.length := by omega
    have hsplit : s.take m = s.take n ++ s[n] :: (s.take m).drop (n + 1) := by
      conv => lhs; rw [← List.take_append_drop n (s.take m)]
      rw [List.take_take, Nat.min_eq_left (by omega), List.drop_eq_getElem_cons (by rw [List.length_take]; omega), List.getElem_take]
    rw [hsplit, List.append_assoc, List.cons_append] at hu
    have := (lang_go .start e _ _ h1).1 hu
    rw [lang_cons, h2 hlt] at this
    simp at this
  · have := lang_go .start e _ [] h1
    rw [List.append_nil, lang_nil] at this
    exact this

end ScanX

/-- **C131**, exactly: of a view that does not begin with a blank, `sscanf` takes the longest part that is the beginning of a number; the conversion succeeds if that part is a number, and
its value is that of this part.  Decimal and hexadecimal numbers, infinities and NaNs are known, as in the grammar of `strtod`.
Missing: memory that is not terminated, and the blanks which the assertion does not know; see `C131_refuted`. -/
theorem C131_exact_partial (long : Bool) (s after : List Nat) (hs : 0 ∉ s) (hne : s ≠ []) (hl : s.length < 10 ^ 10) (hb : ∀ c ∈ s.head?, ¬ (c = 32 ∨ (9 ≤ c ∧ c ≤ 13))) (ha : 0 ∈ after) :
    ∃ n, Takes s n ∧ (Number (s.take n) → Scan.atof long (s ++ after) s.length = .ok (true, some (s.take n))) ∧
      (¬ Number (s.take n) → Scan.atof long (s ++ after) s.length = .ok (false, none)) := by
  have hb' : ∀ c ∈ s.head?, blank c = false := by
    intro c hc
    have := hb c hc
    unfold blank
    simpa using this
  obtain ⟨h1, h2⟩ := ScanX.takes_item s
  refine ⟨_, h1, fun h => ?_, fun h => ?_⟩
  · rw [atof_view long s after hs hne hl hb' ha, if_pos (h2.1 h)]
  · rw [atof_view long s after hs hne hl hb' ha, if_neg (fun h' => h (h2.2 h'))]

/-- A view that is a number is converted as a whole. -/
theorem C131_whole_partial (long : Bool) (s after : List Nat) (hn : Number s) (hs : 0 ∉ s) (hl : s.length < 10 ^ 10) (ha : 0 ∈ after) :
    Scan.atof long (s ++ after) s.length = .ok (true, some s) := by
  have hne : s ≠ [] := by
    rintro rfl
    obtain ⟨sg, u, h, -, hu⟩ := hn
    rw [(List.append_eq_nil_iff.1 h.symm).2] at hu
    exact ScanX.not_unsigned_nil hu
  have hb : ∀ c ∈ s.head?, ¬ (c = 32 ∨ (9 ≤ c ∧ c ≤ 13)) := by
    intro c hc hbl
    cases s with
    | nil => cases hc
    | cons d u =>
      obtain rfl : d = c := by simpa using hc
      have hst : step .start d = none := by
        rcases hbl with rfl | h
        · decide
        · obtain ⟨h1, h2⟩ := h
          interval_cases d <;> decide
      have := (ScanX.lang_cons .start d u).1 hn
      rw [hst] at this
      simp at this
  obtain ⟨n, ⟨h1, h2, h3⟩, h4, -⟩ := C131_exact_partial long s after hs hne hl hb ha
  have : n = s.length := by
    by_contra hne'
    exact h3 s.length (by omega) (Nat.le_refl _) ⟨[], by simpa using hn⟩
  rw [this, List.take_length] at h4
  exact h4 hn

/-- `-0x1.8p+1` is a number. -/
example : Number (S "-0x1.8p+1") :=
  ⟨[45], S "0x1.8p+1", by decide, .inr (.inr rfl), .inr (.inl ⟨120, S "1.8p+1", by decide, .inl rfl, S "1.8", S "p+1", by decide,
    ⟨[49], [56], by simp [Hex, Dec], by simp [Hex, Dec], by decide, .inl (by decide)⟩,
    .inr ⟨112, [43], [49], by decide, .inl rfl, .inr (.inl rfl), by decide, by simp [Dec]⟩⟩)⟩
example : Scan.atof true (S "-0x1.8p+1" ++ S ",77" ++ [0]) 9 = .ok (true, some (S "-0x1.8p+1")) := by decide +kernel
example : Scan.atof true (S "NaN(x_9)" ++ S ")" ++ [0]) 8 = .ok (true, some (S "NaN(x_9)")) := by decide +kernel
example : Scan.atof false (S "-iNf" ++ S "inity" ++ [0]) 4 = .ok (true, some (S "-iNf")) := by decide +kernel
/-- What is taken need not be a number. -/
example : Scan.atof true (S "12e" ++ S "5" ++ [0]) 3 = .ok (false, none) := by decide +kernel
example : Scan.atof true (S "infinit" ++ [0]) 7 = .ok (false, none) := by decide +kernel

/-- A view that begins with a number is accepted although it is no number. -/
theorem C131_refuted_trailing (long : Bool) : Scan.atof long (S "12abc" ++ [0]) 5 = .ok (true, some (S "12")) ∧ ¬ Number (S "12abc") := by
  refine ⟨by cases long <;> decide +kernel, fun h => ?_⟩
  obtain ⟨h1, h2⟩ := ScanX.takes_item (S "12abc")
  have hi : item (S "12abc").length (S "12abc") .start = (2, .int) := by decide +kernel
  rw [hi] at h1
  exact h1.2.2 5 (by decide) (by decide) ⟨[], by rw [List.append_nil, show (S "12abc").take 5 = S "12abc" by decide]; exact h⟩

end C4
