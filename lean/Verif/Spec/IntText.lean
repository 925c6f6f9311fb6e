import Verif.Spec.Numeral
/-
Specification of integer texts: which strings denote an integer, and which one.
-/
namespace C4.Spec

/-- Value of a digit character (decimal digits and letters of either case). -/
def charDigit (c : Nat) : Option Nat :=
  if 48 ≤ c ∧ c ≤ 57 then some (c - 48)
  else if 97 ≤ c ∧ c ≤ 102 then some (c - 97 + 10)
  else if 65 ≤ c ∧ c ≤ 70 then some (c - 65 + 10)
  else none

/-- `s` is a string of base-`b` digits with digit values `ds`. -/
def IsDigits (b : Nat) (s ds : List Nat) : Prop :=
  s.map charDigit = ds.map some ∧ ∀ d ∈ ds, d < b

/-- The (non-empty) string `s` is a base-`b` digit string of value `n`. -/
def DigitText (b : Nat) (s : List Nat) (n : Nat) : Prop :=
  s ≠ [] ∧ ∃ ds, IsDigits b s ds ∧ n = value b ds

/-- Radix selected by a prefix letter, either case. -/
def radixOf (c : Nat) : Option Nat :=
  if c = 120 ∨ c = 88 then some 16 else if c = 111 ∨ c = 79 then some 8
  else if c = 98 ∨ c = 66 then some 2 else none

/-- `s` denotes the natural number `n`: decimal digits, or `0x`/`0o`/`0b` (either case) and digits of that
radix. -/
inductive UintDenotes : List Nat → Nat → Prop
  | dec {s : List Nat} {n : Nat} : DigitText 10 s n → UintDenotes s n
  | pre {c r : Nat} {s : List Nat} {n : Nat} : radixOf c = some r → DigitText r s n → UintDenotes (48 :: c :: s) n

/-- `s` denotes the integer `n`: optional '-' and a natural number text. -/
inductive IntDenotes : List Nat → Int → Prop
  | pos {s : List Nat} {n : Nat} : UintDenotes s n → IntDenotes s n
  | neg {s : List Nat} {n : Nat} : UintDenotes s n → IntDenotes (45 :: s) (-(n : Int))

theorem IsDigits.unique {b b' : Nat} {s ds ds' : List Nat} (h : IsDigits b s ds) (h' : IsDigits b' s ds') :
    ds = ds' := by
  have := h.1.symm.trans h'.1
  exact (List.map_inj_right (fun _ _ h => by simpa using h)).mp this

theorem DigitText.unique {b : Nat} {s : List Nat} {n n' : Nat} (h : DigitText b s n)
    (h' : DigitText b s n') : n = n' := by
  obtain ⟨_, ds, h1, rfl⟩ := h
  obtain ⟨_, ds', h1', rfl⟩ := h'
  rw [h1.unique h1']

theorem isDigits_nil {b : Nat} {ds : List Nat} : IsDigits b [] ds ↔ ds = [] := by
  constructor
  · rintro ⟨h, _⟩
    cases ds with
    | nil => rfl
    | cons d ds => simp at h
  · rintro rfl; exact ⟨rfl, by simp⟩

theorem isDigits_cons {b c : Nat} {s ds : List Nat} :
    IsDigits b (c :: s) ds ↔ ∃ d ds', ds = d :: ds' ∧ charDigit c = some d ∧ d < b ∧ IsDigits b s ds' := by
  constructor
  · rintro ⟨h, h2⟩
    cases ds with
    | nil => simp at h
    | cons d ds =>
      simp at h
      exact ⟨d, ds, rfl, h.1, h2 d (by simp), by simpa using h.2, fun x hx => h2 x (by simp [hx])⟩
  · rintro ⟨d, ds', rfl, h1, h2, h3, h4⟩
    refine ⟨by simp [h1, h3], fun x hx => ?_⟩
    rw [List.mem_cons] at hx
    rcases hx with rfl | hx
    · exact h2
    · exact h4 x hx

theorem radixOf_not_digit {c r : Nat} (h : radixOf c = some r) : ∀ d, charDigit c = some d → 10 ≤ d := by
  intro d hd
  unfold radixOf at h
  unfold charDigit at hd
  split at hd
  · rename_i h48
    exfalso
    split at h
    · omega
    · split at h
      · omega
      · split at h
        · omega
        · cases h
  · split at hd
    · injection hd; omega
    · split at hd
      · injection hd; omega
      · cases hd

/-- A text denotes at most one natural number. -/
theorem UintDenotes.unique {s : List Nat} {n n' : Nat} (h : UintDenotes s n) (h' : UintDenotes s n') :
    n = n' := by
  cases h with
  | dec h =>
    cases h' with
    | dec h' => exact h.unique h'
    | pre hr h' =>
      obtain ⟨_, ds, hd, _⟩ := h
      rw [isDigits_cons] at hd
      obtain ⟨_, _, _, _, _, hd⟩ := hd
      rw [isDigits_cons] at hd
      obtain ⟨d, _, _, hd1, hd2, _⟩ := hd
      have := radixOf_not_digit hr d hd1
      omega
  | pre hr h =>
    cases h' with
    | dec h' =>
      obtain ⟨_, ds, hd, _⟩ := h'
      rw [isDigits_cons] at hd
      obtain ⟨_, _, _, _, _, hd⟩ := hd
      rw [isDigits_cons] at hd
      obtain ⟨d, _, _, hd1, hd2, _⟩ := hd
      have := radixOf_not_digit hr d hd1
      omega
    | pre hr' h' => rw [hr] at hr'; cases hr'; exact h.unique h'

theorem UintDenotes.head {s : List Nat} {n : Nat} (h : UintDenotes s n) :
    ∃ c t, s = c :: t ∧ 48 ≤ c ∧ c ≤ 57 := by
  cases h with
  | dec h =>
    obtain ⟨hne, ds, hd, _⟩ := h
    cases s with
    | nil => simp at hne
    | cons c t =>
      rw [isDigits_cons] at hd
      obtain ⟨d, _, _, hd1, hd2, _⟩ := hd
      refine ⟨c, t, rfl, ?_⟩
      unfold charDigit at hd1
      split at hd1
      · assumption
      · split at hd1
        · injection hd1; omega
        · split at hd1
          · injection hd1; omega
          · cases hd1
  | pre _ _ => exact ⟨48, _, rfl, by omega, by omega⟩

/-- A text denotes at most one integer. -/
theorem IntDenotes.unique {s : List Nat} {n n' : Int} (h : IntDenotes s n) (h' : IntDenotes s n') :
    n = n' := by
  cases h with
  | pos h =>
    cases h' with
    | pos h' => rw [h.unique h']
    | neg h' => obtain ⟨c, t, e, _, _⟩ := h.head; simp at e; omega
  | neg h =>
    cases h' with
    | pos h' => obtain ⟨c, t, e, _, _⟩ := h'.head; simp at e; omega
    | neg h' => rw [h.unique h']

end C4.Spec
