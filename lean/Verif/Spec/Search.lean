/-
Specification of searching in a list: extremal positions satisfying a condition, occurrences of a pattern.
-/
namespace C4.Spec

/-- `r` is the smallest position in `[lo,hi)` satisfying `P`, or `none` if there is none. -/
def IsFirst (P : Nat → Prop) (lo hi : Nat) (r : Option Nat) : Prop :=
  match r with
  | some i => lo ≤ i ∧ i < hi ∧ P i ∧ ∀ j, lo ≤ j → j < i → ¬ P j
  | none => ∀ j, lo ≤ j → j < hi → ¬ P j

/-- `r` is the largest position in `[0,hi)` satisfying `P`, or `none` if there is none. -/
def IsLast (P : Nat → Prop) (hi : Nat) (r : Option Nat) : Prop :=
  match r with
  | some i => i < hi ∧ P i ∧ ∀ j, i < j → j < hi → ¬ P j
  | none => ∀ j, j < hi → ¬ P j

/-- The character at position `i` of `s` is `c`. -/
def CharAt (s : List Nat) (c i : Nat) : Prop := s[i]? = some c

/-- The character at position `i` of `s` exists and satisfies `Q`. -/
def CharSat (s : List Nat) (Q : Nat → Prop) (i : Nat) : Prop := ∃ x, s[i]? = some x ∧ Q x

/-- `p` occurs in `s` at position `i`. -/
def OccursAt (s p : List Nat) (i : Nat) : Prop := ∃ pre post, s = pre ++ p ++ post ∧ pre.length = i

/-- `ps` are the positions of the leftmost non-overlapping occurrences of `p` in `s` at or after `pos`. -/
inductive LeftmostOccs (s p : List Nat) : Nat → List Nat → Prop
  | nil {pos : Nat} : (∀ i, pos ≤ i → ¬ OccursAt s p i) → LeftmostOccs s p pos []
  | cons {pos i : Nat} {is : List Nat} : pos ≤ i → OccursAt s p i →
      (∀ j, pos ≤ j → j < i → ¬ OccursAt s p j) → LeftmostOccs s p (i + p.length) is →
      LeftmostOccs s p pos (i :: is)

theorem occursAt_iff {s p : List Nat} {i : Nat} :
    OccursAt s p i ↔ i + p.length ≤ s.length ∧ ∀ j, j < p.length → s[i + j]? = p[j]? := by
  constructor
  · rintro ⟨pre, post, rfl, rfl⟩
    refine ⟨by simp, fun j hj => ?_⟩
    rw [List.append_assoc, List.getElem?_append_right (by omega), List.getElem?_append_left (by omega)]
    simp
  · rintro ⟨h1, h2⟩
    refine ⟨s.take i, s.drop (i + p.length), ?_, by simp; omega⟩
    have h3 : (s.drop i).take p.length = p := by
      apply List.ext_getElem?
      intro j
      by_cases hj : j < p.length
      · rw [List.getElem?_take, if_pos hj, List.getElem?_drop, h2 j hj]
      · rw [List.getElem?_take, if_neg hj, List.getElem?_eq_none (by omega)]
    have h4 : s.drop i = p ++ s.drop (i + p.length) := by
      conv => lhs; rw [← List.take_append_drop p.length (s.drop i), h3, List.drop_drop]
    rw [List.append_assoc, ← h4, List.take_append_drop]

theorem IsFirst.unique {P : Nat → Prop} {lo hi : Nat} {r r' : Option Nat}
    (h : IsFirst P lo hi r) (h' : IsFirst P lo hi r') : r = r' := by
  cases r with
  | none => cases r' with
    | none => rfl
    | some j => exact absurd h'.2.2.1 (h j h'.1 h'.2.1)
  | some i => cases r' with
    | none => exact absurd h.2.2.1 (h' i h.1 h.2.1)
    | some j =>
      obtain ⟨h1, h2, h3, h4⟩ := h
      obtain ⟨g1, g2, g3, g4⟩ := h'
      by_cases e : i < j
      · exact absurd h3 (g4 i h1 e)
      · by_cases e' : j < i
        · exact absurd g3 (h4 j g1 e')
        · congr 1; omega

theorem IsLast.unique {P : Nat → Prop} {hi : Nat} {r r' : Option Nat}
    (h : IsLast P hi r) (h' : IsLast P hi r') : r = r' := by
  cases r with
  | none => cases r' with
    | none => rfl
    | some j => exact absurd h'.2.1 (h j h'.1)
  | some i => cases r' with
    | none => exact absurd h.2.1 (h' i h.1)
    | some j =>
      obtain ⟨h2, h3, h4⟩ := h
      obtain ⟨g2, g3, g4⟩ := h'
      by_cases e : i < j
      · exact absurd g3 (h4 j e g2)
      · by_cases e' : j < i
        · exact absurd h3 (g4 i e' h2)
        · congr 1; omega

end C4.Spec
