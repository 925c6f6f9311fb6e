import Verif.Substr.Views
import Verif.Props.StdCompat
/-
Property C132: views of C strings and literals.
-/
namespace C4
open Spec

theorem strlen_spec (s rest : List Nat) (hs : 0 ∉ s) : strlen (s ++ 0 :: rest) = .ok s.length := by
  induction s with
  | nil => rfl
  | cons c s ih =>
    rw [List.mem_cons, not_or] at hs
    rw [List.cons_append, strlen, if_neg (Ne.symm hs.1), ih hs.2]
    rfl

theorem strlen_ub (m : List Nat) (h : 0 ∉ m) : strlen m = .ub := by
  induction m with
  | nil => rfl
  | cons c m ih =>
    rw [List.mem_cons, not_or] at h
    rw [strlen, if_neg (Ne.symm h.1), ih h.2]
    rfl

/-- C132: the view of a C string has the characters before the first zero; the null pointer gives the null view.  (Memory without a zero is read beyond its end.) -/
theorem C132_ptr (s rest m : List Nat) (hs : 0 ∉ s) (hm : 0 ∉ m) :
    viewOfPtr (some (s ++ 0 :: rest)) = .ok ⟨false, s⟩ ∧ viewOfPtr none = .ok ⟨true, []⟩ ∧ viewOfPtr (some m) = .ub := by
  refine ⟨?_, rfl, ?_⟩
  · simp only [viewOfPtr, strlen_spec s rest hs, Res.ok_bind, viewAt]
    rw [if_pos (by simp), List.take_left]
  · simp only [viewOfPtr, strlen_ub m hm]
    rfl

example : 0 ∉ S "abc" ∧ viewOfPtr (some (S "abc" ++ 0 :: S "def")) = .ok ⟨false, S "abc"⟩ := ⟨by decide, by rfl⟩

/-- C132: the view of an array has all its characters but the last; so for a literal without zeros it is that of the pointer to it. -/
theorem C132_array_partial (s : List Nat) (c : Nat) : viewOfArray (s ++ [c]) = ⟨false, s⟩ ∧ (0 ∉ s → viewOfPtr (some (s ++ [0])) = .ok (viewOfArray (s ++ [0]))) := by
  have h : ∀ c, viewOfArray (s ++ [c]) = ⟨false, s⟩ := by
    intro c
    unfold viewOfArray
    simp
  refine ⟨h c, fun hs => ?_⟩
  rw [h 0]
  exact (C132_ptr s [] [] hs (by simp)).1

/-- C132 fails for arrays that are not exactly filled: an array of 8 characters holding "ab" is viewed with the zeros after it, and is not equal to its string; and of an array
without a zero the last character is lost. -/
theorem C132_array_refuted :
    viewOfPtr (some (S "ab" ++ [0, 0, 0, 0, 0, 0])) = .ok ⟨false, S "ab"⟩ ∧ viewOpArray true .eq ⟨false, S "ab"⟩ (S "ab" ++ [0, 0, 0, 0, 0, 0]) = .ok false ∧
    viewOfArray (S "abc") = ⟨false, S "ab"⟩ := by
  refine ⟨by rfl, by decide +kernel, by rfl⟩

/-- C132: a view made from two pointers into an object has the characters between them. -/
theorem C132_ptrs (a s r : List Nat) : viewOfPtrs (a ++ s ++ r) a.length (a.length + s.length) = ⟨false, s⟩ := by
  unfold viewOfPtrs
  rw [List.append_assoc, List.drop_left, Nat.add_sub_cancel_left, List.take_left]

example : viewOfPtrs (S "hello") 1 4 = ⟨false, S "ell"⟩ ∧ viewOfPtrs (S "hello") 2 2 = ⟨false, []⟩ := ⟨rfl, rfl⟩

/-- C132: the six comparisons of a view with a literal, on either side, are those of the lexicographic order. -/
theorem C132_compare (sgn : Bool) (rel : Rel) (ss : CView) (s : List Nat) (hs : ss.wf) (hb : Bytes s) :
    (∃ b, viewOpArray sgn rel ss (s ++ [0]) = .ok b ∧ (b = true ↔ rel.Holds sgn ss.chars s)) ∧
    (∃ b, arrayOpView sgn rel (s ++ [0]) ss = .ok b ∧ (b = true ↔ rel.Holds sgn s ss.chars)) := by
  obtain ⟨r, a1, a2, a3, a4⟩ := rel_of sgn ss ⟨false, s⟩ hs ⟨fun e => (by cases e), hb⟩
  unfold viewOpArray arrayOpView
  rw [(C132_array_partial s 0).1, a1]
  refine ⟨⟨_, rfl, ?_⟩, ⟨_, rfl, ?_⟩⟩
  · cases rel <;> simp [Rel.of, opEq, opNe, opLt, opGt, opLe, opGe, Rel.Holds, ← a2, ← a3, ← a4] <;> omega
  · cases rel <;> simp [Rel.Holds, ← a2, ← a4, eq_comm (a := s), ← a3] <;> omega

example : arrayOpView true .lt (S "ab" ++ [0]) ⟨false, S "b"⟩ = .ok true ∧ viewOpArray true .ge ⟨false, S "b"⟩ (S "ab" ++ [0]) = .ok true := by decide +kernel

/-- C132 for single characters, as far as it holds: for views of less than 2^31 characters. -/
theorem C132_char_partial (sgn : Bool) (rel : Rel) (ss : CView) (c : Nat) (hs : ss.wf) (hc : c < 256) (hlen : ss.chars.length < 2 ^ 31) :
    (∃ b, viewOpChar sgn rel ss c = .ok b ∧ (b = true ↔ rel.Holds sgn ss.chars [c])) ∧
    (∃ b, charOpView sgn rel c ss = .ok b ∧ (b = true ↔ rel.Holds sgn [c] ss.chars)) := by
  obtain ⟨r, a1, a2, a3, a4⟩ := C28_compare_char_partial sgn ss c hs hc hlen
  unfold viewOpChar charOpView
  rw [a1]
  refine ⟨⟨_, rfl, ?_⟩, ⟨_, rfl, ?_⟩⟩
  · cases rel <;> simp [Rel.of, opEq, opNe, opLt, opGt, opLe, opGe, Rel.Holds, ← a2, ← a3, ← a4] <;> omega
  · cases rel <;> simp [Rel.Holds, ← a2, ← a4, eq_comm (a := [c]), ← a3] <;> omega

example : charOpView true .lt 97 ⟨false, S "ab"⟩ = .ok true ∧ viewOpChar true .gt ⟨false, S "ab"⟩ 97 = .ok true := by decide +kernel

/-- C132 fails for single characters: a view of 2^32+1 characters is equal to its first one. -/
theorem C132_char_refuted : ∃ ss : CView, ss.wf ∧ viewOpChar true .eq ss 97 = .ok true ∧ charOpView true .eq 97 ss = .ok true ∧ ss.chars ≠ [97] := by
  obtain ⟨s, h1, h2, h3⟩ := C28_char_refuted
  refine ⟨s, h1, ?_, ?_, h3⟩
  · unfold viewOpChar; rw [h2]; rfl
  · unfold charOpView; rw [h2]; rfl

/-- C132: a view is empty if it has no characters; `has_str` tells if the C string at its beginning is not empty. -/
theorem C132_empty (v : CView) (hv : v.wf) : (v.empty = true ↔ v.chars = []) ∧ (v.notEmpty = true ↔ v.chars ≠ []) ∧
    ∃ b, v.hasStr = .ok b ∧ (b = true ↔ ∃ c s, v.chars = c :: s ∧ c ≠ 0) := by
  obtain ⟨hn, -⟩ := hv
  obtain ⟨null, chars⟩ := v
  cases chars with
  | nil => simp [CView.empty, CView.notEmpty, CView.hasStr]
  | cons c s =>
    have : null = false := by cases null with
      | false => rfl
      | true => exact absurd (hn rfl) (by simp)
    subst this
    simp [CView.empty, CView.notEmpty, CView.hasStr, rd]

example : CView.hasStr ⟨false, [0, 97]⟩ = .ok false ∧ CView.empty ⟨false, [0, 97]⟩ = false := by decide +kernel

end C4
