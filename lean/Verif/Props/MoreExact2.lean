import Verif.Props.SubstrCompare
import Verif.Props.SubstrMutate
import Verif.Props.SubstrView
import Verif.Props.CtorDtor
/-
What the code does exactly where properties C28, C40, C46 and C81 fail.
-/
namespace C4
open Spec

/-- **C28**, comparison with a character, exactly: a text that begins with the character is compared by its length less one as a 32-bit number; the subtraction overflows if the lower half of the
length is `2^31`. -/
theorem C28_char_exact (sgn : Bool) (l : List Nat) (c : Nat) :
    ((c :: l).length % 2 ^ 32 = 2 ^ 31 → compareC sgn ⟨false, c :: l⟩ c = .ub) ∧
    ((c :: l).length % 2 ^ 32 ≠ 2 ^ 31 → ∃ r, compareC sgn ⟨false, c :: l⟩ c = .ok r ∧ -(2 ^ 31) ≤ r ∧ r < 2 ^ 31 ∧ (r - l.length) % 2 ^ 32 = 0) := by
  have hc : compareC sgn ⟨false, c :: l⟩ c = if (c :: l).length % 2 ^ 32 = 2 ^ 31 then .ub else .ok (toInt32 (c :: l).length - 1) := by
    unfold compareC
    simp only [Bool.not_false, Bool.true_and, List.length_cons, gt_iff_lt, Nat.zero_lt_succ, decide_true, if_true]
    have : rd (c :: l) 0 = .ok c := rfl
    rw [this, Res.ok_bind, if_neg (by simp)]
  rw [hc]
  constructor
  · intro h; rw [if_pos h]
  · intro h
    rw [if_neg h]
    refine ⟨_, rfl, ?_⟩
    have hl : (c :: l).length = l.length + 1 := rfl
    unfold toInt32
    rw [hl] at h ⊢
    split <;> omega

theorem lexLt_heads {sgn : Bool} {a c : Nat} {l k : List Nat} (h : a ≠ c) : LexLt sgn (a :: l) (c :: k) ↔ Spec.charValue sgn a < Spec.charValue sgn c := by
  constructor
  · rintro (⟨z, _, e⟩ | ⟨pre, x, y, s, t, e1, e2, hlt⟩)
    · simp only [List.cons_append, List.cons.injEq] at e
      exact absurd e.1.symm h
    · cases pre with
      | nil =>
        simp only [List.nil_append, List.cons.injEq] at e1 e2
        rw [e1.1, e2.1]; exact hlt
      | cons b pre =>
        simp only [List.cons_append, List.cons.injEq] at e1 e2
        exact absurd (e1.1.trans e2.1.symm) h
  · exact fun hlt => .inr ⟨[], a, c, l, k, rfl, rfl, hlt⟩

example : compareC true ⟨false, S "aaa"⟩ 97 = .ok 2 ∧ (S "aaa").length % 2 ^ 32 ≠ 2 ^ 31 := by decide

/-- Texts other than those of `C28_char_exact` are compared right, whatever their length. -/
theorem C28_char_other (sgn : Bool) (s : CView) (c : Nat) (hs : s.wf) (hc : c < 256) (h : ∀ l, s.chars ≠ c :: l) :
    ∃ r, compareC sgn s c = .ok r ∧ (r < 0 ↔ LexLt sgn s.chars [c]) ∧ r ≠ 0 ∧ (r > 0 ↔ LexLt sgn [c] s.chars) := by
  obtain ⟨null, chars⟩ := s
  cases chars with
  | nil =>
    obtain ⟨r, h1, h2, h3, h4⟩ := C28_compare_char_partial sgn ⟨null, []⟩ c hs hc (by simp)
    exact ⟨r, h1, h2, fun e => by simpa using h3.mp e, h4⟩
  | cons a l =>
    have hac : a ≠ c := fun e => h l (by rw [e])
    have hwf : (⟨false, [a]⟩ : CView).wf := ⟨by simp, fun x hx => hs.2 x (by simp at hx ⊢; exact .inl hx)⟩
    obtain ⟨r, h1, h2, h3, h4⟩ := C28_compare_char_partial sgn ⟨false, [a]⟩ c hwf hc (by simp)
    have hn : null = false := by
      cases null with
      | false => rfl
      | true => have := hs.1 rfl; simp at this
    subst hn
    have e : compareC sgn ⟨false, a :: l⟩ c = compareC sgn ⟨false, [a]⟩ c := by
      unfold compareC
      simp only [Bool.not_false, Bool.true_and, List.length_cons, gt_iff_lt, Nat.zero_lt_succ, decide_true, if_true]
      have e1 : rd (a :: l) 0 = .ok a := rfl
      have e2 : rd [a] 0 = .ok a := rfl
      rw [e1, e2, Res.ok_bind, Res.ok_bind, if_pos hac, if_pos hac]
    refine ⟨r, e.trans h1, h2.trans ?_, fun e => hac (by simpa using h3.mp e), h4.trans ?_⟩
    · rw [lexLt_heads hac, lexLt_heads hac]
    · rw [lexLt_heads (Ne.symm hac), lexLt_heads (Ne.symm hac)]

example : compareC true ⟨false, S "ba"⟩ 97 = .ok 1 ∧ ∀ l, S "ba" ≠ 97 :: l := by refine ⟨by decide, fun l => ?_⟩; simp [S]

/-- **C46**, exactly: two views are reported to overlap if and only if they have a character in common, or one of them is empty and begins strictly inside of the other. -/
theorem C46_exact (v t : View) :
    v.overlaps t = true ↔ (∃ a, (v.str ≤ a ∧ a < v.str + v.len) ∧ (t.str ≤ a ∧ a < t.str + t.len)) ∨
      (t.len = 0 ∧ v.str < t.str ∧ t.str < v.str + v.len) ∨ (v.len = 0 ∧ t.str < v.str ∧ v.str < t.str + t.len) := by
  unfold View.overlaps
  simp only [Bool.and_eq_true, decide_eq_true_eq]
  constructor
  · intro h
    by_cases hv : v.len = 0
    · right; right; omega
    · by_cases ht : t.len = 0
      · right; left; omega
      · exact .inl ⟨max v.str t.str, by omega, by omega⟩
  · rintro (⟨a, _, _⟩ | _ | _) <;> omega

example : (⟨1000, 3⟩ : View).overlaps ⟨1000, 0⟩ = false ∧ (⟨1000, 3⟩ : View).overlaps ⟨1002, 0⟩ = true ∧ (⟨1000, 3⟩ : View).overlaps ⟨1003, 0⟩ = false := by decide

/-- **C40** for `pos == npos`, exactly: undefined if the text would fit, otherwise nothing is written and the size of the text is returned, whatever the pattern. -/
theorem C40_npos (fuel : Nat) (s dst p r : List Nat) (hs : s.length < NPOS) (hd : dst.length < NPOS) :
    replaceAll (fuel + 1) s dst p r NPOS = if s.length ≤ dst.length then .ub else .ok (s.length, dst) := by
  have hN : NPOS = 18446744073709551615 := rfl
  have e1 : appendChunk s 0 NPOS (0, dst) = .ok (NPOS, dst) := by
    unfold appendChunk szSub
    rw [hN] at hd ⊢
    have h : ¬ ((18446744073709551615 + 2 ^ 64 - 0) % 2 ^ 64 > 0 ∧ (0 + (18446744073709551615 + 2 ^ 64 - 0) % 2 ^ 64) % 2 ^ 64 ≤ dst.length) := by omega
    simp only [if_neg h, Res.ok_bind]
  have e2 : findS s p NPOS = .ok none := by
    unfold findS
    split
    · rfl
    · unfold forUp
      rw [show s.length - p.length + 1 - NPOS = 0 by omega]; rfl
  unfold replaceAll replaceAllLoop
  rw [e1, Res.ok_bind, e2, Res.ok_bind]
  simp only []
  unfold appendChunk szSub
  rw [hN] at hd hs ⊢
  have a1 : (s.length + 2 ^ 64 - 18446744073709551615) % 2 ^ 64 = s.length + 1 := by omega
  have a2 : (18446744073709551615 + (s.length + 1)) % 2 ^ 64 = s.length := by omega
  simp only [a1, a2]
  by_cases h : s.length ≤ dst.length
  · rw [if_pos h, if_pos ⟨by omega, h⟩, if_neg (by omega)]; rfl
  · rw [if_neg h, if_neg (fun h' => h h'.2)]; rfl

example : replaceAll 9 (S "abc") (S "__") (S "b") (S "xy") NPOS = .ok (3, S "__") := by decide +kernel

/-- **C81** for types that are not trivial, exactly: removing nothing moves every element onto itself, which leaves all of them moved-from. -/
theorem C81_destroy_nothing (pre : List (Cell α)) (xs : List α) (rest : List (Cell α)) (d : Nat) :
    destroyRoom ⟨pre ++ xs.map .live ++ rest, d⟩ pre.length xs.length 0 false = .ok ⟨pre ++ List.replicate xs.length .moved ++ rest, d⟩ := by
  unfold destroyRoom
  rw [if_neg (by decide)]
  by_cases h0 : 0 < xs.length
  · rw [if_pos h0, Nat.sub_zero]
    obtain ⟨m', e, h⟩ := forN_inv (f := fun i (m : Slots α) => m.moveAssign (pre.length + i) (pre.length + (i + 0))) (n := xs.length)
      (s := ⟨pre ++ xs.map .live ++ rest, d⟩)
      (fun i m => m = ⟨pre ++ (List.replicate i .moved ++ (xs.drop i).map .live) ++ rest, d⟩) (by simp) (by
        intro j hj m hm
        subst hm
        refine ⟨_, ?_, rfl⟩
        have hx : xs.drop j = xs[j] :: xs.drop (j + 1) := List.drop_eq_getElem_cons hj
        generalize hR : pre ++ (List.replicate j .moved ++ (xs.drop j).map .live) ++ rest = R
        have hR' : R = (pre ++ List.replicate j .moved) ++ .live xs[j] :: ((xs.drop (j + 1)).map .live ++ rest) := by
          rw [← hR, hx, List.map_cons]; simp only [List.append_assoc, List.cons_append]
        have hg : R[pre.length + j]? = some (.live xs[j]) := by
          rw [hR']
          have : pre.length + j = (pre ++ List.replicate j (Cell.moved (α := α))).length := by simp
          rw [this]; simp
        have hs : R.set (pre.length + j) .moved = pre ++ (List.replicate (j + 1) .moved ++ (xs.drop (j + 1)).map .live) ++ rest := by
          rw [hR']
          have : pre.length + j = (pre ++ List.replicate j (Cell.moved (α := α))).length := by simp
          rw [this, List.set_append_right _ _ (Nat.le_refl _), Nat.sub_self, List.set_cons_zero, List.replicate_succ']
          simp
        unfold Slots.moveAssign
        rw [Nat.add_zero, hg]
        simp only [List.set_set, hs])
    rw [e, h]
    simp
  · have : xs = [] := by cases xs with
      | nil => rfl
      | cons => simp at h0
    subst this
    simp [forN, forFrom]

example : destroyRoom ⟨[.raw, .live 1, .live 2, .raw], 0⟩ 1 2 0 false = .ok ⟨[.raw, .moved, .moved, .raw], 0⟩ := by decide

end C4
