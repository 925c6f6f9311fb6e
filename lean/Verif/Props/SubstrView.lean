import Verif.Substr.View
/-
Properties C33 and C46: sub-view selectors and relations between views.
-/
namespace C4
open View

/-- The view `r` lies inside the view `v`. -/
def Inside (r v : View) : Prop := v.str ≤ r.str ∧ r.str + r.len ≤ v.str + v.len

theorem szSub_eq {a b : Nat} (ha : a < 2 ^ 64) (h : b ≤ a) : szSub a b = a - b := by
  unfold szSub
  have e : a + 2 ^ 64 - b = (a - b) + 2 ^ 64 := by omega
  rw [e, Nat.add_mod_right, Nat.mod_eq_of_lt (by omega)]

theorem chars_length (m : Nat → Nat) (v : View) : (v.chars m).length = v.len := by simp [View.chars]

/-- A view inside another shows the corresponding part of its characters. -/
theorem chars_inside (m : Nat → Nat) (r v : View) (h : Inside r v) :
    r.chars m = ((v.chars m).drop (r.str - v.str)).take r.len := by
  obtain ⟨h1, h2⟩ := h
  apply List.ext_getElem
  · simp [View.chars]; omega
  · intro i hi1 hi2
    simp [View.chars] at hi1 ⊢
    congr 1; omega

/-- C33: for arguments admitted by the assertions, `sub`, `range`, `first`, `last`, `left_of(pos)` and
`left_of(subs)`, `right_of(subs)` return views inside the original with the expected contents
(`right_of(pos)` and `offs` under the stricter bound, see `C33_refuted`). -/
theorem C33_selectors_partial (m : Nat → Nat) (v : View) (hv : v.len < NPOS) (a b : Nat)
    (ha : a ≤ v.len) (hb : b ≤ v.len) :
    (Inside (v.sub1 a) v ∧ (v.sub1 a).chars m = (v.chars m).drop a) ∧
    (a + b ≤ v.len → Inside (v.sub2 a b) v ∧ (v.sub2 a b).chars m = ((v.chars m).drop a).take b) ∧
    (Inside (v.sub2 a NPOS) v ∧ (v.sub2 a NPOS).chars m = (v.chars m).drop a) ∧
    (a ≤ b → Inside (v.range a b) v ∧ (v.range a b).chars m = ((v.chars m).drop a).take (b - a)) ∧
    (Inside (v.range a NPOS) v ∧ (v.range a NPOS).chars m = (v.chars m).drop a) ∧
    (Inside (v.first a) v ∧ (v.first a).chars m = (v.chars m).take a) ∧
    (v.first NPOS = v ∧ v.last NPOS = v ∧ v.leftOf NPOS = v ∧ v.leftOfInc NPOS true = v ∧
      v.rightOf NPOS = ⟨v.str + v.len, 0⟩ ∧ v.rightOfInc NPOS true = ⟨v.str + v.len, 0⟩) ∧
    (Inside (v.last a) v ∧ (v.last a).chars m = (v.chars m).drop (v.len - a)) ∧
    (a + b ≤ v.len → Inside (v.offs a b) v ∧
      (v.offs a b).chars m = ((v.chars m).drop a).take (v.len - b - a)) ∧
    (Inside (v.leftOf a) v ∧ (v.leftOf a).chars m = (v.chars m).take a) ∧
    (a < v.len → Inside (v.rightOf a) v ∧ (v.rightOf a).chars m = (v.chars m).drop (a + 1)) := by
  have hN : NPOS = 18446744073709551615 := rfl
  have h64 : v.len < 2 ^ 64 := by rw [hN] at hv; omega
  have ha64 : a ≠ NPOS := by omega
  have hb64 : b ≠ NPOS := by omega
  have hl := chars_length m v
  have tk : ∀ (l : List Nat) n, l.length ≤ n → l.take n = l := fun l n h => List.take_of_length_le h
  have key : ∀ r : View, Inside r v → ∀ l, ((v.chars m).drop (r.str - v.str)).take r.len = l →
      Inside r v ∧ r.chars m = l := fun r h l e => ⟨h, by rw [chars_inside m r v h, e]⟩
  refine ⟨?_, ?_, ?_, ?_, ?_, ?_, ?_, ?_, ?_, ?_, ?_⟩
  · have e : v.sub1 a = ⟨v.str + a, v.len - a⟩ := by simp only [sub1, szSub_eq h64 ha]
    rw [e]; apply key
    · exact ⟨by simp, by simp; omega⟩
    · simp; exact tk _ _ (by simp; omega)
  · intro hab
    have e : v.sub2 a b = ⟨v.str + a, b⟩ := by simp only [sub2, if_pos hb64]
    rw [e]; apply key
    · exact ⟨by simp, by simp; omega⟩
    · simp
  · have e : v.sub2 a NPOS = ⟨v.str + a, v.len - a⟩ := by simp [sub2, szSub_eq h64 ha]
    rw [e]; apply key
    · exact ⟨by simp, by simp; omega⟩
    · simp; exact tk _ _ (by simp; omega)
  · intro hab
    have e : v.range a b = ⟨v.str + a, b - a⟩ := by
      simp only [View.range, if_pos hb64, szSub_eq (by omega) hab]
    rw [e]; apply key
    · exact ⟨by simp, by simp; omega⟩
    · simp
  · have e : v.range a NPOS = ⟨v.str + a, v.len - a⟩ := by simp [View.range, szSub_eq h64 ha]
    rw [e]; apply key
    · exact ⟨by simp, by simp; omega⟩
    · simp; exact tk _ _ (by simp; omega)
  · have e : v.first a = ⟨v.str, a⟩ := by simp only [View.first, if_pos ha64]
    rw [e]; apply key
    · exact ⟨by simp, by simp; omega⟩
    · simp
  · simp [View.first, View.last, leftOf, leftOfInc, rightOf, rightOfInc]
  · have e : v.last a = ⟨v.str + v.len - a, a⟩ := by simp only [View.last, if_pos ha64]
    rw [e]; apply key
    · exact ⟨by simp; omega, by simp; omega⟩
    · have : v.str + v.len - a - v.str = v.len - a := by omega
      simp only [this]; exact tk _ _ (by simp; omega)
  · intro hab
    have e : v.offs a b = ⟨v.str + a, v.len - b - a⟩ := by
      simp only [offs, szSub_eq h64 hb, szSub_eq (show v.len - b < 2 ^ 64 by omega) (show a ≤ v.len - b by omega)]
    rw [e]; apply key
    · exact ⟨by simp, by simp; omega⟩
    · simp
  · have e : v.leftOf a = ⟨v.str, a⟩ := by simp only [leftOf, if_pos ha64]
    rw [e]; apply key
    · exact ⟨by simp, by simp; omega⟩
    · simp
  · intro hlt
    have e : v.rightOf a = ⟨v.str + (a + 1), v.len - (a + 1)⟩ := by
      simp only [rightOf, if_pos ha64, szSub_eq h64 (show a + 1 ≤ v.len by omega)]
    rw [e]; apply key
    · exact ⟨by simp, by simp; omega⟩
    · simp; exact tk _ _ (by simp; omega)

example : (⟨1000, 5⟩ : View).offs 1 2 = ⟨1001, 2⟩ ∧ (⟨1000, 5⟩ : View).rightOf 1 = ⟨1002, 3⟩ := by decide

/-- C33 refuted at the boundary the assertions admit: `offs(left,right)` with `left == len-right+1`
(assertion at substr.hpp:371), `right_of(pos)` with `pos == len` (assertion at :396) give a view of length
2^64-1, and `left_of(pos,true)` with `pos == len` (assertion at :387) a view one past the end. -/
theorem C33_refuted (v : View) (hv : v.len < NPOS) :
    (∀ left right, left ≤ v.len → right ≤ v.len → left = v.len - right + 1 →
      ¬ Inside (v.offs left right) v) ∧
    ¬ Inside (v.rightOf v.len) v ∧ ¬ Inside (v.rightOfInc v.len false) v ∧
    ¬ Inside (v.leftOfInc v.len true) v := by
  have hN : NPOS = 18446744073709551615 := rfl
  rw [hN] at hv
  refine ⟨?_, ?_, ?_, ?_⟩
  · intro left right h1 h2 h3 hin
    obtain ⟨_, h⟩ := hin
    simp only [offs, szSub_eq (show v.len < 2 ^ 64 by omega) h2] at h
    unfold szSub at h
    rw [Nat.mod_eq_of_lt (by omega)] at h
    omega
  · rintro ⟨_, h⟩
    simp only [rightOf, if_pos (show v.len ≠ NPOS by omega), szSub] at h
    rw [Nat.mod_eq_of_lt (by omega)] at h
    omega
  · rintro ⟨_, h⟩
    simp only [rightOfInc, if_pos (show v.len ≠ NPOS by omega), szSub, Bool.not_false, Bool.toNat_true] at h
    rw [Nat.mod_eq_of_lt (by omega)] at h
    omega
  · rintro ⟨_, h⟩
    simp only [leftOfInc, if_pos (show v.len ≠ NPOS by omega), Bool.toNat_true] at h
    rw [Nat.mod_eq_of_lt (by omega)] at h
    omega

/-- The boundary arguments of `C33_refuted` pass the assertions. -/
example : let v : View := ⟨1000, 3⟩; (2 ≤ v.len ∧ 2 ≤ v.len ∧ 2 ≤ v.len - 2 + 1) ∧
    v.offs 2 2 = ⟨1002, 2 ^ 64 - 1⟩ := by decide

/-- C33: cutting at a position: left part, the character, right part reconstruct the contents; with the
position included on either side there is nothing in between. -/
theorem C33_partition (m : Nat → Nat) (v : View) (hv : v.len < NPOS) (pos : Nat) (hp : pos < v.len) :
    v.chars m = (v.leftOf pos).chars m ++ [m (v.str + pos)] ++ (v.rightOf pos).chars m ∧
    v.chars m = (v.leftOfInc pos true).chars m ++ (v.rightOfInc pos false).chars m ∧
    v.chars m = (v.leftOfInc pos false).chars m ++ (v.rightOfInc pos true).chars m := by
  have hN : NPOS = 18446744073709551615 := rfl
  have h64 : v.len < 2 ^ 64 := by rw [hN] at hv; omega
  have hsel := C33_selectors_partial m v hv pos pos (by omega) (by omega)
  have e1 : (v.leftOf pos).chars m = (v.chars m).take pos := hsel.2.2.2.2.2.2.2.2.2.1.2
  have e2 : (v.rightOf pos).chars m = (v.chars m).drop (pos + 1) := (hsel.2.2.2.2.2.2.2.2.2.2 hp).2
  have e3 : v.leftOfInc pos true = v.leftOf (pos + 1) := by
    simp only [leftOfInc, leftOf, Bool.toNat_true]
    rw [if_pos (by omega), if_pos (by omega), Nat.mod_eq_of_lt (by omega)]
  have e4 : v.rightOfInc pos false = v.rightOf pos := by
    simp only [rightOfInc, rightOf, Bool.not_false, Bool.toNat_true]
  have e5 : v.leftOfInc pos false = v.leftOf pos := by
    simp only [leftOfInc, leftOf, Bool.toNat_false]
    rw [Nat.add_zero, Nat.mod_eq_of_lt (by omega)]
  have e6 : v.rightOfInc pos true = v.sub1 pos := by
    simp only [rightOfInc, sub1, Bool.not_true, Bool.toNat_false, Nat.add_zero]
    rw [if_pos (by omega)]
  have e7 : (v.leftOf (pos+1)).chars m = (v.chars m).take (pos+1) :=
    (C33_selectors_partial m v hv (pos+1) pos (by omega) (by omega)).2.2.2.2.2.2.2.2.2.1.2
  have hlen : pos < (v.chars m).length := by rw [chars_length]; exact hp
  refine ⟨?_, ?_, ?_⟩
  · have hc : m (v.str + pos) = (v.chars m)[pos] := by simp [View.chars]
    rw [e1, e2, hc]
    conv => lhs; rw [← List.take_append_drop pos (v.chars m), List.drop_eq_getElem_cons hlen]
    simp
  · rw [e3, e4, e7, e2, List.take_append_drop]
  · rw [e5, e6, e1, hsel.1.2, List.take_append_drop]

/-- C33: for a sub-view, what is left of it, the sub-view, and what is right of it reconstruct the
contents. -/
theorem C33_partition_sub (m : Nat → Nat) (v s : View) (hv : v.len < NPOS) (h : Inside s v) :
    v.chars m = (v.leftOfSub s).chars m ++ s.chars m ++ (v.rightOfSub s).chars m := by
  obtain ⟨h1, h2⟩ := h
  have hN : NPOS = 18446744073709551615 := rfl
  have e1 : v.leftOfSub s = ⟨v.str, s.str - v.str⟩ := by
    simp only [leftOfSub, sub2]
    rw [if_pos ⟨h1, by omega⟩, if_pos (by omega)]; rfl
  have e2 : v.rightOfSub s = ⟨s.str + s.len, v.str + v.len - (s.str + s.len)⟩ := by
    simp only [rightOfSub, sub2]
    rw [if_pos ⟨by omega, h2⟩, if_pos (by omega)]
    congr 1; omega
  rw [chars_inside m s v ⟨h1, h2⟩, chars_inside m (v.leftOfSub s) v (by rw [e1]; exact ⟨by simp, by simp; omega⟩),
    chars_inside m (v.rightOfSub s) v (by rw [e2]; exact ⟨by simp; omega, by simp; omega⟩), e1, e2]
  have hl := chars_length m v
  have e3 : s.str + s.len - v.str = (s.str - v.str) + s.len := by omega
  have e4 : ∀ l : List Nat, l.length = v.str + v.len - (s.str + s.len) →
    l.take (v.str + v.len - (s.str + s.len)) = l := fun l h => List.take_of_length_le (by omega)
  simp only [Nat.sub_self, List.drop_zero]
  rw [e4 _ (by simp [hl]; omega), List.append_assoc, e3, ← List.drop_drop, List.take_append_drop,
    List.take_append_drop]

example : Inside ⟨1002, 2⟩ ⟨1000, 5⟩ ∧ (⟨1000, 5⟩ : View).rightOfSub ⟨1002, 2⟩ = ⟨1004, 1⟩ := by
  simp [Inside]; decide

/-! ### C46 -/

/-- C46: for a non-null view, `is_super`/`is_sub` hold exactly when the address range is contained. -/
theorem C46_is_super (v t : View) (hv : v.str ≠ 0) :
    (v.isSuper t = true ↔ Inside t v) ∧ (t.isSub v = true ↔ Inside t v) := by
  have : v.isSuper t = true ↔ Inside t v := by
    unfold isSuper Inside
    split
    · simp
    · simp; omega
  exact ⟨this, this⟩

/-- C46: the null view is a super-view of nothing. -/
theorem C46_is_super_null (t : View) : (⟨0, 0⟩ : View).isSuper t = false := by simp [isSuper]

/-- C46: for non-empty views, `overlaps` holds exactly when they share a character's address.
Missing: empty views (see `C46_refuted`). -/
theorem C46_overlaps_partial (v t : View) (hv : 0 < v.len) (ht : 0 < t.len) :
    v.overlaps t = true ↔ ∃ a, (v.str ≤ a ∧ a < v.str + v.len) ∧ (t.str ≤ a ∧ a < t.str + t.len) := by
  unfold overlaps
  simp only [Bool.and_eq_true, decide_eq_true_eq]
  constructor
  · intro h
    exact ⟨max v.str t.str, by omega, by omega⟩
  · rintro ⟨a, _, _⟩; omega

/-- C46 refuted for empty views: an empty view strictly inside another is reported as overlapping though no
character is shared. -/
theorem C46_refuted : ∃ v t : View, v.overlaps t = true ∧
    ¬ ∃ a, (v.str ≤ a ∧ a < v.str + v.len) ∧ (t.str ≤ a ∧ a < t.str + t.len) :=
  ⟨⟨1000, 3⟩, ⟨1001, 0⟩, by decide, by rintro ⟨a, h1, h2⟩; simp at h1 h2; omega⟩

example : (⟨1000, 4⟩ : View).overlaps ⟨1003, 4⟩ = true ∧ (⟨1000, 4⟩ : View).overlaps ⟨1004, 4⟩ = false := by
  decide

end C4
