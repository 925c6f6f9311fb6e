import Verif.Spec.ViewCalls
import Verif.Props.SpanAssert
/-
Property C159: what the assertions of views accept.
-/
namespace C4
open Spec

private theorem aok {c : Prop} [Decidable c] {f : Unit → Res View} {r : View} :
    ((assertThat c >>= f) = .ok r) ↔ c ∧ f () = .ok r := by
  unfold assertThat
  by_cases h : c <;> simp [h]

private theorem make_ok {a b : Nat} {r : View} : View.make a b = .ok r ↔ (a ≠ 0 ∨ b = 0) ∧ r = ⟨a, b⟩ := by
  unfold View.make
  rw [aok]; simp [eq_comm]

private theorem pure_ok {a r : View} : ((pure a : Res View) = .ok r) ↔ r = a := by
  simp [eq_comm]

private theorem ite_ok {c : Prop} [Decidable c] {x y : Res View} {r : View} :
    ((if c then x else y) = .ok r) ↔ (c ∧ x = .ok r) ∨ (¬ c ∧ y = .ok r) := by
  by_cases h : c <;> simp [h]

private theorem exand {p : Prop} {q : View → Prop} : (∃ r, p ∧ q r) ↔ p ∧ ∃ r, q r := by simp
private theorem exor {p q : View → Prop} : (∃ r, p r ∨ q r) ↔ (∃ r, p r) ∨ ∃ r, q r := exists_or

theorem szSub_le {a b : Nat} (ha : a < 2 ^ 64) (h : b ≤ a) : szSub a b = a - b := by
  unfold szSub; omega
theorem szSub_gt {a b : Nat} (hb : b < 2 ^ 64) (h : a < b) : szSub a b = a + 2 ^ 64 - b := by
  unfold szSub; omega

private theorem super_iff {v s : View} : v.isSuper s = true ↔
    (0 < v.len ∧ v.str ≤ s.str ∧ s.str + s.len ≤ v.str + v.len) ∨ (v.len = 0 ∧ s.len = 0 ∧ s.str = v.str ∧ v.str ≠ 0) := by
  unfold View.isSuper
  by_cases h : v.len > 0
  · simp [h]; omega
  · have : v.len = 0 := by omega
    simp [this, and_assoc]

private theorem empty_iff {s : View} : s.empty = true ↔ s.len = 0 ∨ s.str = 0 := by simp [View.empty]

theorem NPOS_eq : NPOS = 18446744073709551615 := by decide

set_option hygiene false in
local macro "npos" x:term : tactic => `(tactic| (
  have hN := NPOS_eq
  by_cases hnp : $x = NPOS <;>
  simp only [hnp, ne_eq, not_true_eq_false, not_false_eq_true, if_true, if_false, true_and, false_and, or_false, false_or, and_true, or_true,
    true_or, true_iff, Nat.add_zero] at hc ⊢ <;>
  omega))

set_option hygiene false in
local macro "npos2" x:term : tactic => `(tactic| (
  by_cases hnp : $x = NPOS <;>
  simp only [hnp, ne_eq, not_true_eq_false, not_false_eq_true, if_true, if_false, true_and, false_and, or_false, false_or, and_true, or_true,
    true_or, true_iff, Nat.add_zero] at hc hr ⊢ <;>
  omega))

/-- **C159** as far as it holds: the assertions accept exactly the calls in range, apart from the slips listed: calls with `mistaken`
arguments are accepted too, and one call in range is `refused`. -/
theorem C159_accepts_partial (v : View) (c : ViewCall) (hv : Sane v) (hc : ViewCall.values c) :
    (∃ r, v.call c = .ok r) ↔ (ViewCall.inRange v c ∧ ¬ ViewCall.refused v c) ∨ ViewCall.mistaken v c := by
  obtain ⟨str, len⟩ := v
  obtain ⟨h1, h2, h3⟩ := hv
  simp only at h1 h2 h3
  cases c <;> simp only [ViewCall.values, Sane] at hc <;>
  simp only [View.call, View.sub1D, View.sub2D, View.rangeD, View.firstD, View.lastD, View.offsD, View.leftOfD, View.leftOfIncD, View.rightOfD,
    View.rightOfIncD, View.leftOfSubD, View.rightOfSubD, View.eraseD, super_iff, empty_iff,
    aok, make_ok, pure_ok, ite_ok, exand, exor, exists_eq] <;>
  simp only [ViewCall.inRange, ViewCall.positions, ViewCall.refused, ViewCall.mistaken, szSub, szAdd, Within, posOr,
    not_false_eq_true, or_false, and_true]
  case item => omega
  case front => omega
  case back => omega
  case sub1 => omega
  case sub2 f n => npos n
  case range f l => npos l
  case first n => npos n
  case last n => npos n
  case offs => omega
  case leftOf n => npos n
  case leftOfInc p inc => cases inc <;> simp <;> npos p
  case rightOf p => npos p
  case rightOfInc p inc => cases inc <;> simp <;> npos p
  case searchFrom p => npos p
  case countFrom => omega
  case copyFrom n f num =>
    have hN := NPOS_eq
    by_cases hnp : num = NPOS
    · simp only [hnp, ne_eq, not_true_eq_false, if_true, if_false]
      split <;> omega
    · simp only [hnp, ne_eq, not_false_eq_true, if_true, if_false]
      split <;> omega
  case reverseSub => omega
  case reverseRange => omega
  case erase => omega
  case eraseRange => omega
  case leftOfSub s =>
    have hN := NPOS_eq
    rw [if_pos (by omega : (0 : Nat) ≠ NPOS)]
    by_cases hcd : s.str ≥ str ∧ s.str ≤ str + len
    · rw [if_pos (by omega : s.str - str ≠ NPOS)]
      omega
    · simp only [hcd, false_and, not_false_eq_true, true_and, false_or, or_true, and_true]
      omega
  case rightOfSub s =>
    have hN := NPOS_eq
    rw [if_pos (by omega : (0 : Nat) ≠ NPOS)]
    by_cases hcd : s.str + s.len ≥ str ∧ s.str + s.len ≤ str + len
    · rw [if_pos (by omega : str + len - (s.str + s.len) ≠ NPOS)]
      omega
    · simp only [hcd, false_and, not_false_eq_true, true_and, false_or, or_true, and_true]
      omega
  case eraseSub s => omega

/-- A call in range that selects gives the characters at the positions named. -/
theorem C159_selects (v : View) (c : ViewCall) (hv : Sane v) (hc : ViewCall.values c) (hs : ViewCall.selects c = true)
    (hr : 0 ≤ (ViewCall.positions v c).1 ∧ (ViewCall.positions v c).1 ≤ (ViewCall.positions v c).2 ∧ (ViewCall.positions v c).2 ≤ v.len)
    (hw : ∀ s, c = .leftOfSub s ∨ c = .rightOfSub s → Within v s) :
    v.call c = .ok ⟨v.str + (ViewCall.positions v c).1.toNat, ((ViewCall.positions v c).2 - (ViewCall.positions v c).1).toNat⟩ := by
  obtain ⟨str, len⟩ := v
  obtain ⟨h1, h2, h3⟩ := hv
  have hN := NPOS_eq
  simp only at h1 h2 h3
  cases c <;> simp only [ViewCall.selects, Bool.false_eq_true] at hs <;> simp only [ViewCall.values, Sane] at hc <;>
  simp only [View.call, View.sub1D, View.sub2D, View.rangeD, View.firstD, View.lastD, View.offsD, View.leftOfD, View.leftOfIncD, View.rightOfD,
    View.rightOfIncD, View.leftOfSubD, View.rightOfSubD, super_iff, empty_iff,
    aok, make_ok, pure_ok, ite_ok, View.mk.injEq] <;>
  simp only [ViewCall.positions, szSub, szAdd, posOr] at hr ⊢
  case sub1 f => omega
  case sub2 f n => npos2 n
  case range f l => npos2 l
  case first n => npos2 n
  case last n => npos2 n
  case offs => omega
  case leftOf n => npos2 n
  case leftOfInc p inc => cases inc <;> simp at hr ⊢ <;> npos2 p
  case rightOf p => npos2 p
  case rightOfInc p inc => cases inc <;> simp at hr ⊢ <;> npos2 p
  case leftOfSub s =>
    have := hw s (Or.inl rfl)
    simp only [Within] at this
    rw [if_pos (by omega : s.str - str ≠ NPOS)]
    omega
  case rightOfSub s =>
    have := hw s (Or.inr rfl)
    simp only [Within] at this
    rw [if_pos (by omega : str + len - (s.str + s.len) ≠ NPOS)]
    omega

/-- What is left or right of an empty view that is no part of the view is nothing. -/
theorem C159_selects_foreign (v s : View) (hv : Sane v) (hs : s.len = 0) (hw : ¬ Within v s) :
    v.call (.leftOfSub s) = .ok ⟨v.str, 0⟩ ∧ v.call (.rightOfSub s) = .ok ⟨v.str, 0⟩ := by
  obtain ⟨str, len⟩ := v
  obtain ⟨h1, h2, h3⟩ := hv
  have hN := NPOS_eq
  simp only [Within] at h1 h2 h3 hw
  constructor <;>
  simp only [View.call, View.sub2D, View.leftOfSubD, View.rightOfSubD, super_iff, empty_iff, aok, make_ok, ite_ok, View.mk.injEq, szAdd,
    if_pos (by omega : (0 : Nat) ≠ NPOS), or_true, true_and, and_true] <;>
  omega

/-- A call in range that removes leaves all other characters. -/
theorem C159_removes (v : View) (c : ViewCall) (hv : Sane v) (hc : ViewCall.values c) (hs : ViewCall.removes c = true)
    (hr : ViewCall.inRange v c) (h0 : v.str ≠ 0) :
    v.call c = .ok ⟨v.str, v.len - ((ViewCall.positions v c).2 - (ViewCall.positions v c).1).toNat⟩ := by
  obtain ⟨str, len⟩ := v
  obtain ⟨h1, h2, h3⟩ := hv
  simp only at h1 h2 h3 h0
  cases c <;> simp only [ViewCall.removes, Bool.false_eq_true] at hs <;> simp only [ViewCall.values, Sane] at hc <;>
  simp only [View.call, View.eraseD, super_iff, aok, make_ok, View.mk.injEq] <;>
  simp only [ViewCall.positions, ViewCall.inRange, szSub, szAdd, Within, true_and] at hr ⊢ <;> omega

/-- A call that selects, is out of range, and is accepted gives a view that is not in the view. -/
theorem C159_mistaken_outside (v : View) (c : ViewCall) (hv : Sane v) (hc : ViewCall.values c) (hs : ViewCall.selects c = true)
    (hm : ViewCall.mistaken v c) : ∃ r, v.call c = .ok r ∧ ¬ Within v r := by
  obtain ⟨r, hr⟩ := (C159_accepts_partial v c hv hc).2 (Or.inr hm)
  refine ⟨r, hr, ?_⟩
  obtain ⟨str, len⟩ := v
  obtain ⟨h1, h2, h3⟩ := hv
  have hN := NPOS_eq
  simp only at h1 h2 h3
  cases c <;> simp only [ViewCall.selects, Bool.false_eq_true] at hs <;> simp only [ViewCall.mistaken] at hm <;>
  simp only [View.call, View.offsD, View.leftOfIncD, View.rightOfD, View.rightOfIncD, aok, make_ok, pure_ok, ite_ok] at hr
  case offs =>
    obtain ⟨_, _, _, _, rfl⟩ := hr
    simp only [Within, szSub]; omega
  case leftOfInc p inc =>
    obtain ⟨rfl, rfl, _⟩ := hm
    obtain ⟨_, ⟨_, _, rfl⟩ | ⟨h, _⟩⟩ := hr
    · simp only [Within, szAdd, Bool.toNat_true]; omega
    · omega
  case rightOf p =>
    subst hm
    obtain ⟨_, ⟨_, _, rfl⟩ | ⟨h, _⟩⟩ := hr
    · simp only [Within, szSub]; omega
    · omega
  case rightOfInc p inc =>
    obtain ⟨rfl, rfl⟩ := hm
    obtain ⟨_, ⟨_, _, rfl⟩ | ⟨h, _⟩⟩ := hr
    · simp only [Within, szSub, Bool.not_false, Bool.toNat_true]; omega
    · omega

/-- **C159 is false**: some calls out of range pass the assertions.  `offs(2, 2)`, `right_of(3)`, `right_of(3, false)` of a view of three
characters give a view of 2^64 - 1 characters, `left_of(3, true)` one of four, and `erase(1, npos)` returns one of four. -/
theorem C159_refuted :
    (∃ v : View, Sane v ∧ ∃ c, ViewCall.values c ∧ ¬ ViewCall.inRange v c ∧ ∃ r, v.call c = .ok r) ∧
    View.call ⟨100, 3⟩ (.offs 2 2) = .ok ⟨102, 2 ^ 64 - 1⟩ ∧
    View.call ⟨100, 3⟩ (.rightOf 3) = .ok ⟨104, 2 ^ 64 - 1⟩ ∧
    View.call ⟨100, 3⟩ (.rightOfInc 3 false) = .ok ⟨104, 2 ^ 64 - 1⟩ ∧
    View.call ⟨100, 3⟩ (.leftOfInc 3 true) = .ok ⟨100, 4⟩ ∧
    View.call ⟨100, 3⟩ (.erase 1 NPOS) = .ok ⟨100, 4⟩ ∧
    View.call ⟨100, 3⟩ (.reverseSub 1 NPOS) = .ok ⟨100, 3⟩ ∧
    View.call ⟨0, 0⟩ (.eraseSub ⟨0, 0⟩) = .abort := by
  refine ⟨⟨⟨100, 3⟩, by unfold Sane; decide +kernel, .rightOf 3, by simp [ViewCall.values], ?_, ⟨104, 2 ^ 64 - 1⟩, by decide +kernel⟩, ?_⟩
  · simp [ViewCall.inRange, ViewCall.positions, NPOS]
  · decide +kernel

/-- Calls in range, at the ends of the view and with `npos`, and calls out of range. -/
example : View.call ⟨100, 3⟩ (.sub2 1 2) = .ok ⟨101, 2⟩ ∧ View.call ⟨100, 3⟩ (.sub2 3 NPOS) = .ok ⟨103, 0⟩ ∧
    View.call ⟨100, 3⟩ (.sub2 1 3) = .abort ∧ View.call ⟨100, 3⟩ (.offs 2 3) = .abort ∧
    View.call ⟨100, 3⟩ (.leftOfSub ⟨101, 1⟩) = .ok ⟨100, 1⟩ ∧ View.call ⟨100, 3⟩ (.leftOfSub ⟨99, 1⟩) = .abort ∧
    View.call ⟨100, 3⟩ (.eraseSub ⟨101, 1⟩) = .ok ⟨100, 2⟩ ∧ View.call ⟨100, 3⟩ (.countFrom NPOS) = .abort := by decide +kernel

end C4
