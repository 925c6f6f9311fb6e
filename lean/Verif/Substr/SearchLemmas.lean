import Verif.Substr.Search
import Verif.Spec.Search
/-
Helper lemmas about the search functions.
-/
namespace C4
open Spec

theorem forUp_isFirst {body : Nat → Res (Option Nat)} {P : Nat → Prop} [DecidablePred P] {lo hi : Nat}
    (h : ∀ j, lo ≤ j → j < hi → body j = .ok (if P j then some j else none)) :
    ∃ r, forUp lo hi body = .ok r ∧ IsFirst P lo hi r := by
  rcases forUp_ok h with ⟨h1, h2⟩ | ⟨k, r, h1, h2, h3, h4, h5⟩
  · refine ⟨none, h1, fun j a b => ?_⟩
    have := h2 j a b
    simpa using this
  · refine ⟨some r, h1, ?_⟩
    have e : k = r ∧ P k := by
      by_cases hp : P k
      · rw [if_pos hp] at h4; exact ⟨by simpa using h4, hp⟩
      · rw [if_neg hp] at h4; cases h4
    obtain ⟨rfl, hp⟩ := e
    exact ⟨h2, h3, hp, fun j a b => by simpa using h5 j a b⟩

theorem forDown_isLast {body : Nat → Res (Option Nat)} {P : Nat → Prop} [DecidablePred P] {n : Nat}
    (h : ∀ j, j < n → body j = .ok (if P j then some j else none)) :
    ∃ r, forDown body n = .ok r ∧ IsLast P n r := by
  rcases forDown_ok n h with ⟨h1, h2⟩ | ⟨k, r, h1, h2, h3, h4⟩
  · refine ⟨none, h1, fun j a => ?_⟩
    have := h2 j a
    simpa using this
  · refine ⟨some r, h1, ?_⟩
    have e : k = r ∧ P k := by
      by_cases hp : P k
      · rw [if_pos hp] at h3; exact ⟨by simpa using h3, hp⟩
      · rw [if_neg hp] at h3; cases h3
    obtain ⟨rfl, hp⟩ := e
    exact ⟨h2, hp, fun j a b => by simpa using h4 j a b⟩

/-- All pure tests have this form. -/
theorem forUp_pure {s : List Nat} {test : Nat → Res Bool} {Q : Nat → Prop} [DecidablePred Q] {lo hi : Nat}
    (ht : ∀ x, test x = .ok (decide (Q x))) (hh : hi ≤ s.length) :
    ∃ r, forUp lo hi (fun i => do
      let x ← rd s i
      let hit ← test x
      .ok (if hit then some i else none)) = .ok r ∧ IsFirst (CharSat s Q) lo hi r := by
  have hdec : DecidablePred (CharSat s Q) := fun i => Classical.propDecidable _
  apply forUp_isFirst (P := CharSat s Q)
  intro j _ h2
  rw [rd_ok (by omega), Res.ok_bind, ht, Res.ok_bind]
  have : CharSat s Q j ↔ Q (s[j]'(by omega)) := by
    unfold CharSat
    rw [List.getElem?_eq_getElem (by omega)]
    simp
  by_cases hq : Q (s[j]'(by omega))
  · simp [hq, this]
  · simp [hq, this]

theorem forDown_pure {s : List Nat} {test : Nat → Res Bool} {Q : Nat → Prop} [DecidablePred Q] {hi : Nat}
    (ht : ∀ x, test x = .ok (decide (Q x))) (hh : hi ≤ s.length) :
    ∃ r, forDown (fun i => do
      let x ← rd s i
      let hit ← test x
      .ok (if hit then some i else none)) hi = .ok r ∧ IsLast (CharSat s Q) hi r := by
  have hdec : DecidablePred (CharSat s Q) := fun i => Classical.propDecidable _
  apply forDown_isLast (P := CharSat s Q)
  intro j h2
  rw [rd_ok (by omega), Res.ok_bind, ht, Res.ok_bind]
  have : CharSat s Q j ↔ Q (s[j]'(by omega)) := by
    unfold CharSat
    rw [List.getElem?_eq_getElem (by omega)]
    simp
  by_cases hq : Q (s[j]'(by omega))
  · simp [hq, this]
  · simp [hq, this]

theorem firstOf_spec (s : List Nat) (c start : Nat) :
    ∃ r, firstOf s c start = .ok r ∧ IsFirst (CharSat s (· = c)) start s.length r := by
  have := forUp_pure (s := s) (test := fun x => .ok (decide (x = c))) (Q := (· = c)) (lo := start)
    (hi := s.length) (fun _ => rfl) (Nat.le_refl _)
  simpa [firstOf] using this

theorem lastOf_spec (s : List Nat) (c : Nat) (start : Option Nat) (h : startOr s start ≤ s.length) :
    ∃ r, lastOf s c start = .ok r ∧ IsLast (CharSat s (· = c)) (startOr s start) r := by
  have := forDown_pure (s := s) (test := fun x => .ok (decide (x = c))) (Q := (· = c))
    (hi := startOr s start) (fun _ => rfl) h
  simpa [lastOf] using this

theorem firstNotOf_spec (s : List Nat) (c start : Nat) :
    ∃ r, firstNotOf s c start = .ok r ∧ IsFirst (CharSat s (· ≠ c)) start s.length r := by
  have := forUp_pure (s := s) (test := fun x => .ok (decide (x ≠ c))) (Q := (· ≠ c)) (lo := start)
    (hi := s.length) (fun _ => rfl) (Nat.le_refl _)
  simpa [firstNotOf] using this

theorem lastNotOf_spec (s : List Nat) (c : Nat) (start : Option Nat) (h : startOr s start ≤ s.length) :
    ∃ r, lastNotOf s c start = .ok r ∧ IsLast (CharSat s (· ≠ c)) (startOr s start) r := by
  have := forDown_pure (s := s) (test := fun x => .ok (decide (x ≠ c))) (Q := (· ≠ c))
    (hi := startOr s start) (fun _ => rfl) h
  simpa [lastNotOf] using this

theorem inChars_eq (chars : List Nat) (x : Nat) : inChars chars x = .ok (decide (x ∈ chars)) := by
  unfold inChars
  have h : ∀ j, 0 ≤ j → j < chars.length → (do
      let y ← rd chars j
      Res.ok (if x = y then some () else none) : Res (Option Unit)) =
      .ok (if chars[j]? = some x then some () else none) := by
    intro j _ hj
    rw [rd_ok hj, List.getElem?_eq_getElem hj]
    simp only [Res.ok_bind, Option.some.injEq, eq_comm]
  rcases forUp_ok h with ⟨h1, h2⟩ | ⟨k, r, h1, h2, h3, h4, h5⟩
  · rw [h1]
    have : x ∉ chars := by
      intro hm
      obtain ⟨j, hj, e⟩ := List.getElem_of_mem hm
      have := h2 j (by omega) hj
      rw [List.getElem?_eq_getElem hj, e] at this
      simp at this
    simp [this]
  · rw [h1]
    have : x ∈ chars := by
      by_cases e : chars[k]? = some x
      · exact List.mem_of_getElem? e
      · rw [if_neg e] at h4; cases h4
    simp [this]

theorem firstOfSet_spec (s chars : List Nat) (start : Nat) :
    ∃ r, firstOfSet s chars start = .ok r ∧ IsFirst (CharSat s (· ∈ chars)) start s.length r :=
  forUp_pure (s := s) (test := inChars chars) (inChars_eq chars) (Nat.le_refl _)

theorem lastOfSet_spec (s chars : List Nat) (start : Option Nat) (h : startOr s start ≤ s.length) :
    ∃ r, lastOfSet s chars start = .ok r ∧ IsLast (CharSat s (· ∈ chars)) (startOr s start) r :=
  forDown_pure (s := s) (test := inChars chars) (inChars_eq chars) h

theorem firstNotOfSet_spec (s chars : List Nat) (start : Nat) :
    ∃ r, firstNotOfSet s chars start = .ok r ∧ IsFirst (CharSat s (· ∉ chars)) start s.length r := by
  have := forUp_pure (s := s) (test := fun x => do let h ← inChars chars x; .ok (!h)) (Q := (· ∉ chars))
    (lo := start) (hi := s.length) (fun x => by rw [inChars_eq]; simp) (Nat.le_refl _)
  simpa [firstNotOfSet, Res.bind_assoc] using this

theorem lastNotOfSet_spec (s chars : List Nat) (start : Option Nat) (h : startOr s start ≤ s.length) :
    ∃ r, lastNotOfSet s chars start = .ok r ∧ IsLast (CharSat s (· ∉ chars)) (startOr s start) r := by
  have := forDown_pure (s := s) (test := fun x => do let h ← inChars chars x; .ok (!h)) (Q := (· ∉ chars))
    (hi := startOr s start) (fun x => by rw [inChars_eq]; simp) h
  simpa [lastNotOfSet, Res.bind_assoc] using this

theorem matchAt_spec (s p : List Nat) (i : Nat) (h : i + p.length ≤ s.length) :
    ∃ b, matchAt s p i = .ok b ∧ (b = true ↔ OccursAt s p i) := by
  unfold matchAt
  have hb : ∀ j, 0 ≤ j → j < p.length → (do
      let x ← rd s (i + j)
      let y ← rd p j
      Res.ok (if x ≠ y then some () else none) : Res (Option Unit)) =
      .ok (if s[i+j]? ≠ p[j]? then some () else none) := by
    intro j _ hj
    rw [rd_ok (by omega), rd_ok hj, List.getElem?_eq_getElem (by omega), List.getElem?_eq_getElem hj]
    simp
  rcases forUp_ok hb with ⟨h1, h2⟩ | ⟨k, r, h1, h2, h3, h4, h5⟩
  · refine ⟨true, by rw [h1]; rfl, ?_⟩
    simp only [true_iff]
    rw [occursAt_iff]
    refine ⟨h, fun j hj => ?_⟩
    have := h2 j (by omega) hj
    by_cases e : s[i+j]? = p[j]?
    · exact e
    · simp [e] at this
  · refine ⟨false, by rw [h1]; rfl, ?_⟩
    simp only [Bool.false_eq_true, false_iff]
    rw [occursAt_iff]
    rintro ⟨_, h6⟩
    have := h6 k h3
    simp [this] at h4

theorem findS_spec (s p : List Nat) (start : Nat) :
    ∃ r, findS s p start = .ok r ∧ IsFirst (OccursAt s p) start (s.length + 1) r := by
  unfold findS
  have himp : ∀ i, OccursAt s p i → i + p.length ≤ s.length := fun i h => (occursAt_iff.mp h).1
  split
  · refine ⟨none, rfl, fun j _ _ ho => ?_⟩
    have := himp j ho; omega
  · rename_i hlen
    have hdec : DecidablePred (OccursAt s p) := fun i => Classical.propDecidable _
    obtain ⟨r, h1, h2⟩ := forUp_isFirst (P := OccursAt s p) (lo := start) (hi := s.length - p.length + 1)
      (body := fun i => do
        let gotit ← matchAt s p i
        .ok (if gotit then some i else none)) (by
        intro j _ hj
        obtain ⟨b, hb1, hb2⟩ := matchAt_spec s p j (by omega)
        rw [hb1]
        by_cases ho : OccursAt s p j
        · simp [ho, hb2.mpr ho]
        · have : b = false := by cases b <;> simp_all
          simp [ho, this])
    refine ⟨r, h1, ?_⟩
    cases r with
    | some i => exact ⟨h2.1, by have := h2.2.1; omega, h2.2.2⟩
    | none =>
      intro j a b ho
      exact h2 j a (by have := himp j ho; omega) ho

end C4
