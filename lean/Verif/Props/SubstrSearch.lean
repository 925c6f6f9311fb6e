import Verif.Substr.SearchLemmas
/-
Properties C29, C30, C47: searching in a string view.
-/
namespace C4
open Spec

/-! ### C29 -/

/-- C29 (forward character searches): `find(c,start)`/`first_of(c,start)`, `first_not_of(c,start)` and the
character-set forms return the smallest matching position at or after `start`, and never read out of
bounds (for every `start`). -/
theorem C29_first (s chars : List Nat) (c start : Nat) :
    (∃ r, findC s c start = .ok r ∧ IsFirst (CharAt s c) start s.length r) ∧
    (∃ r, firstOf s c start = .ok r ∧ IsFirst (CharAt s c) start s.length r) ∧
    (∃ r, firstNotOf s c start = .ok r ∧ IsFirst (CharSat s (· ≠ c)) start s.length r) ∧
    (∃ r, firstOfSet s chars start = .ok r ∧ IsFirst (CharSat s (· ∈ chars)) start s.length r) ∧
    (∃ r, firstNotOfSet s chars start = .ok r ∧ IsFirst (CharSat s (· ∉ chars)) start s.length r) := by
  have e : CharSat s (· = c) = CharAt s c := by
    funext i; simp [CharSat, CharAt]
  have h := firstOf_spec s c start
  rw [e] at h
  exact ⟨h, h, firstNotOf_spec s c start, firstOfSet_spec s chars start, firstNotOfSet_spec s chars start⟩

/-- C29 (backward character searches): `last_of`, `last_not_of` and the character-set forms return the
largest matching position below `start` (below the length for `npos`). -/
theorem C29_last (s chars : List Nat) (c : Nat) (start : Option Nat)
    (hs : ∀ n, start = some n → n ≤ s.length) :
    let hi := start.getD s.length
    (∃ r, lastOf s c start = .ok r ∧ IsLast (CharAt s c) hi r) ∧
    (∃ r, lastNotOf s c start = .ok r ∧ IsLast (CharSat s (· ≠ c)) hi r) ∧
    (∃ r, lastOfSet s chars start = .ok r ∧ IsLast (CharSat s (· ∈ chars)) hi r) ∧
    (∃ r, lastNotOfSet s chars start = .ok r ∧ IsLast (CharSat s (· ∉ chars)) hi r) := by
  have e : CharSat s (· = c) = CharAt s c := by
    funext i; simp [CharSat, CharAt]
  have hh : start.getD s.length = startOr s start := by cases start <;> rfl
  have hl : startOr s start ≤ s.length := by
    cases start with
    | none => exact Nat.le_refl _
    | some n => exact hs n rfl
  intro hi
  have h := lastOf_spec s c start hl
  rw [e] at h
  simp only [hi, hh]
  exact ⟨h, lastNotOf_spec s c start hl, lastOfSet_spec s chars start hl, lastNotOfSet_spec s chars start hl⟩

/-- C29 (pattern search): `find(pattern,start)` returns the smallest position at or after `start` where the
pattern occurs, `npos` iff it does not occur there. -/
theorem C29_find (s p : List Nat) (start : Nat) :
    ∃ r, findS s p start = .ok r ∧
      (∀ i, r = some i ↔ start ≤ i ∧ OccursAt s p i ∧ ∀ j, start ≤ j → j < i → ¬ OccursAt s p j) ∧
      (r = none ↔ ∀ i, start ≤ i → ¬ OccursAt s p i) := by
  obtain ⟨r, h1, h2⟩ := findS_spec s p start
  have hlt : ∀ i, OccursAt s p i → i < s.length + 1 := fun i h => by
    have := (occursAt_iff.mp h).1; omega
  refine ⟨r, h1, fun i => ⟨?_, ?_⟩, ?_, ?_⟩
  · rintro rfl; exact ⟨h2.1, h2.2.2.1, h2.2.2.2⟩
  · rintro ⟨a, b, c⟩
    exact h2.unique (r' := some i) ⟨a, hlt i b, b, c⟩
  · rintro rfl i a b; exact h2 i a (hlt i b) b
  · intro h
    exact h2.unique (r' := none) (fun j a _ => h j a)

example : findS (S "abcabcd") (S "abcd") 1 = .ok (some 3) ∧ findS (S "abc") (S "") 3 = .ok (some 3) ∧
    lastNotOfSet (S "foo.. ") (S ". ") none = .ok (some 2) ∧ firstOf (S "foo") 120 0 = .ok none := by
  decide +kernel

theorem charAt_lt {s : List Nat} {c i : Nat} (h : CharAt s c i) : i < s.length := by
  unfold CharAt at h
  exact (List.getElem?_eq_some_iff.mp h).1

/-- C29 (select): `select(c,pos)` / `select(pattern,pos)` yield the view of the first occurrence, and the null view exactly
if there is none. -/
theorem C29_select (s p : List Nat) (c pos : Nat) :
    (∃ r, selectC s c pos = .ok r ∧ (∀ i n, r = some (i, n) ↔
      n = 1 ∧ pos ≤ i ∧ CharAt s c i ∧ ∀ j, pos ≤ j → j < i → ¬ CharAt s c j) ∧
      (r = none ↔ ∀ i, pos ≤ i → ¬ CharAt s c i)) ∧
    (∃ r, selectS s p pos = .ok r ∧ (∀ i n, r = some (i, n) ↔
      n = p.length ∧ pos ≤ i ∧ OccursAt s p i ∧ ∀ j, pos ≤ j → j < i → ¬ OccursAt s p j) ∧
      (r = none ↔ ∀ i, pos ≤ i → ¬ OccursAt s p i)) := by
  constructor
  · obtain ⟨r, h1, h2⟩ := (C29_first s [] c pos).1
    refine ⟨r.map fun i => (i, 1), by simp [selectC, h1], fun i n => ?_, ?_⟩
    · cases r with
      | none =>
        simp only [Option.map_none, reduceCtorEq, false_iff]
        rintro ⟨_, h3, h4, _⟩
        exact h2 i h3 (charAt_lt h4) h4
      | some k =>
        simp only [Option.map_some, Option.some.injEq, Prod.mk.injEq]
        constructor
        · rintro ⟨rfl, rfl⟩
          exact ⟨rfl, h2.1, h2.2.2.1, h2.2.2.2⟩
        · rintro ⟨rfl, h3, h4, h5⟩
          refine ⟨?_, rfl⟩
          have g1 := h2.2.2.2 i h3
          have g2 := h5 k h2.1
          have g3 := h2.2.2.1
          refine Nat.le_antisymm (Nat.le_of_not_lt fun hl => g1 hl h4) (Nat.le_of_not_lt fun hl => g2 hl g3)
    · cases r with
      | none => simpa using fun i h3 h4 => h2 i h3 (charAt_lt h4) h4
      | some k =>
        simp only [Option.map_some, reduceCtorEq, false_iff]
        exact fun h => h k h2.1 h2.2.2.1
  · obtain ⟨r, h1, h2, h3⟩ := C29_find s p pos
    refine ⟨r.map fun i => (i, p.length), by simp [selectS, h1], fun i n => ?_, ?_⟩
    · rw [← h2 i]
      cases r with
      | none => simp
      | some k => simp only [Option.map_some, Option.some.injEq, Prod.mk.injEq]; exact ⟨fun h => ⟨h.2.symm, h.1⟩, fun h => ⟨h.2, h.1.symm⟩⟩
    · rw [← h3]; simp

example : selectS (S "a=b==c") (S "==") 0 = .ok (some (3, 2)) := by decide +kernel

/-! ### C30 -/

theorem count_drop_none {s : List Nat} {c pos : Nat} (h : IsFirst (CharSat s (· = c)) pos s.length none) :
    (s.drop pos).count c = 0 := by
  rw [List.count_eq_zero]
  intro hm
  obtain ⟨j, hj, e⟩ := List.getElem_of_mem hm
  simp at hj e
  exact h (pos + j) (by omega) (by omega) ⟨c, by rw [List.getElem?_eq_getElem (by omega), e], rfl⟩

theorem count_drop_some {s : List Nat} {c pos i : Nat}
    (h : IsFirst (CharSat s (· = c)) pos s.length (some i)) :
    (s.drop pos).count c = (s.drop (i + 1)).count c + 1 := by
  obtain ⟨h1, h2, ⟨x, hx, rfl⟩, h4⟩ := h
  obtain ⟨d, rfl⟩ : ∃ d, i = pos + d := ⟨i - pos, by omega⟩
  have hsplit : s.drop pos = (s.drop pos).take d ++ s.drop (pos + d) := by
    rw [← List.drop_drop, List.take_append_drop]
  have hz : ((s.drop pos).take d).count x = 0 := by
    rw [List.count_eq_zero]
    intro hm
    obtain ⟨j, hj, e⟩ := List.getElem_of_mem hm
    simp at hj e
    exact h4 (pos + j) (by omega) (by omega) ⟨x, by rw [List.getElem?_eq_getElem (by omega), e], rfl⟩
  rw [hsplit, List.count_append, hz, List.drop_eq_getElem_cons h2]
  rw [List.getElem?_eq_getElem h2] at hx
  simp at hx
  rw [hx, List.count_cons_self]; omega

theorem countCLoop_eq (s : List Nat) (c : Nat) : ∀ fuel pos num p,
    findC s c pos = .ok p → s.length < fuel + pos →
    countCLoop s c fuel p num = .ok (num + (s.drop pos).count c)
  | fuel, pos, num, none, h, _ => by
    obtain ⟨r, h1, h2⟩ := firstOf_spec s c pos
    rw [findC, h1] at h; cases h
    rw [count_drop_none h2]
    cases fuel <;> rfl
  | fuel, pos, num, some i, h, hf => by
    obtain ⟨r, h1, h2⟩ := firstOf_spec s c pos
    rw [findC, h1] at h; cases h
    rw [count_drop_some h2]
    cases fuel with
    | zero => have := h2.1; have := h2.2.1; omega
    | succ fuel =>
      obtain ⟨r, h3, _⟩ := firstOf_spec s c (i + 1)
      rw [countCLoop, findC, h3, Res.ok_bind, countCLoop_eq s c fuel (i+1) (num+1) r h3 (by have := h2.1; omega)]
      congr 1; omega

/-- C30: `count(c,pos)` terminates (within `len+1` iterations) and is the number of occurrences of `c` at or
after `pos`. -/
theorem C30_count_char (s : List Nat) (c pos fuel : Nat) (hf : s.length < fuel) :
    countC fuel s c pos = .ok ((s.drop pos).count c) := by
  obtain ⟨r, h1, _⟩ := firstOf_spec s c pos
  rw [countC, findC, h1, Res.ok_bind, countCLoop_eq s c fuel pos 0 r h1 (by omega)]
  simp

theorem countSLoop_eq (s p : List Nat) (hp : p ≠ []) : ∀ fuel pos num q,
    findS s p pos = .ok q → s.length < fuel + pos →
    ∃ ps, LeftmostOccs s p pos ps ∧ countSLoop s p fuel q num = .ok (num + ps.length)
  | fuel, pos, num, none, h, _ => by
    obtain ⟨r, h1, _, h3⟩ := C29_find s p pos
    rw [h] at h1; cases h1
    exact ⟨[], .nil (h3.mp rfl), by cases fuel <;> rfl⟩
  | fuel, pos, num, some i, h, hf => by
    obtain ⟨r, h1, h2, _⟩ := C29_find s p pos
    rw [h] at h1; cases h1
    obtain ⟨a, b, c⟩ := (h2 i).mp rfl
    have hb := (occursAt_iff.mp b).1
    have hpl := List.length_pos_iff.mpr hp
    cases fuel with
    | zero => omega
    | succ fuel =>
      obtain ⟨r, h3, _⟩ := findS_spec s p (i + p.length)
      obtain ⟨ps, h4, h5⟩ := countSLoop_eq s p hp fuel (i + p.length) (num+1) r h3 (by omega)
      refine ⟨i :: ps, .cons a b c h4, ?_⟩
      rw [countSLoop, h3, Res.ok_bind, h5]
      simp; omega

/-- C30, pattern form, for a non-empty pattern: `count(p,pos)` terminates and is the number of leftmost
non-overlapping occurrences at or after `pos`.
Missing: the empty pattern, for which the code does not terminate (`C30_refuted`). -/
theorem C30_count_pattern_partial (s p : List Nat) (hp : p ≠ []) (pos fuel : Nat) (hf : s.length < fuel) :
    ∃ ps, LeftmostOccs s p pos ps ∧ countS fuel s p pos = .ok ps.length := by
  obtain ⟨r, h1, _⟩ := findS_spec s p pos
  obtain ⟨ps, h2, h3⟩ := countSLoop_eq s p hp fuel pos 0 r h1 (by omega)
  exact ⟨ps, h2, by rw [countS, h1, Res.ok_bind, h3]; simp⟩

example : countS 8 (S "ababab") (S "aba") 0 = .ok 1 ∧ countS 8 (S "ababab") (S "ab") 1 = .ok 2 := by
  decide +kernel

/-- The leftmost non-overlapping occurrences are a largest set of pairwise non-overlapping occurrences:
any increasing list of non-overlapping occurrences at or after `pos` is at most as long.  (So the number in
`C30_count_pattern_partial` does not depend on the greedy choice.) -/
theorem leftmostOccs_max {s p : List Nat} {pos : Nat} {ps : List Nat} (h : LeftmostOccs s p pos ps) :
    ∀ qs : List Nat, (∀ q ∈ qs, pos ≤ q ∧ OccursAt s p q) →
      qs.Pairwise (fun a b => a + p.length ≤ b) → qs.length ≤ ps.length := by
  induction h with
  | nil hn =>
    intro qs hq _
    cases qs with
    | nil => simp
    | cons q qs => exact absurd (hq q (by simp)).2 (hn q (hq q (by simp)).1)
  | @cons pos i is h1 h2 h3 _ ih =>
    intro qs hq hpw
    cases qs with
    | nil => simp
    | cons q qs =>
      have hi : i ≤ q := by
        apply Nat.le_of_not_lt
        intro hlt
        exact h3 q (hq q (by simp)).1 hlt (hq q (by simp)).2
      rw [List.pairwise_cons] at hpw
      have := ih qs (fun x hx => ⟨by have := hpw.1 x hx; omega, (hq x (by simp [hx])).2⟩) hpw.2
      simp; omega

/-- C30 refuted for the empty pattern: whatever the number of iterations allowed, `count("",pos)` is still
running. -/
theorem C30_refuted (s : List Nat) (pos : Nat) (hpos : pos ≤ s.length) :
    ∀ fuel, countS fuel s [] pos = .loop := by
  have hf : findS s [] pos = .ok (some pos) := by
    obtain ⟨r, h1, h2, _⟩ := C29_find s [] pos
    have : r = some pos := (h2 pos).mpr
      ⟨by omega, ⟨s.take pos, s.drop pos, by simp, by simp; omega⟩, fun j _ _ => by omega⟩
    rw [h1, this]
  have hl : ∀ fuel num, countSLoop s [] fuel (some pos) num = .loop := by
    intro fuel
    induction fuel with
    | zero => intro num; rfl
    | succ f ih =>
      intro num
      rw [countSLoop]; simp [hf, ih]
  intro fuel
  rw [countS, hf, Res.ok_bind, hl]

example : countC 7 (S "banana") 97 2 = .ok 2 := by decide +kernel

/-! ### C47 -/

/-- C47: `first_of_any` reports `{which,pos}` exactly for the smallest position (inside the string) where
any of the patterns occurs, `which` being the first of the patterns occurring there; and reports no match
exactly if no pattern occurs. -/
theorem C47_first_of_any (s : List Nat) (pats : List (List Nat)) :
    ∃ r, firstOfAny s pats = .ok r ∧
      (∀ k i, r = some (k, i) → ∃ p, pats[k]? = some p ∧ i < s.length ∧ OccursAt s p i ∧
        (∀ k' p', k' < k → pats[k']? = some p' → ¬ OccursAt s p' i) ∧
        (∀ j, j < i → ∀ p' ∈ pats, ¬ OccursAt s p' j)) ∧
      (r = none → ∀ p ∈ pats, ∀ i, i < s.length → ¬ OccursAt s p i) := by
  have hdec : ∀ s p i, Decidable (OccursAt s p i) := fun _ _ _ => Classical.propDecidable _
  -- inner loop
  have inner : ∀ i, i < s.length → ∃ r, (forUp 0 pats.length fun k => do
      let chars ← rd pats k
      if i + chars.length > s.length then .ok none
      else do
        let gotit ← matchAt s chars i
        .ok (if gotit then some (k, i) else none)) = .ok r ∧
      (∀ k i', r = some (k, i') → i' = i ∧ ∃ p, pats[k]? = some p ∧ OccursAt s p i ∧
        ∀ k' p', k' < k → pats[k']? = some p' → ¬ OccursAt s p' i) ∧
      (r = none → ∀ p ∈ pats, ¬ OccursAt s p i) := by
    intro i hi
    have hbody : ∀ k, 0 ≤ k → k < pats.length → (do
        let chars ← rd pats k
        if i + chars.length > s.length then .ok none
        else do
          let gotit ← matchAt s chars i
          .ok (if gotit then some (k, i) else none) : Res (Option (Nat × Nat))) =
        .ok (if ∃ p, pats[k]? = some p ∧ OccursAt s p i then some (k, i) else none) := by
      intro k _ hk
      rw [rd_ok hk, Res.ok_bind]
      have he : (∃ p, pats[k]? = some p ∧ OccursAt s p i) ↔ OccursAt s pats[k] i := by
        rw [List.getElem?_eq_getElem hk]; simp
      rw [show (if ∃ p, pats[k]? = some p ∧ OccursAt s p i then some (k, i) else none) =
        if OccursAt s pats[k] i then some (k, i) else none by simp only [he]]
      by_cases hlen : i + pats[k].length > s.length
      · rw [if_pos hlen, if_neg]
        intro ho
        have := (occursAt_iff.mp ho).1; omega
      · rw [if_neg hlen]
        obtain ⟨b, hb1, hb2⟩ := matchAt_spec s pats[k] i (by omega)
        rw [hb1, Res.ok_bind]
        by_cases ho : OccursAt s pats[k] i
        · simp [ho, hb2.mpr ho]
        · have : b = false := by cases b <;> simp_all
          simp [ho, this]
    rcases forUp_ok hbody with ⟨h1, h2⟩ | ⟨k, r, h1, h2, h3, h4, h5⟩
    · refine ⟨none, h1, by simp, fun _ p hp ho => ?_⟩
      obtain ⟨k, hk, e⟩ := List.getElem_of_mem hp
      have := h2 k (by omega) hk
      rw [if_pos ⟨p, by rw [List.getElem?_eq_getElem hk, e], ho⟩] at this
      cases this
    · refine ⟨some r, h1, ?_, by simp⟩
      rintro k' i' hr
      by_cases hx : ∃ p, pats[k]? = some p ∧ OccursAt s p i
      · rw [if_pos hx] at h4
        cases hr; cases h4
        obtain ⟨p, hp1, hp2⟩ := hx
        refine ⟨rfl, p, hp1, hp2, fun k' p' hlt hp' ho => ?_⟩
        have := h5 k' (by omega) hlt
        rw [if_pos ⟨p', hp', ho⟩] at this
        cases this
      · rw [if_neg hx] at h4; cases h4
  let g : Nat → Option (Nat × Nat) := fun i =>
    if h : i < s.length then (inner i h).choose else none
  have hg : ∀ i, 0 ≤ i → i < s.length → (forUp 0 pats.length fun k => do
      let chars ← rd pats k
      if i + chars.length > s.length then .ok none
      else do
        let gotit ← matchAt s chars i
        .ok (if gotit then some (k, i) else none)) = .ok (g i) := by
    intro i _ hi
    simp only [g, dif_pos hi]
    exact (inner i hi).choose_spec.1
  have hgs : ∀ i (hi : i < s.length), (∀ k i', g i = some (k, i') → i' = i ∧ ∃ p, pats[k]? = some p ∧
        OccursAt s p i ∧ ∀ k' p', k' < k → pats[k']? = some p' → ¬ OccursAt s p' i) ∧
      (g i = none → ∀ p ∈ pats, ¬ OccursAt s p i) := by
    intro i hi
    simp only [g, dif_pos hi]
    exact (inner i hi).choose_spec.2
  unfold firstOfAny
  rcases forUp_ok hg with ⟨h1, h2⟩ | ⟨k, r, h1, h2, h3, h4, h5⟩
  · exact ⟨none, h1, by simp, fun _ p hp i hi => (hgs i hi).2 (h2 i (by omega) hi) p hp⟩
  · refine ⟨some r, h1, ?_, by simp⟩
    rintro k' i' hr
    cases hr
    obtain ⟨rfl, p, a, b, c⟩ := (hgs k h3).1 k' i' h4
    exact ⟨p, a, h3, b, c, fun j hj p' hp' => (hgs j (by omega)).2 (h5 j (by omega) hj) p' hp'⟩

example : firstOfAny (S "foo: bar; baz") [S "; ", S ": ", S ":"] = .ok (some (1, 3)) := by decide +kernel

end C4
