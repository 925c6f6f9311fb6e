import Verif.Debug.Search
import Verif.Props.DebugSpans
import Verif.Props.DebugRead
import Verif.Props.SubstrSplit
import Verif.Props.SubstrMutate
/-
C165: the searching, trimming, splitting, popping and replacing functions of views fail no assertion on the positions that they compute themselves.
-/
namespace C4

theorem sub1R_eq {s : List Nat} {n : Nat} (h : n ≤ s.length) : sub1R s n = .ok (n, s.length - n) := by
  unfold sub1R; rw [assertThat_pos h]; rfl

theorem sub2R_eq {s : List Nat} {f n : Nat} (h : f + n ≤ s.length) : sub2R s f n = .ok (f, n) := by
  unfold sub2R
  rw [assertThat_pos (c := f ≤ s.length) (by omega), assertThat_pos (c := n ≤ s.length) (by omega), assertThat_pos (c := f + n ≤ s.length ∨ n = 0) (.inl h)]
  rfl

theorem rangeR_eq {s : List Nat} {f l : Nat} (h1 : f ≤ l) (h2 : l ≤ s.length) : rangeR s f l = .ok (f, l - f) := by
  unfold rangeR
  rw [assertThat_pos (c := f ≤ s.length) (by omega), assertThat_pos h1, assertThat_pos h2]
  rfl

theorem leftOfSubR_eq {s : List Nat} {r : Rng} (h : r.1 + r.2 ≤ s.length) : leftOfSubR s r = .ok (0, r.1) := by
  unfold leftOfSubR
  rw [assertThat_pos (c := r.1 + r.2 ≤ s.length ∨ r.2 = 0) (.inl h), Res.ok_bind, if_pos (by omega), sub2R_eq (by omega)]

theorem rightOfSubR_eq {s : List Nat} {r : Rng} (h : r.1 + r.2 ≤ s.length) : rightOfSubR s r = .ok (r.1 + r.2, s.length - (r.1 + r.2)) := by
  unfold rightOfSubR
  rw [assertThat_pos (c := r.1 + r.2 ≤ s.length ∨ r.2 = 0) (.inl h), Res.ok_bind, if_pos h, sub2R_eq (by omega)]

theorem firstOfD_eq {s : List Nat} {c start : Nat} (h : start ≤ s.length) : firstOfD s c start = firstOf s c start := by
  unfold firstOfD; rw [assertThat_pos h]; rfl

theorem firstOfSetD_eq {s chars : List Nat} {start : Nat} (h : start ≤ s.length) : firstOfSetD s chars start = firstOfSet s chars start := by
  unfold firstOfSetD; rw [assertThat_pos h]; rfl

theorem lastOfD_eq {s : List Nat} {c : Nat} {start : Option Nat} (h : startOr s start ≤ s.length) : lastOfD s c start = lastOf s c start := by
  unfold lastOfD; rw [assertThat_pos h]; rfl

theorem matchAtD_eq {s p : List Nat} {i : Nat} (h : i + p.length ≤ s.length) : matchAtD s p i = matchAt s p i := by
  unfold matchAtD matchAt
  congr 1
  refine forUp_congr fun j _ hj => ?_
  rw [assertThat_pos (show i + j < s.length by omega), Res.ok_bind]

theorem findSD_eq {s p : List Nat} {start : Nat} (h : start ≤ s.length) : findSD s p start = findS s p start := by
  unfold findSD findS
  rw [assertThat_pos h, Res.ok_bind]
  split
  · rfl
  · refine forUp_congr fun i _ hi => ?_
    rw [matchAtD_eq (by omega)]

theorem firstOf_lt (s : List Nat) (c start : Nat) : ∃ r, firstOf s c start = .ok r ∧ ∀ i, r = some i → start ≤ i ∧ i < s.length := by
  obtain ⟨r, h, hr⟩ := firstOf_spec s c start
  refine ⟨r, h, ?_⟩
  rintro i rfl
  exact ⟨hr.1, hr.2.1⟩

theorem firstOfSet_lt (s chars : List Nat) (start : Nat) : ∃ r, firstOfSet s chars start = .ok r ∧ ∀ i, r = some i → start ≤ i ∧ i < s.length := by
  obtain ⟨r, h, hr⟩ := firstOfSet_spec s chars start
  refine ⟨r, h, ?_⟩
  rintro i rfl
  exact ⟨hr.1, hr.2.1⟩

theorem findS_le (s p : List Nat) (start : Nat) : ∃ r, findS s p start = .ok r ∧ ∀ i, r = some i → start ≤ i ∧ i + p.length ≤ s.length := by
  obtain ⟨r, h, hr⟩ := findS_spec s p start
  refine ⟨r, h, ?_⟩
  rintro i rfl
  exact ⟨hr.1, (Spec.occursAt_iff.mp hr.2.2.1).1⟩

theorem countCLoopD_eq (s : List Nat) (c : Nat) : ∀ (f : Nat) (p : Option Nat) (num : Nat), (∀ i, p = some i → i < s.length) →
    countCLoopD s c f p num = countCLoop s c f p num := by
  intro f
  induction f with
  | zero => intro p num _; cases p <;> rfl
  | succ f ih =>
    intro p num hp
    cases p with
    | none => rfl
    | some i =>
      have := hp i rfl
      obtain ⟨r, h, hr⟩ := firstOf_lt s c (i + 1)
      rw [countCLoopD, countCLoop, firstOfD_eq (by omega)]
      unfold findC
      rw [h, Res.ok_bind, Res.ok_bind, ih _ _ fun j hj => (hr j hj).2]

theorem countSLoopD_eq (s p : List Nat) : ∀ (f : Nat) (q : Option Nat) (num : Nat), (∀ i, q = some i → i + p.length ≤ s.length) →
    countSLoopD s p f q num = countSLoop s p f q num := by
  intro f
  induction f with
  | zero => intro q num _; cases q <;> rfl
  | succ f ih =>
    intro q num hq
    cases q with
    | none => rfl
    | some i =>
      obtain ⟨r, h, hr⟩ := findS_le s p (i + p.length)
      rw [countSLoopD, countSLoop, findSD_eq (hq i rfl), h, Res.ok_bind, Res.ok_bind, ih _ _ fun j hj => (hr j hj).2]

/-- C165: searching, counting and selecting, from any position of the text on. -/
theorem C165_search (s p : List Nat) (c pos : Nat) (h : pos ≤ s.length) (pats : List (List Nat)) (fuel : Nat) :
    findSD s p pos = findS s p pos ∧ countCD fuel s c pos = countC fuel s c pos ∧ countSD fuel s p pos = countS fuel s p pos ∧
    selectCD s c pos = selectC s c pos ∧ selectSD s p pos = selectS s p pos ∧ firstOfAnyD s pats = firstOfAny s pats := by
  refine ⟨findSD_eq h, ?_, ?_, ?_, ?_, ?_⟩
  · obtain ⟨r, e, hr⟩ := firstOf_lt s c pos
    unfold countCD countC findC
    rw [assertThat_pos h, Res.ok_bind, firstOfD_eq h, e, Res.ok_bind, Res.ok_bind, countCLoopD_eq _ _ _ _ _ fun j hj => (hr j hj).2]
  · obtain ⟨r, e, hr⟩ := findS_le s p pos
    unfold countSD countS
    rw [assertThat_pos h, Res.ok_bind, findSD_eq h, e, Res.ok_bind, Res.ok_bind, countSLoopD_eq _ _ _ _ _ fun j hj => (hr j hj).2]
  · obtain ⟨r, e, hr⟩ := firstOf_lt s c pos
    unfold selectCD selectC findC
    rw [firstOfD_eq h, e, Res.ok_bind, Res.ok_bind]
    cases r with
    | none => rfl
    | some i =>
      have := (hr i rfl).2
      simp only [sub2R_eq (s := s) (f := i) (n := 1) (by omega), Res.ok_bind, Option.map_some]
  · obtain ⟨r, e, hr⟩ := findS_le s p pos
    unfold selectSD selectS
    rw [findSD_eq h, e, Res.ok_bind, Res.ok_bind]
    cases r with
    | none => rfl
    | some i => simp only [sub2R_eq (hr i rfl).2, Res.ok_bind, Option.map_some]
  · unfold firstOfAnyD firstOfAny
    refine forUp_congr fun i _ _ => forUp_congr fun k _ _ => ?_
    congr 1
    funext chars
    split
    · rfl
    · rw [matchAtD_eq (by omega)]

theorem trimlWithD_eq {s : List Nat} {r : Option Nat} (hr : ∀ i, r = some i → i < s.length) :
    trimlWithD s (.ok r) = if s.length ≠ 0 then (match r with | some pos => .ok (pos, s.length - pos) | none => .ok (0, 0)) else .ok (0, 0) := by
  unfold trimlWithD
  rw [sub2R_eq (s := s) (f := 0) (n := 0) (by omega), Res.ok_bind]
  cases r with
  | none => rfl
  | some i => have := hr i rfl; simp only [sub1R_eq (s := s) (n := i) (by omega)]

theorem trimrWithD_eq {s : List Nat} {r : Option Nat} (hr : ∀ i, r = some i → i < s.length) :
    trimrWithD s (.ok r) = if s.length ≠ 0 then (match r with | some pos => .ok (0, pos + 1) | none => .ok (0, 0)) else .ok (0, 0) := by
  unfold trimrWithD
  rw [sub2R_eq (s := s) (f := 0) (n := 0) (by omega), Res.ok_bind]
  cases r with
  | none => rfl
  | some i => have := hr i rfl; simp only [sub2R_eq (s := s) (f := 0) (n := i + 1) (by omega)]

theorem trimlD_eq (s : List Nat) (c : Nat) : trimlD s c = triml s c := by
  obtain ⟨r, e, hr⟩ := firstNotOf_spec s c 0
  unfold trimlD triml
  rw [e, trimlWithD_eq (by rintro i rfl; exact hr.2.1), Res.ok_bind]
  cases r <;> rfl

theorem trimlSetD_eq (s chars : List Nat) : trimlSetD s chars = trimlSet s chars := by
  obtain ⟨r, e, hr⟩ := firstNotOfSet_spec s chars 0
  unfold trimlSetD trimlSet
  rw [e, trimlWithD_eq (by rintro i rfl; exact hr.2.1), Res.ok_bind]
  cases r <;> rfl

theorem trimrD_eq (s : List Nat) (c : Nat) : trimrD s c = trimr s c := by
  obtain ⟨r, e, hr⟩ := lastNotOf_spec s c none (Nat.le_refl _)
  unfold trimrD trimr
  rw [e, trimrWithD_eq (by rintro i rfl; exact hr.1), Res.ok_bind]
  cases r <;> rfl

theorem trimrSetD_eq (s chars : List Nat) : trimrSetD s chars = trimrSet s chars := by
  obtain ⟨r, e, hr⟩ := lastNotOfSet_spec s chars none (Nat.le_refl _)
  unfold trimrSetD trimrSet
  rw [e, trimrWithD_eq (by rintro i rfl; exact hr.1), Res.ok_bind]
  cases r <;> rfl

/-- C165: trimming and stripping. -/
theorem C165_trim (s p : List Nat) (c : Nat) :
    trimlD s c = triml s c ∧ trimrD s c = trimr s c ∧ trimD s c = trim s c ∧
    trimlSetD s p = trimlSet s p ∧ trimrSetD s p = trimrSet s p ∧ trimSetD s p = trimSet s p ∧
    striplD s p = stripl s p ∧ striprD s p = stripr s p := by
  refine ⟨trimlD_eq s c, trimrD_eq s c, ?_, trimlSetD_eq s p, trimrSetD_eq s p, ?_, ?_, ?_⟩
  · unfold trimD trim; simp only [trimlD_eq, trimrD_eq]
  · unfold trimSetD trimSet; simp only [trimlSetD_eq, trimrSetD_eq]
  · unfold striplD stripl
    congr 1
    funext b
    split
    · rfl
    · rw [sub1R_eq (by split <;> omega)]
  · unfold striprD stripr leftOfR
    congr 1
    funext b
    split
    · rfl
    · rw [assertThat_pos (by omega)]; rfl

theorem pairNestedLoopD_eq (s : List Nat) (opn close b : Nat) : ∀ (f curr count : Nat), b < curr → curr ≤ s.length →
    pairNestedLoopD s opn close b f curr count = pairNestedLoop s opn close b f curr count := by
  intro f
  induction f with
  | zero => intro _ _ _ _; rfl
  | succ f ih =>
    intro curr count hb hc
    obtain ⟨r, e, hr⟩ := firstOfSet_lt s [opn, close] curr
    rw [pairNestedLoopD, pairNestedLoop, firstOfSetD_eq hc, e, Res.ok_bind, Res.ok_bind]
    cases r with
    | none => rfl
    | some i =>
      obtain ⟨h1, h2⟩ := hr i rfl
      simp only []
      congr 1
      funext x
      simp only [ih (i + 1) (count + 1) (by omega) (by omega), ih (i + 1) (count - 1) (by omega) (by omega), ih curr count hb hc,
        rangeR_eq (s := s) (f := b) (l := i + 1) (by omega) (by omega), Res.ok_bind]

/-- C165: delimited ranges, and what is between quotes. -/
theorem C165_pairs (s : List Nat) (opn close : Nat) :
    pairRangeEscD s opn close = pairRangeEsc s opn close ∧ pairRangeNestedD s opn close = pairRangeNested s opn close ∧ unquotedD s = unquoted s := by
  refine ⟨?_, ?_, ?_⟩
  · obtain ⟨r, e, hr⟩ := firstOf_lt s opn 0
    unfold pairRangeEscD pairRangeEsc findC
    rw [firstOfD_eq (by omega), e, Res.ok_bind, Res.ok_bind]
    cases r with
    | none => rfl
    | some b =>
      refine forUp_congr fun i h1 h2 => ?_
      congr 1
      funext x
      split
      · congr 1
        funext y
        by_cases h : y ≠ close
        · rw [if_pos h, if_pos h, rangeR_eq (by omega) (by omega)]; rfl
        · rw [if_neg h, if_neg h]
      · rfl
  · obtain ⟨r, e, hr⟩ := firstOf_lt s opn 0
    unfold pairRangeNestedD pairRangeNested findC
    rw [firstOfD_eq (by omega), e, Res.ok_bind, Res.ok_bind]
    cases r with
    | none => rfl
    | some b => have := (hr b rfl).2; exact pairNestedLoopD_eq s opn close b _ _ _ (by omega) (by omega)
  · unfold unquotedD unquoted
    split
    · simp only [rangeR_eq (s := s) (f := 1) (l := s.length - 1) (by omega) (by omega)]
    · rfl

theorem lastOf_lt (s : List Nat) (c : Nat) (start : Option Nat) (h : startOr s start ≤ s.length) :
    ∃ r, lastOf s c start = .ok r ∧ ∀ i, r = some i → i < s.length := by
  obtain ⟨r, e, hr⟩ := lastOf_spec s c start h
  refine ⟨r, e, ?_⟩
  rintro i rfl
  have := hr.1
  omega

theorem popRightD_eq (s : List Nat) (sep : Nat) (skip : Bool) : popRightD s sep skip = popRight s sep skip := by
  have e0 : sub2R s 0 0 = .ok (0, 0) := sub2R_eq (by omega)
  unfold popRightD popRight
  split
  · obtain ⟨r, e, hr⟩ := lastOf_lt s sep none (Nat.le_refl _)
    rw [lastOfD_eq (Nat.le_refl _), e, Res.ok_bind, Res.ok_bind]
    cases r with
    | none => rfl
    | some pos =>
      have hp := hr pos rfl
      simp only []
      split
      · rw [sub1R_eq (by omega)]
      · split
        · rw [sub2R_eq (by omega)]
        · obtain ⟨q, e1, hq⟩ := lastNotOf_spec s sep none (Nat.le_refl _)
          rw [e1, Res.ok_bind, Res.ok_bind]
          cases q with
          | none => exact e0
          | some ppos =>
            have hpp : ppos < s.length := hq.1
            obtain ⟨t, e2, ht⟩ := lastOf_lt s sep (some ppos) (by simp only [startOr]; omega)
            simp only []
            rw [lastOfD_eq (by simp only [startOr]; omega), e2, Res.ok_bind, Res.ok_bind]
            cases t with
            | none => simp only [sub1R_eq (s := s) (n := 0) (by omega), Nat.sub_zero]
            | some pos0 =>
              have := ht pos0 rfl
              simp only [sub1R_eq (s := s) (n := pos0 + 1) (by omega)]
  · rw [e0]

theorem popLeftD_eq (s : List Nat) (sep : Nat) (skip : Bool) : popLeftD s sep skip = popLeft s sep skip := by
  have e0 : sub2R s 0 0 = .ok (0, 0) := sub2R_eq (by omega)
  have e1 : sub1R s 0 = .ok (0, s.length) := sub1R_eq (by omega)
  unfold popLeftD popLeft
  split
  · next hlen =>
    obtain ⟨r, e, hr⟩ := firstOf_lt s sep 0
    have hsep : firstOf s sep 0 = .ok r := e
    rw [firstOfD_eq (by omega), e, Res.ok_bind, Res.ok_bind]
    cases r with
    | none => exact e1
    | some pos =>
      have hp := (hr pos rfl).2
      simp only []
      split
      · rw [sub2R_eq (by omega)]
      · next hz =>
        split
        · exact e0
        · obtain ⟨q, e2, hq⟩ := firstNotOf_spec s sep 0
          rw [e2, Res.ok_bind, Res.ok_bind]
          cases q with
          | none => exact e0
          | some ppos =>
            have hpp : ppos < s.length := hq.2.1
            obtain ⟨u, e3, hu⟩ := firstOf_spec s sep 0
            have hpos : 0 < ppos := by
              rcases Nat.eq_zero_or_pos ppos with h0 | h0
              · exfalso
                have : u = some pos := by have := e3.symm.trans hsep; injection this
                subst this
                obtain ⟨x, hx, hxs⟩ := hu.2.2.1
                obtain ⟨y, hy, hys⟩ := hq.2.2.1
                have : pos = ppos := by omega
                subst this
                rw [hx] at hy
                injection hy with hy
                exact hys (by omega)
              · exact h0
            obtain ⟨t, e4, ht⟩ := firstOf_lt s sep ppos
            simp only []
            rw [firstOfD_eq (by omega), e4, Res.ok_bind, Res.ok_bind]
            cases t with
            | none => exact e1
            | some pos0 =>
              have := ht pos0 rfl
              simp only []
              rw [assertThat_pos (c := pos0 > 0) (by omega), Res.ok_bind, sub2R_eq (by omega)]
  · rw [e0, e1]

theorem popRight_in (s : List Nat) (sep : Nat) (skip : Bool) : ∃ r, popRight s sep skip = .ok r ∧ r.1 + r.2 ≤ s.length := by
  unfold popRight
  split
  · obtain ⟨r, e, hr⟩ := lastOf_lt s sep none (Nat.le_refl _)
    rw [e, Res.ok_bind]
    cases r with
    | none => exact ⟨_, rfl, by simp⟩
    | some pos =>
      have hp := hr pos rfl
      simp only []
      split
      · exact ⟨_, rfl, by simp only []; omega⟩
      · split
        · exact ⟨_, rfl, by simp only []; omega⟩
        · obtain ⟨q, e1, hq⟩ := lastNotOf_spec s sep none (Nat.le_refl _)
          rw [e1, Res.ok_bind]
          cases q with
          | none => exact ⟨_, rfl, by simp⟩
          | some ppos =>
            have hpp : ppos < s.length := hq.1
            obtain ⟨t, e2, ht⟩ := lastOf_lt s sep (some ppos) (by simp only [startOr]; omega)
            simp only []
            rw [e2, Res.ok_bind]
            cases t with
            | none => exact ⟨_, rfl, by simp⟩
            | some pos0 => have := ht pos0 rfl; exact ⟨_, rfl, by simp only []; omega⟩
  · split
    · obtain ⟨b, hb, _⟩ := (C32_begins_ends_char s [] sep).1
      rw [hb, Res.ok_bind]
      split
      · exact ⟨_, rfl, by simp⟩
      · exact ⟨_, rfl, by simp⟩
    · exact ⟨_, rfl, by simp⟩

theorem popLeft_in (s : List Nat) (sep : Nat) (skip : Bool) : ∃ r, popLeft s sep skip = .ok r ∧ r.1 + r.2 ≤ s.length := by
  unfold popLeft
  split
  · obtain ⟨r, e, hr⟩ := firstOf_lt s sep 0
    rw [e, Res.ok_bind]
    cases r with
    | none => exact ⟨_, rfl, by simp⟩
    | some pos =>
      have hp := (hr pos rfl).2
      simp only []
      split
      · exact ⟨_, rfl, by simp only []; omega⟩
      · split
        · exact ⟨_, rfl, by simp⟩
        · obtain ⟨q, e1, hq⟩ := firstNotOf_spec s sep 0
          rw [e1, Res.ok_bind]
          cases q with
          | none => exact ⟨_, rfl, by simp⟩
          | some ppos =>
            obtain ⟨t, e2, ht⟩ := firstOf_lt s sep ppos
            simp only []
            rw [e2, Res.ok_bind]
            cases t with
            | none => exact ⟨_, rfl, by simp⟩
            | some pos0 => have := ht pos0 rfl; exact ⟨_, rfl, by simp only []; omega⟩
  · split
    · obtain ⟨b, hb, _⟩ := (C32_begins_ends_char s [] sep).1
      rw [hb, Res.ok_bind]
      split
      · exact ⟨_, rfl, by simp⟩
      · exact ⟨_, rfl, by simp⟩
    · exact ⟨_, rfl, by simp⟩

theorem of_len {s : List Nat} {r : Rng} (h : r.1 + r.2 ≤ s.length) : (Rng.of s r).length = r.2 := by
  unfold Rng.of
  rw [List.length_take, List.length_drop]
  omega

theorem gpopLeftD_eq (s : List Nat) (sep : Nat) (skip : Bool) : gpopLeftD s sep skip = gpopLeft s sep skip := by
  obtain ⟨r, e, hr⟩ := popRight_in s sep skip
  unfold gpopLeftD gpopLeft findC
  rw [popRightD_eq, e, Res.ok_bind, Res.ok_bind, leftOfSubR_eq hr, Res.ok_bind, firstOfD_eq (by omega)]
  have hl : (Rng.of s (0, r.1)).length = r.1 := of_len (by simp only []; omega)
  obtain ⟨q, e1, _⟩ := firstOf_lt (Rng.of s (0, r.1)) sep 0
  simp only [e1, Res.ok_bind]
  cases q with
  | none => rfl
  | some i => simp only [trimrD_eq, sub2R_eq (s := Rng.of s (0, r.1)) (f := 0) (n := r.1 - 1) (by omega), Res.ok_bind, Nat.zero_add]

theorem gpopRightD_eq (s : List Nat) (sep : Nat) (skip : Bool) : gpopRightD s sep skip = gpopRight s sep skip := by
  obtain ⟨r, e, hr⟩ := popLeft_in s sep skip
  unfold gpopRightD gpopRight findC
  rw [popLeftD_eq, e, Res.ok_bind, Res.ok_bind, rightOfSubR_eq hr, Res.ok_bind, firstOfD_eq (by omega)]
  have hl : (Rng.of s (r.1 + r.2, s.length - (r.1 + r.2))).length = s.length - (r.1 + r.2) := of_len (by simp only []; omega)
  obtain ⟨q, e1, hq⟩ := firstOf_lt (Rng.of s (r.1 + r.2, s.length - (r.1 + r.2))) sep 0
  simp only [e1, Res.ok_bind]
  cases q with
  | none => rfl
  | some i =>
    have := hq i rfl
    rw [hl] at this
    simp only [trimlD_eq, sub1R_eq (s := Rng.of s (r.1 + r.2, s.length - (r.1 + r.2))) (n := 1) (by omega), Res.ok_bind, hl]

theorem basename_in (s : List Nat) (sep : Nat) : ∃ r, basename s sep = .ok r ∧ r.1 + r.2 ≤ s.length := by
  obtain ⟨r, e, hr⟩ := popRight_in s sep true
  unfold basename
  rw [e, Res.ok_bind]
  obtain ⟨q, e1, hq⟩ := lastNotOf_spec (Rng.of s r) sep none (Nat.le_refl _)
  have hl := of_len hr
  unfold trimr
  split
  · rw [e1, Res.ok_bind]
    cases q with
    | none => exact ⟨_, rfl, by simp only []; omega⟩
    | some i =>
      have : i < (Rng.of s r).length := hq.1
      exact ⟨_, rfl, by simp only []; omega⟩
  · exact ⟨_, rfl, by simp only []; omega⟩

/-- C165: popping from the ends, and the parts of paths and file names (`extshort` and the like are these with a dot). -/
theorem C165_pop (s : List Nat) (sep : Nat) (skip : Bool) :
    popRightD s sep skip = popRight s sep skip ∧ popLeftD s sep skip = popLeft s sep skip ∧
    gpopLeftD s sep skip = gpopLeft s sep skip ∧ gpopRightD s sep skip = gpopRight s sep skip ∧
    basenameD s sep = basename s sep ∧ dirnameD s sep = dirname s sep := by
  have hb : basenameD s sep = basename s sep := by unfold basenameD basename; simp only [popRightD_eq, trimrD_eq]
  refine ⟨popRightD_eq s sep skip, popLeftD_eq s sep skip, gpopLeftD_eq s sep skip, gpopRightD_eq s sep skip, hb, ?_⟩
  obtain ⟨r, e, hr⟩ := basename_in s sep
  unfold dirnameD dirname
  rw [hb, e, Res.ok_bind, Res.ok_bind]
  split
  · rfl
  · exact leftOfSubR_eq hr

theorem replaceCLoopD_eq (value repl : Nat) : ∀ (f : Nat) (buf : List Nat) (pos did : Nat), pos ≤ buf.length →
    replaceCLoopD value repl f buf pos did = replaceC value repl f buf pos did := by
  intro f
  induction f with
  | zero => intro _ _ _ _; rfl
  | succ f ih =>
    intro buf pos did h
    obtain ⟨r, e, hr⟩ := firstOf_lt buf value pos
    rw [replaceCLoopD, replaceC, firstOfD_eq h]
    unfold findC
    rw [e, Res.ok_bind, Res.ok_bind]
    cases r with
    | none => rfl
    | some p =>
      have := (hr p rfl).2
      simp only [wr_ok this, Res.ok_bind]
      exact ih _ _ _ (by rw [List.length_set]; omega)

theorem replaceSetLoopD_eq (chars : List Nat) (repl : Nat) : ∀ (f : Nat) (buf : List Nat) (pos did : Nat), pos ≤ buf.length →
    replaceSetLoopD chars repl f buf pos did = replaceSet chars repl f buf pos did := by
  intro f
  induction f with
  | zero => intro _ _ _ _; rfl
  | succ f ih =>
    intro buf pos did h
    obtain ⟨r, e, hr⟩ := firstOfSet_lt buf chars pos
    rw [replaceSetLoopD, replaceSet, firstOfSetD_eq h, e, Res.ok_bind, Res.ok_bind]
    cases r with
    | none => rfl
    | some p =>
      have := (hr p rfl).2
      simp only [wr_ok this, Res.ok_bind]
      exact ih _ _ _ (by rw [List.length_set]; omega)

theorem appendChunkD_eq {src : List Nat} {first last : Nat} (h : first ≤ last) (st : Nat × List Nat) : appendChunkD src first last st = appendChunk src first last st := by
  unfold appendChunkD; rw [assertThat_pos (c := last ≥ first) h, Res.ok_bind]

theorem replaceAllLoopD_none (s p r : List Nat) (f b : Nat) (st : Nat × List Nat) (h : findSD s p b = .ok none) :
    replaceAllLoopD s p r (f+1) b st = appendChunkD s b s.length st := by
  rw [replaceAllLoopD, h, Res.ok_bind]

theorem replaceAllLoopD_some (s p r : List Nat) (f b e : Nat) (st : Nat × List Nat) (h : findSD s p b = .ok (some e)) :
    replaceAllLoopD s p r (f+1) b st = (do
      let st ← appendChunkD s b e st
      let st ← appendChunkD r 0 r.length st
      let b' := e + p.length
      if b' < s.length then replaceAllLoopD s p r f b' st else .ok st) := by
  rw [replaceAllLoopD, h, Res.ok_bind]

theorem replaceAllLoopD_eq (s p r : List Nat) : ∀ (f b : Nat) (st : Nat × List Nat), b ≤ s.length → replaceAllLoopD s p r f b st = replaceAllLoop s p r f b st := by
  intro f
  induction f with
  | zero => intro _ _ _; rw [replaceAllLoopD, replaceAllLoop]
  | succ f ih =>
    intro b st h
    obtain ⟨q, e, hq⟩ := findS_le s p b
    cases q with
    | none => rw [replaceAllLoopD_none s p r f b st (by rw [findSD_eq h, e]), replaceAllLoop_none s p r f b st e, appendChunkD_eq h st]
    | some i =>
      have hi := hq i rfl
      rw [replaceAllLoopD_some s p r f b i st (by rw [findSD_eq h, e]), replaceAllLoop_some s p r f b i st e]
      simp only [appendChunkD_eq hi.1, appendChunkD_eq (Nat.zero_le r.length), ih (i + p.length) _ hi.2]

/-- C165: replacing, from any position of the text on. -/
theorem C165_replace (s chars : List Nat) (value repl pos fuel : Nat) (h : pos ≤ s.length) (dst p r : List Nat) (hp : p ≠ []) :
    replaceCD value repl fuel s pos = replaceC value repl fuel s pos 0 ∧ replaceSetD chars repl fuel s pos = replaceSet chars repl fuel s pos 0 ∧
    replaceAllD fuel s dst p r pos = replaceAll fuel s dst p r pos := by
  refine ⟨?_, ?_, ?_⟩
  · unfold replaceCD; rw [assertThat_pos h]; exact replaceCLoopD_eq value repl fuel s pos 0 h
  · unfold replaceSetD; rw [assertThat_pos h]; exact replaceSetLoopD_eq chars repl fuel s pos 0 h
  · unfold replaceAllD replaceAll
    rw [assertThat_pos (c := p.length ≠ 0) (by simpa using hp), assertThat_pos h, Res.ok_bind, Res.ok_bind, appendChunkD_eq (Nat.zero_le _)]
    simp only [replaceAllLoopD_eq s p r fuel pos _ h]

/-- C165 as far as it holds, `split`: it refuses exactly to start at or after the end of a text that is not empty. -/
theorem C165_split_partial (fuel : Nat) (s : List Nat) (sep start : Nat) :
    (start < s.length ∨ s = [] → splitRunD fuel s sep start = splitRun fuel s sep start) ∧
    (¬ (start < s.length ∨ s = []) → splitRunD fuel s sep start = .abort) := by
  have e : s = [] ↔ s.length = 0 := by simp
  rw [e]
  unfold splitRunD
  refine ⟨fun h => ?_, fun h => ?_⟩
  · rw [assertThat_pos h, Res.ok_bind, sub2R_eq (by omega), Res.ok_bind]
    simp [Rng.of]
  · rw [assertThat_neg h]; rfl

/-- C165 as far as it holds, `pair_range`: it refuses exactly the ranges within which the opening character is found again. -/
theorem C165_pair_range_partial (s : List Nat) (opn close : Nat) :
    ∃ r, pairRange s opn close = .ok r ∧
      ((∃ q, r = some q ∧ opn ∈ (Rng.of s q).drop 1) → pairRangeD s opn close = .abort) ∧
      ((¬ ∃ q, r = some q ∧ opn ∈ (Rng.of s q).drop 1) → pairRangeD s opn close = .ok r) := by
  obtain ⟨a, ea, ha⟩ := firstOf_lt s opn 0
  unfold pairRangeD pairRange findC
  rw [firstOfD_eq (by omega), ea, Res.ok_bind, Res.ok_bind]
  cases a with
  | none => exact ⟨none, rfl, (by rintro ⟨q, h, _⟩; cases h), fun _ => rfl⟩
  | some b =>
    have hb := (ha b rfl).2
    obtain ⟨c, ec, hc⟩ := firstOf_lt s close (b + 1)
    simp only []
    rw [firstOfD_eq (by omega), ec, Res.ok_bind, Res.ok_bind]
    cases c with
    | none => exact ⟨none, rfl, (by rintro ⟨q, h, _⟩; cases h), fun _ => rfl⟩
    | some e =>
      obtain ⟨h1, h2⟩ := hc e rfl
      have hl : (Rng.of s (b, e + 1 - b)).length = e + 1 - b := of_len (by simp only []; omega)
      simp only []
      rw [rangeR_eq (by omega) (by omega), Res.ok_bind]
      unfold subL
      rw [assertThat_pos (c := 1 ≤ (Rng.of s (b, e + 1 - b)).length) (by omega)]
      refine ⟨_, rfl, ?_, ?_⟩
      · rintro ⟨q, hq, hm⟩
        injection hq with hq
        subst hq
        have := firstOf_split ((Rng.of s (b, e + 1 - b)).drop 1) opn 0 (Nat.zero_le _)
        rcases this with ⟨_, hn⟩ | ⟨x, y, hx, _, hf⟩
        · exact absurd hm (by simpa using hn)
        · show (firstOfD ((Rng.of s (b, e + 1 - b)).drop 1) opn 0).bind _ = _
          rw [firstOfD_eq (by omega), hf]
          show (assertThat ((some (0 + x.length) : Option Nat) = none) >>= fun _ => Res.ok (some (b, e + 1 - b))) = _
          rw [assertThat_neg (by simp)]
          rfl
      · intro hn
        have := firstOf_split ((Rng.of s (b, e + 1 - b)).drop 1) opn 0 (Nat.zero_le _)
        rcases this with ⟨hf, _⟩ | ⟨x, y, hx, _, _⟩
        · show (firstOfD ((Rng.of s (b, e + 1 - b)).drop 1) opn 0).bind _ = _
          rw [firstOfD_eq (by omega), hf]
          show (assertThat ((none : Option Nat) = none) >>= fun _ => Res.ok (some (b, e + 1 - b))) = _
          rw [assertThat_pos rfl]
          rfl
        · refine absurd ⟨_, rfl, ?_⟩ hn
          have : opn ∈ ((Rng.of s (b, e + 1 - b)).drop 1).drop 0 := by rw [hx]; simp
          simpa using this

/-- C165 is false of `split` from the end of a text, and of `pair_range` with the same character twice: a pair that it finds always fails the assertion. -/
theorem C165_refuted :
    (splitRun 9 (S "a,") 44 2 = .ok [(2, 0)] ∧ splitRunD 9 (S "a,") 44 2 = .abort) ∧
    (∀ s q c, pairRange s q q = .ok (some c) → pairRangeD s q q = .abort) ∧
    pairRange (S "say 'hi'") 39 39 = .ok (some (4, 4)) := by
  refine ⟨by decide +kernel, fun s q c h => ?_, by decide +kernel⟩
  obtain ⟨r, hr, h1, _⟩ := C165_pair_range_partial s q q
  rw [h] at hr
  injection hr with hr
  refine h1 ⟨c, hr.symm, ?_⟩
  obtain ⟨a, ea, ha⟩ := firstOf_spec s q 0
  unfold pairRange findC at h
  rw [ea, Res.ok_bind] at h
  cases a with
  | none => cases h
  | some b =>
    obtain ⟨x, ex, hx⟩ := firstOf_spec s q (b + 1)
    simp only [] at h
    rw [ex, Res.ok_bind] at h
    cases x with
    | none => cases h
    | some e =>
      injection h with h
      injection h with h
      subst h
      obtain ⟨y, hy, hyq⟩ := hx.2.2.1
      have he : e < s.length := hx.2.1
      have hb : b + 1 ≤ e := hx.1
      subst hyq
      have : ((Rng.of s (b, e + 1 - b)).drop 1)[e - b - 1]? = some y := by
        unfold Rng.of
        rw [List.getElem?_drop, List.getElem?_take, if_pos (by simp only []; omega), List.getElem?_drop]
        have : b + (1 + (e - b - 1)) = e := by omega
        simp only [this, hy]
      exact List.mem_of_getElem? this

example : popRightD (S "a/b//") 47 true = .ok (2, 3) ∧ gpopLeftD (S "a/b/c") 47 false = .ok (0, 3) ∧ dirnameD (S "/usr/lib") 47 = .ok (0, 5) ∧
    countSD 9 (S "aXbX") (S "X") 1 = .ok 2 ∧ pairRangeD (S "f(x) (y)") 40 41 = .ok (some (1, 3)) ∧ pairRangeD (S "f((x)") 40 41 = .abort ∧
    splitRunD 9 (S "a,b") 44 0 = .ok [(0, 1), (2, 1)] ∧ replaceCD 97 98 9 (S "aXa") 1 = .ok (S "aXb", 1) ∧
    pairRangeNestedD (S "f((x))") 40 41 = .ok (some (1, 5)) ∧ trimD (S "--x-") 45 = .ok (2, 1) := by decide +kernel

end C4
