import Verif.Substr.SplitLemmas
import Verif.Props.SubstrTrim
/-
Properties C34-C36: splitting at separators.
-/
namespace C4
open Spec

/-! ### C34, C35 -/

/-- `pieces` is the decomposition of `s` at the separator: joined with the separator they give `s`, and no piece
contains the separator. -/
def Spec.SplitsInto (sep : Nat) (s : List Nat) (pieces : List (List Nat)) : Prop :=
  pieces ≠ [] ∧ List.intercalate [sep] pieces = s ∧ ∀ p ∈ pieces, sep ∉ p

theorem intercalate_cons {sep : Nat} {p : List Nat} {ps : List (List Nat)} (h : ps ≠ []) :
    List.intercalate [sep] (p :: ps) = p ++ sep :: List.intercalate [sep] ps := by
  cases ps with
  | nil => exact absurd rfl h
  | cons q qs => simp [List.intercalate, List.intersperse]

theorem intercalate_single {sep : Nat} {p : List Nat} : List.intercalate [sep] [p] = p := by
  simp [List.intercalate]

/-- The number of pieces is one more than the number of separators. -/
theorem Spec.SplitsInto.length {sep : Nat} {s : List Nat} {ps : List (List Nat)} (h : SplitsInto sep s ps) :
    ps.length = s.count sep + 1 := by
  obtain ⟨hne, rfl, h3⟩ := h
  induction ps with
  | nil => exact absurd rfl hne
  | cons p ps ih =>
    cases ps with
    | nil =>
      rw [intercalate_single, List.count_eq_zero_of_not_mem (h3 p (by simp))]; rfl
    | cons q qs =>
      rw [intercalate_cons (by simp), List.count_append, List.count_cons,
        List.count_eq_zero_of_not_mem (h3 p (by simp))]
      rw [List.length_cons, ih (by simp) (fun p hp => h3 p (by simp [hp]))]
      simp

/-- The decomposition is unique. -/
theorem Spec.SplitsInto.unique {sep : Nat} {s : List Nat} {ps qs : List (List Nat)} (h : SplitsInto sep s ps)
    (h' : SplitsInto sep s qs) : ps = qs := by
  induction ps generalizing s qs with
  | nil => exact absurd rfl h.1
  | cons p ps ih =>
    cases qs with
    | nil => exact absurd rfl h'.1
    | cons q qs =>
      have hlen := h.length.trans h'.length.symm
      obtain ⟨_, h2, h3⟩ := h
      obtain ⟨_, g2, g3⟩ := h'
      have hp := h3 p (by simp)
      have hq := g3 q (by simp)
      cases ps with
      | nil =>
        cases qs with
        | cons _ _ => simp at hlen
        | nil => rw [intercalate_single] at h2 g2; rw [h2, g2]
      | cons p' ps =>
        cases qs with
        | nil => simp at hlen
        | cons q' qs =>
          rw [intercalate_cons (by simp)] at h2 g2
          have e := h2.trans g2.symm
          have key : ∀ (a b x y : List Nat), sep ∉ a → sep ∉ b → a ++ sep :: x = b ++ sep :: y → a = b ∧ x = y := by
            intro a
            induction a with
            | nil =>
              intro b x y _ hb he
              cases b with
              | nil => simpa using he
              | cons z b => simp at he; simp [← he.1] at hb
            | cons z a iha =>
              intro b x y ha hb he
              cases b with
              | nil => simp at he; simp [he.1] at ha
              | cons w b =>
                simp at he ha hb
                obtain ⟨h1, h2⟩ := iha b x y ha.2 hb.2 he.2
                exact ⟨by rw [he.1, h1], h2⟩
          obtain ⟨e1, e2⟩ := key _ _ _ _ hp hq e
          rw [e1, ih (s := List.intercalate [sep] (p' :: ps)) ⟨by simp, rfl, fun x hx => h3 x (by simp [hx])⟩
            ⟨by simp, e2.symm, fun x hx => g3 x (by simp [hx])⟩]

theorem nextSplit_split (s : List Nat) (sep pos : Nat) (h : pos < s.length) :
    (sep ∉ s.drop pos ∧ nextSplit s sep pos = .ok (true, s.length + 1, (pos, s.length - pos))) ∨
    (∃ a b, s.drop pos = a ++ sep :: b ∧ sep ∉ a ∧
      nextSplit s sep pos = .ok (true, pos + a.length + 1, (pos, a.length))) := by
  have hf : nextSplit s sep pos = (do
      let r ← firstOf s sep pos
      .ok (match r with
        | some i => (true, i + 1, (pos, i - pos))
        | none => (true, s.length + 1, (pos, s.length - pos)))) := by
    unfold nextSplit firstOf
    rw [if_pos h]
    rfl
  rw [hf]
  rcases firstOf_split s sep pos (by omega) with ⟨h1, h2⟩ | ⟨a, b, h1, h2, h3⟩
  · left; rw [h1]; exact ⟨h2, rfl⟩
  · right
    refine ⟨a, b, h1, h2, ?_⟩
    rw [h3]
    simp only [Res.ok_bind]
    congr 4; omega

theorem nextSplit_last (s : List Nat) (sep : Nat) (hs : s.getLast? = some sep) :
    nextSplit s sep s.length = .ok (true, s.length + 1, (s.length, 0)) := by
  have hne : s ≠ [] := by rintro rfl; simp at hs
  have hlen : 0 < s.length := List.length_pos_iff.mpr hne
  unfold nextSplit
  rw [if_neg (by omega)]
  rw [List.getLast?_eq_getElem?] at hs
  rw [rd_some hs]
  simp [hlen]

theorem nextSplit_end (s : List Nat) (sep : Nat) :
    nextSplit s sep (s.length + 1) = .ok (false, s.length + 1, (s.length + 1, 0)) := by
  unfold nextSplit
  rw [if_neg (by omega)]
  simp

/-- A position from which splitting goes on: inside the string, or at its end right after a separator. -/
def SplitPos (s : List Nat) (sep pos : Nat) : Prop :=
  pos < s.length ∨ (pos = s.length ∧ s.getLast? = some sep)

theorem split_rest {s : List Nat} {sep pos : Nat} {a b : List Nat} (h : s.drop pos = a ++ sep :: b) :
    s.drop (pos + a.length + 1) = b ∧ SplitPos s sep (pos + a.length + 1) := by
  have h1 : s.drop (pos + a.length + 1) = b := by
    rw [show pos + a.length + 1 = pos + (a.length + 1) by omega, ← List.drop_drop, h]
    simp
  refine ⟨h1, ?_⟩
  have hl := congrArg List.length h
  simp at hl
  by_cases hb : b = []
  · right
    subst hb
    refine ⟨by simp at hl; omega, ?_⟩
    have : s = s.take pos ++ (a ++ [sep]) := by rw [← h, List.take_append_drop]
    rw [this, ← List.append_assoc, List.getLast?_append]
    simp
  · left
    have := List.length_pos_iff.mpr hb
    omega

/-- The pieces produced by one run from `pos`, common to `next_split` loops and split iterators. -/
theorem split_run (s : List Nat) (sep : Nat) : ∀ (n pos : Nat), s.length - pos = n → SplitPos s sep pos →
    ∃ rs : List Rng, SplitsInto sep (s.drop pos) (rs.map (Rng.of s)) ∧ (∀ r ∈ rs, r.1 + r.2 ≤ s.length) ∧
      (∀ fuel, n + 2 ≤ fuel → nextSplitRun s sep fuel pos = .ok rs) ∧
      (∀ fuel, n + 2 ≤ fuel → ∃ it, splitTick s sep pos = .ok it ∧
        splitRunFrom s sep (s.length + 1, (s.length + 1, 0)) fuel it = .ok rs) := by
  intro n
  induction n using Nat.strongRecOn with
  | ind n ih =>
    intro pos hn hp
    -- the three cases of one step: (new position, range)
    have hfin : ∀ r : Rng, r.1 ≤ s.length → nextSplit s sep pos = .ok (true, s.length + 1, r) →
        (∀ fuel, n + 2 ≤ fuel → nextSplitRun s sep fuel pos = .ok [r]) ∧
        (∀ fuel, n + 2 ≤ fuel → ∃ it, splitTick s sep pos = .ok it ∧
          splitRunFrom s sep (s.length + 1, (s.length + 1, 0)) fuel it = .ok [r]) := by
      intro r hr e
      constructor
      · intro fuel hf
        obtain ⟨f, rfl⟩ : ∃ f, fuel = f + 2 := ⟨fuel - 2, by omega⟩
        rw [nextSplitRun, e]
        simp only [Res.ok_bind, if_true]
        rw [nextSplitRun, nextSplit_end]
        rfl
      · intro fuel hf
        obtain ⟨f, rfl⟩ : ∃ f, fuel = f + 2 := ⟨fuel - 2, by omega⟩
        refine ⟨_, by rw [splitTick, e]; rfl, ?_⟩
        rw [splitRunFrom, if_neg (by
          intro h; have h2 := congrArg (fun x : Nat × Rng => x.2.1) h; simp at h2; omega), splitTick, nextSplit_end]
        simp only [Res.ok_bind]
        rw [splitRunFrom, if_pos rfl]
        rfl
    rcases hp with hp | ⟨rfl, hl⟩
    · rcases nextSplit_split s sep pos hp with ⟨h1, h2⟩ | ⟨a, b, h1, h2, h3⟩
      · refine ⟨[(pos, s.length - pos)], ⟨by simp, ?_, ?_⟩, ?_, hfin _ (by omega) h2⟩
        · rw [List.map_singleton, intercalate_single]
          exact List.take_of_length_le (by simp)
        · intro p hp'
          simp only [List.map_singleton, List.mem_singleton] at hp'
          subst hp'
          intro hm
          exact h1 (List.mem_of_mem_take hm)
        · intro r hr; simp at hr; subst hr; simp; omega
      · obtain ⟨hrest, hp'⟩ := split_rest h1
        have hl := congrArg List.length h1
        simp at hl
        obtain ⟨rs, ⟨g1, g2, g3⟩, g4, g5, g6⟩ := ih (s.length - (pos + a.length + 1)) (by omega) _ rfl hp'
        have hne : rs.map (Rng.of s) ≠ [] := g1
        have hof : Rng.of s (pos, a.length) = a := by
          unfold Rng.of; rw [h1]; simp
        refine ⟨(pos, a.length) :: rs, ⟨by simp, ?_, ?_⟩, ?_, ?_, ?_⟩
        · rw [List.map_cons, intercalate_cons hne, g2, hrest, hof, h1]
        · intro p hp
          rw [List.map_cons, List.mem_cons] at hp
          rcases hp with rfl | hp
          · rw [hof]; exact h2
          · exact g3 p hp
        · intro r hr
          rw [List.mem_cons] at hr
          rcases hr with rfl | hr
          · simp; omega
          · exact g4 r hr
        · intro fuel hf
          obtain ⟨f, rfl⟩ : ∃ f, fuel = f + 1 := ⟨fuel - 1, by omega⟩
          rw [nextSplitRun, h3]
          simp only [Res.ok_bind, if_true]
          rw [g5 f (by omega)]
          rfl
        · intro fuel hf
          obtain ⟨f, rfl⟩ : ∃ f, fuel = f + 1 := ⟨fuel - 1, by omega⟩
          refine ⟨_, by rw [splitTick, h3]; rfl, ?_⟩
          obtain ⟨it, e1, e2⟩ := g6 f (by omega)
          rw [splitRunFrom, if_neg (by
            intro h; have h2 := congrArg (fun x : Nat × Rng => x.2.1) h; simp at h2; omega)]
          simp only [e1, Res.ok_bind, e2]
    · refine ⟨[(s.length, 0)], ⟨by simp, ?_, ?_⟩, ?_, hfin _ (by simp) (nextSplit_last s sep hl)⟩
      · rw [List.map_singleton, intercalate_single]; simp [Rng.of]
      · intro p hp'
        simp only [List.map_singleton, List.mem_singleton] at hp'
        subst hp'
        simp [Rng.of]
      · intro r hr; simp at hr; subst hr; simp

/-- C34: iterating `split(sep, start)` over a string (with `start < len`, as asserted) terminates, visits
sub-views inside the string, and they are the decomposition of the string from `start` on: joined with the
separator they give it back, none contains the separator, and there is one more piece than separators. -/
theorem C34_split (s : List Nat) (sep start : Nat) (h : start < s.length) :
    ∃ rs, (∀ fuel, s.length + 2 ≤ fuel → splitRun fuel s sep start = .ok rs) ∧
      (∀ r ∈ rs, r.1 + r.2 ≤ s.length) ∧ SplitsInto sep (s.drop start) (rs.map (Rng.of s)) ∧
      rs.length = (s.drop start).count sep + 1 := by
  obtain ⟨rs, h1, h2, _, h4⟩ := split_run s sep _ start rfl (Or.inl h)
  refine ⟨rs, ?_, h2, h1, ?_⟩
  · intro fuel hf
    obtain ⟨it, e1, e2⟩ := h4 fuel (by omega)
    rw [splitRun, e1]
    simp only [Res.ok_bind]
    rw [splitTick, nextSplit_end]
    simp only [Res.ok_bind, e2]
  · have := h1.length
    simpa using this

/-- C34 for the empty string: no piece. -/
theorem C34_split_empty (sep : Nat) (fuel : Nat) : splitRun (fuel + 1) [] sep 0 = .ok [] := by
  simp [splitRun, splitTick, nextSplit, splitRunFrom]

/-- C35: the loop `while(str.next_split(sep, &pos, &out))` terminates and visits the same sub-views, in order, as
iterating `split(sep)`; for an empty string none. -/
theorem C35_next_split (s : List Nat) (sep : Nat) :
    ∃ rs, (∀ fuel, s.length + 2 ≤ fuel → nextSplitRun s sep fuel 0 = .ok rs) ∧
      (∀ fuel, s.length + 2 ≤ fuel → splitRun fuel s sep 0 = .ok rs) ∧
      (s ≠ [] → SplitsInto sep s (rs.map (Rng.of s))) ∧ (s = [] → rs = []) := by
  by_cases hs : s = []
  · subst hs
    refine ⟨[], ?_, ?_, by simp, by simp⟩
    · intro fuel hf
      obtain ⟨f, rfl⟩ : ∃ f, fuel = f + 1 := ⟨fuel - 1, by omega⟩
      simp [nextSplitRun, nextSplit]
    · intro fuel hf
      obtain ⟨f, rfl⟩ : ∃ f, fuel = f + 1 := ⟨fuel - 1, by omega⟩
      exact C34_split_empty sep f
  · have hlen : 0 < s.length := List.length_pos_iff.mpr hs
    obtain ⟨rs, h1, h2, h3, h4⟩ := split_run s sep _ 0 rfl (Or.inl hlen)
    refine ⟨rs, fun fuel hf => h3 fuel (by omega), ?_, fun _ => by simpa using h1, fun h => absurd h hs⟩
    intro fuel hf
    obtain ⟨it, e1, e2⟩ := h4 fuel (by omega)
    rw [splitRun, e1]
    simp only [Res.ok_bind]
    rw [splitTick, nextSplit_end]
    simp only [Res.ok_bind, e2]

example : splitRun 10 (S "a,,b,") 44 0 = .ok [(0, 1), (2, 0), (3, 1), (5, 0)] := by decide +kernel
example : nextSplitRun (S "a,,b,") 44 10 0 = .ok [(0, 1), (2, 0), (3, 1), (5, 0)] := by decide +kernel
example : SplitsInto 44 (S "a,,b,") [S "a", [], S "b", []] := ⟨by simp, by decide +kernel, by decide +kernel⟩

/-! ### C36 -/

/-- The result of trimming separators on the right of `a ++ x :: sep^k`. -/
theorem trimr_split (s : List Nat) (sep : Nat) :
    (s = List.replicate s.length sep ∧ trimr s sep = .ok (0, 0)) ∨
    (∃ a x k, s = a ++ x :: List.replicate k sep ∧ x ≠ sep ∧ trimr s sep = .ok (0, a.length + 1)) := by
  unfold trimr
  by_cases h : s.length = 0
  · left
    have : s = [] := List.length_eq_zero_iff.mp h
    subst this
    simp
  · rw [if_pos h]
    rcases lastNotOf_split s sep with ⟨h1, h2⟩ | ⟨a, x, k, h1, h2, h3⟩
    · left; rw [h1]; exact ⟨h2, rfl⟩
    · right; rw [h3]; exact ⟨a, x, k, h1, h2, rfl⟩

theorem triml_split (s : List Nat) (sep : Nat) :
    (s = List.replicate s.length sep ∧ triml s sep = .ok (0, 0)) ∨
    (∃ k x b, s = List.replicate k sep ++ x :: b ∧ x ≠ sep ∧ triml s sep = .ok (k, s.length - k)) := by
  unfold triml
  by_cases h : s.length = 0
  · left
    have : s = [] := List.length_eq_zero_iff.mp h
    subst this
    simp
  · rw [if_pos h]
    rcases firstNotOf_split s sep with ⟨h1, h2⟩ | ⟨k, x, b, h1, h2, h3⟩
    · left; rw [h1]; exact ⟨h2, rfl⟩
    · right; rw [h3]; exact ⟨k, x, b, h1, h2, rfl⟩

theorem rng_full (s : List Nat) : Rng.of s (0, s.length) = s := by simp [Rng.of]
theorem rng_prefix (a b : List Nat) : Rng.of (a ++ b) (0, a.length) = a := by simp [Rng.of]
theorem rng_suffix (a b : List Nat) (n : Nat) (h : b.length ≤ n) : Rng.of (a ++ b) (a.length, n) = b := by
  simp [Rng.of, List.take_of_length_le h]

/-- `pop_right` without skipping, as a decomposition.  The offset is `len` of the part up to and including the
last separator, except for the string consisting of just the separator. -/
theorem popRight_noskip (s : List Nat) (sep : Nat) :
    (sep ∉ s ∧ ∃ n, popRight s sep false = .ok (0, n) ∧ n = s.length) ∨
    (∃ a b, s = a ++ sep :: b ∧ sep ∉ b ∧ ∃ o, popRight s sep false = .ok (o, b.length) ∧
      (o = a.length + 1 ∨ (a = [] ∧ b = [] ∧ o = 0))) := by
  unfold popRight
  split
  · rename_i hlen
    rcases lastOf_split s sep with ⟨h1, h2⟩ | ⟨a, b, h1, h2, h3⟩
    · left; rw [h1]; exact ⟨h2, _, rfl, rfl⟩
    · right
      refine ⟨a, b, h1, h2, ?_⟩
      rw [h3]
      have hl := congrArg List.length h1
      simp at hl
      simp only [Res.ok_bind]
      split
      · refine ⟨a.length + 1, ?_, Or.inl rfl⟩
        congr 2; omega
      · refine ⟨a.length + 1, ?_, Or.inl rfl⟩
        have : b.length = 0 := by omega
        simp [this]
  · split
    · rename_i h1
      obtain ⟨x, rfl⟩ := List.length_eq_one_iff.mp h1
      rw [beginsWithC_eq]
      simp only [Res.ok_bind]
      by_cases hx : x = sep
      · subst hx
        right
        exact ⟨[], [], rfl, by simp, 0, by simp, Or.inr ⟨rfl, rfl, rfl⟩⟩
      · left
        refine ⟨by simpa using fun h => hx h.symm, 1, ?_, rfl⟩
        have : (x == sep) = false := by simpa using hx
        simp [this]
    · left
      have : s = [] := List.length_eq_zero_iff.mp (by omega)
      subst this
      exact ⟨by simp, 0, rfl, rfl⟩

theorem findC_nil (sep : Nat) : findC [] sep 0 = .ok none := rfl

/-- C36: without `skip_empty`, `pop_right` is the part after the last separator and `gpop_left` the part before
it; without a separator they are the whole string and the empty string. -/
theorem C36_pop_right (s : List Nat) (sep : Nat) :
    ∃ p g, popRight s sep false = .ok p ∧ gpopLeft s sep false = .ok g ∧
      p.1 + p.2 ≤ s.length ∧ g.1 + g.2 ≤ s.length ∧
      (sep ∈ s → s = Rng.of s g ++ sep :: Rng.of s p ∧ sep ∉ Rng.of s p) ∧
      (sep ∉ s → Rng.of s p = s ∧ Rng.of s g = []) := by
  rcases popRight_noskip s sep with ⟨h1, n, h2, rfl⟩ | ⟨a, b, h1, h2, o, h3, h4⟩
  · refine ⟨_, (0, 0), h2, ?_, by simp, by simp, fun h => absurd h h1, fun _ => ⟨rng_full s, by simp [Rng.of]⟩⟩
    unfold gpopLeft
    rw [h2]
    simp only [Res.ok_bind]
    have : Rng.of s (0, 0) = [] := by simp [Rng.of]
    rw [this, findC_nil]; rfl
  · have hl := congrArg List.length h1
    simp at hl
    rcases h4 with rfl | ⟨rfl, rfl, rfl⟩
    · have hpre : Rng.of s (0, a.length + 1) = a ++ [sep] := by
        have e : s = (a ++ [sep]) ++ b := by rw [h1]; simp
        have := rng_prefix (a ++ [sep]) b
        rw [← e] at this
        simpa using this
      have hp : Rng.of s (a.length + 1, b.length) = b := by
        have e : s = (a ++ [sep]) ++ b := by rw [h1]; simp
        have := rng_suffix (a ++ [sep]) b b.length (Nat.le_refl _)
        rw [← e] at this
        simpa using this
      have hg : gpopLeft s sep false = .ok (0, a.length) := by
        unfold gpopLeft
        rw [h3]
        simp only [Res.ok_bind, hpre]
        rcases firstOf_split (a ++ [sep]) sep 0 (by omega) with ⟨g1, g2⟩ | ⟨x, y, g1, g2, g3⟩
        · simp at g2
        · rw [findC, g3]
          simp only [Res.ok_bind, endsWithC_eq]
          simp
      refine ⟨_, _, h3, hg, by simp; omega, by simp; omega, fun _ => ?_, fun h => ?_⟩
      · rw [hp]
        refine ⟨?_, h2⟩
        rw [show Rng.of s (0, a.length) = a by rw [h1]; exact rng_prefix _ _]
        exact h1
      · exact absurd (by rw [h1]; simp) h
    · have hg : gpopLeft s sep false = .ok (0, 0) := by
        unfold gpopLeft
        rw [h3]
        simp only [Res.ok_bind]
        have : Rng.of s (0, 0) = [] := by simp [Rng.of]
        rw [this, findC_nil]; rfl
      refine ⟨_, _, h3, hg, by simp, by simp, fun _ => ?_, fun h => ?_⟩
      · rw [h1]; simp [Rng.of]
      · exact absurd (by rw [h1]; simp) h

theorem popLeft_noskip (s : List Nat) (sep : Nat) :
    (sep ∉ s ∧ popLeft s sep false = .ok (0, s.length)) ∨
    (∃ a b, s = a ++ sep :: b ∧ sep ∉ a ∧ popLeft s sep false = .ok (0, a.length)) := by
  unfold popLeft
  split
  · rename_i hlen
    rcases firstOf_split s sep 0 (by omega) with ⟨h1, h2⟩ | ⟨a, b, h1, h2, h3⟩
    · left; rw [h1]; exact ⟨by simpa using h2, rfl⟩
    · right
      refine ⟨a, b, by simpa using h1, h2, ?_⟩
      rw [h3]
      simp only [Res.ok_bind, Nat.zero_add]
      split
      · rfl
      · have : a.length = 0 := by omega
        simp [this]
  · split
    · rename_i h1
      obtain ⟨x, rfl⟩ := List.length_eq_one_iff.mp h1
      rw [beginsWithC_eq]
      simp only [Res.ok_bind]
      by_cases hx : x = sep
      · subst hx
        right
        exact ⟨[], [], rfl, by simp, by simp⟩
      · left
        refine ⟨by simpa using fun h => hx h.symm, ?_⟩
        have : (x == sep) = false := by simpa using hx
        simp [this]
    · left
      have : s = [] := List.length_eq_zero_iff.mp (by omega)
      subst this
      exact ⟨by simp, rfl⟩

/-- C36: without `skip_empty`, `pop_left` is the part before the first separator and `gpop_right` the part after
it; without a separator they are the whole string and the empty string. -/
theorem C36_pop_left (s : List Nat) (sep : Nat) :
    ∃ p g, popLeft s sep false = .ok p ∧ gpopRight s sep false = .ok g ∧
      p.1 + p.2 ≤ s.length ∧ g.1 + g.2 ≤ s.length ∧
      (sep ∈ s → s = Rng.of s p ++ sep :: Rng.of s g ∧ sep ∉ Rng.of s p) ∧
      (sep ∉ s → Rng.of s p = s ∧ Rng.of s g = []) := by
  rcases popLeft_noskip s sep with ⟨h1, h2⟩ | ⟨a, b, h1, h2, h3⟩
  · refine ⟨_, (s.length, 0), h2, ?_, by simp, by simp, fun h => absurd h h1, fun _ => ⟨rng_full s, by simp [Rng.of]⟩⟩
    unfold gpopRight
    rw [h2]
    simp only [Res.ok_bind, Nat.zero_add, Nat.sub_self]
    have : Rng.of s (s.length, 0) = [] := by simp [Rng.of]
    rw [this, findC_nil]; rfl
  · have hl := congrArg List.length h1
    simp at hl
    have hsuf : Rng.of s (a.length, s.length - a.length) = sep :: b := by
      have := rng_suffix a (sep :: b) (s.length - a.length) (by simp; omega)
      rw [← h1] at this
      exact this
    have hp : Rng.of s (a.length + 1, s.length - a.length - 1) = b := by
      have e : s = (a ++ [sep]) ++ b := by rw [h1]; simp
      have := rng_suffix (a ++ [sep]) b (s.length - a.length - 1) (by omega)
      rw [← e] at this
      simpa using this
    have hg : gpopRight s sep false = .ok (a.length + 1, s.length - a.length - 1) := by
      unfold gpopRight
      rw [h3]
      simp only [Res.ok_bind, Nat.zero_add, hsuf]
      rcases firstOf_split (sep :: b) sep 0 (by omega) with ⟨g1, g2⟩ | ⟨x, y, g1, g2, g3⟩
      · simp at g2
      · rw [findC, g3]
        simp only [Res.ok_bind, beginsWithC_eq]
        simp
    refine ⟨_, _, h3, hg, by simp; omega, by simp; omega, fun _ => ?_, fun h => ?_⟩
    · rw [hp]
      rw [show Rng.of s (0, a.length) = a by rw [h1]; exact rng_prefix _ _]
      exact ⟨h1, h2⟩
    · exact absurd (by rw [h1]; simp) h

example : popRight (S "a/b/c") 47 false = .ok (4, 1) ∧ gpopLeft (S "a/b/c") 47 false = .ok (0, 3) := by
  decide +kernel
example : popRight (S "a/b/") 47 false = .ok (4, 0) ∧ gpopLeft (S "a/b/") 47 false = .ok (0, 3) := by
  decide +kernel
example : popLeft (S "a/b/c") 47 false = .ok (0, 1) ∧ gpopRight (S "a/b/c") 47 false = .ok (2, 3) := by
  decide +kernel

theorem replicate_tail_unique {c : Nat} : ∀ (k k' : Nat) (a a' : List Nat) (x x' : Nat), x ≠ c → x' ≠ c →
    List.replicate k c ++ x :: a = List.replicate k' c ++ x' :: a' → k = k' ∧ x = x' ∧ a = a' := by
  intro k
  induction k with
  | zero =>
    intro k' a a' x x' hx hx' h
    cases k' with
    | zero => simpa using h
    | succ k' => rw [List.replicate_succ] at h; simp at h; exact absurd h.1 hx
  | succ k ih =>
    intro k' a a' x x' hx hx' h
    cases k' with
    | zero => rw [List.replicate_succ] at h; simp at h; exact absurd h.1.symm hx'
    | succ k' =>
      rw [List.replicate_succ, List.replicate_succ] at h
      simp only [List.cons_append, List.cons.injEq, true_and] at h
      obtain ⟨h1, h2⟩ := ih k' a a' x x' hx hx' h
      exact ⟨by omega, h2⟩

theorem not_all {c x k : Nat} {a : List Nat} (hx : x ≠ c) (n : Nat) : a ++ x :: List.replicate k c ≠ List.replicate n c := by
  intro h
  have : x ∈ List.replicate n c := by rw [← h]; simp
  exact hx (List.eq_of_mem_replicate this)

theorem trimr_eq (a : List Nat) (x k sep : Nat) (hx : x ≠ sep) :
    trimr (a ++ x :: List.replicate k sep) sep = .ok (0, a.length + 1) := by
  rcases trimr_split (a ++ x :: List.replicate k sep) sep with ⟨h, _⟩ | ⟨a', x', k', h1, h2, h3⟩
  · exact absurd h (not_all hx _)
  · rw [h3]
    have h := congrArg List.reverse h1
    simp at h
    have := (replicate_tail_unique k k' a.reverse a'.reverse x x' hx h2 h).2.2
    have := congrArg List.length this
    simp at this
    rw [this]

theorem trimr_component (comp : List Nat) (sep k : Nat) (hne : comp ≠ []) (hs : sep ∉ comp) :
    trimr (comp ++ List.replicate k sep) sep = .ok (0, comp.length) := by
  obtain ⟨a, x, rfl⟩ : ∃ a x, comp = a ++ [x] := ⟨comp.dropLast, comp.getLast hne, (List.dropLast_concat_getLast hne).symm⟩
  have hx : x ≠ sep := by rintro rfl; simp at hs
  have := trimr_eq a x k sep hx
  simpa using this

theorem popRight_skip (s : List Nat) (sep : Nat) :
    (s = List.replicate s.length sep ∧ popRight s sep true = .ok (0, 0)) ∨
    (∃ pre comp k, s = pre ++ (comp ++ List.replicate k sep) ∧ sep ∉ comp ∧ comp ≠ [] ∧
      (pre = [] ∨ ∃ q, pre = q ++ [sep]) ∧ popRight s sep true = .ok (pre.length, s.length - pre.length)) := by
  unfold popRight
  split
  · rename_i hlen
    rcases lastOf_split s sep with ⟨h1, h2⟩ | ⟨a, b, h1, h2, h3⟩
    · right
      rw [h1]
      refine ⟨[], s, 0, by simp, h2, ?_, Or.inl rfl, rfl⟩
      rintro rfl; simp at hlen
    · rw [h3]
      simp only [Res.ok_bind]
      have hl := congrArg List.length h1
      simp at hl
      split
      · right
        refine ⟨a ++ [sep], b, 0, by simp [h1], h2, ?_, Or.inr ⟨a, rfl⟩, by simp⟩
        rintro rfl; simp at hl; omega
      · simp only [Bool.not_true, Bool.false_eq_true, if_false]
        rcases lastNotOf_split s sep with ⟨g1, g2⟩ | ⟨a', x, k, g1, g2, g3⟩
        · left; rw [g1]; exact ⟨g2, rfl⟩
        · right
          rw [g3]
          simp only [Res.ok_bind]
          have hl' := congrArg List.length g1
          simp at hl'
          have htake : s.take a'.length = a' := by rw [g1]; simp
          rcases lastOf_split_at s sep a'.length (by omega) (some a'.length) rfl with ⟨e1, e2⟩ | ⟨c, d, e1, e2, e3⟩
          · rw [htake] at e2
            rw [e1]
            refine ⟨[], a' ++ [x], k, by simp [g1], ?_, by simp, Or.inl rfl, rfl⟩
            simpa using ⟨e2, fun h => g2 h.symm⟩
          · rw [htake] at e1
            rw [e3]
            refine ⟨c ++ [sep], d ++ [x], k, by rw [g1, e1]; simp, ?_, by simp, Or.inr ⟨c, rfl⟩, by simp⟩
            simpa using ⟨e2, fun h => g2 h.symm⟩
  · split
    · rename_i h1
      obtain ⟨x, rfl⟩ := List.length_eq_one_iff.mp h1
      rw [beginsWithC_eq]
      simp only [Res.ok_bind]
      by_cases hx : x = sep
      · subst hx
        left
        exact ⟨by simp, by simp⟩
      · right
        have hb : (x == sep) = false := by simpa using hx
        exact ⟨[], [x], 0, by simp, by simpa using fun h => hx h.symm, by simp, Or.inl rfl, by simp [hb]⟩
    · left
      have : s = [] := List.length_eq_zero_iff.mp (by omega)
      subst this
      exact ⟨by simp, rfl⟩

/-- C36: with `skip_empty`, `pop_right` is the last non-empty component with the separators trailing it, and
`gpop_left` what precedes, without the separators in between; both are empty for a string of separators only. -/
theorem C36_pop_right_skip (s : List Nat) (sep : Nat) :
    ∃ p g, popRight s sep true = .ok p ∧ gpopLeft s sep true = .ok g ∧
      p.1 + p.2 ≤ s.length ∧ g.1 + g.2 ≤ s.length ∧
      ((∀ c ∈ s, c = sep) → Rng.of s p = [] ∧ Rng.of s g = []) ∧
      (¬ (∀ c ∈ s, c = sep) → ∃ comp k j, comp ≠ [] ∧ sep ∉ comp ∧ Rng.of s p = comp ++ List.replicate k sep ∧
        s = Rng.of s g ++ List.replicate j sep ++ Rng.of s p ∧ (Rng.of s g).getLast? ≠ some sep ∧
        (j = 0 → Rng.of s g = [])) := by
  rcases popRight_skip s sep with ⟨h1, h2⟩ | ⟨pre, comp, k, h1, h2, h3, h4, h5⟩
  · have e0 : Rng.of s (0, 0) = [] := by simp [Rng.of]
    refine ⟨_, (0, 0), h2, ?_, by simp, by simp, fun _ => ⟨e0, e0⟩, fun h => ?_⟩
    · unfold gpopLeft
      rw [h2]
      simp only [Res.ok_bind]
      rw [e0, findC_nil]; rfl
    · exact absurd (by rw [h1]; intro c hc; exact List.eq_of_mem_replicate hc) h
  · have hl := congrArg List.length h1
    simp at hl
    have hp : Rng.of s (pre.length, s.length - pre.length) = comp ++ List.replicate k sep := by
      have := rng_suffix pre (comp ++ List.replicate k sep) (s.length - pre.length) (by simp; omega)
      rwa [← h1] at this
    have hpre : Rng.of s (0, pre.length) = pre := by
      have := rng_prefix pre (comp ++ List.replicate k sep)
      rwa [← h1] at this
    have hna : ¬ (∀ c ∈ s, c = sep) := by
      intro h
      obtain ⟨y, hy⟩ := List.exists_mem_of_ne_nil _ h3
      have := h y (by rw [h1]; simp [hy])
      subst this
      exact h2 hy
    rcases h4 with rfl | ⟨q, rfl⟩
    · refine ⟨_, (0, 0), h5, ?_, by simp, by simp, fun h => absurd h hna, fun _ => ?_⟩
      · unfold gpopLeft
        rw [h5]
        simp only [Res.ok_bind, hpre, findC_nil]
        rfl
      · refine ⟨comp, k, 0, h3, h2, hp, ?_, by simp [Rng.of], by simp [Rng.of]⟩
        simp only [List.length_nil] at hp
        simp only [List.length_nil, hp]
        simp [Rng.of]; exact h1
    · have hg : ∃ g, gpopLeft s sep true = .ok g ∧ trimr (q ++ [sep]) sep = .ok g ∧ g.1 = 0 := by
        have ht : ∃ g, trimr (q ++ [sep]) sep = .ok g ∧ g.1 = 0 := by
          rcases trimr_split (q ++ [sep]) sep with ⟨_, g2⟩ | ⟨a, x, k', _, _, g3⟩
          · exact ⟨_, g2, rfl⟩
          · exact ⟨_, g3, rfl⟩
        obtain ⟨g, ht, h0⟩ := ht
        refine ⟨g, ?_, ht, h0⟩
        unfold gpopLeft
        rw [h5]
        simp only [Res.ok_bind, hpre]
        rcases firstOf_split (q ++ [sep]) sep 0 (by omega) with ⟨_, g2⟩ | ⟨x, y, _, _, g3⟩
        · simp at g2
        · rw [findC, g3]
          simp only [Res.ok_bind, endsWithC_eq, ht]
          simp
      obtain ⟨g, hg, ht, h0⟩ := hg
      rcases trimr_split (q ++ [sep]) sep with ⟨e1, e2⟩ | ⟨a, x, k', e1, e2, e3⟩
      · rw [ht] at e2
        injection e2 with e2
        subst e2
        refine ⟨_, _, h5, hg, by omega, by omega, fun h => absurd h hna, fun _ => ?_⟩
        refine ⟨comp, k, (q ++ [sep]).length, h3, h2, hp, ?_, by simp [Rng.of], by simp [Rng.of]⟩
        rw [hp]
        rw [← e1]
        simp only [Rng.of, List.take_zero, List.nil_append]
        exact h1
      · rw [ht] at e3
        injection e3 with e3
        subst e3
        have hga : Rng.of s (0, a.length + 1) = a ++ [x] := by
          have h := rng_prefix (a ++ [x]) (List.replicate k' sep ++ (comp ++ List.replicate k sep))
          have e : s = (a ++ [x]) ++ (List.replicate k' sep ++ (comp ++ List.replicate k sep)) := by
            rw [h1, e1]; simp
          rw [← e] at h
          simpa using h
        have hl2 := congrArg List.length e1
        simp at hl2
        have hl3 : (q ++ [sep]).length = q.length + 1 := by simp
        refine ⟨_, _, h5, hg, by simp only; omega, by simp only; omega, fun h => absurd h hna, fun _ => ?_⟩
        refine ⟨comp, k, k', h3, h2, hp, ?_, ?_, ?_⟩
        · rw [hp, hga]
          rw [h1, e1]; simp
        · rw [hga]; simpa using e2
        · rintro rfl
          exfalso
          have := congrArg List.getLast? e1
          simp at this
          exact e2 this.symm

theorem popLeft_skip (s : List Nat) (sep : Nat) :
    (s = List.replicate s.length sep ∧ popLeft s sep true = .ok (0, 0)) ∨
    (∃ k comp post, s = List.replicate k sep ++ comp ++ post ∧ sep ∉ comp ∧ comp ≠ [] ∧
      (post = [] ∨ ∃ q, post = sep :: q) ∧ popLeft s sep true = .ok (0, k + comp.length)) := by
  unfold popLeft
  split
  · rename_i hlen
    rcases firstOf_split s sep 0 (by omega) with ⟨h1, h2⟩ | ⟨a, b, h1, h2, h3⟩
    · right
      rw [h1]
      refine ⟨0, s, [], by simp, by simpa using h2, ?_, Or.inl rfl, by simp⟩
      rintro rfl; simp at hlen
    · rw [h3]
      simp only [Res.ok_bind, Nat.zero_add]
      rw [List.drop_zero] at h1
      have hl := congrArg List.length h1
      simp at hl
      split
      · right
        refine ⟨0, a, sep :: b, by simp [h1], h2, ?_, Or.inr ⟨b, rfl⟩, by simp⟩
        rintro rfl; simp at *
      · simp only [Bool.not_true, Bool.false_eq_true, if_false]
        rcases firstNotOf_split s sep with ⟨g1, g2⟩ | ⟨k, x, b', g1, g2, g3⟩
        · left; rw [g1]; exact ⟨g2, rfl⟩
        · right
          rw [g3]
          simp only [Res.ok_bind]
          have hl' := congrArg List.length g1
          simp at hl'
          have hdrop : s.drop k = x :: b' := by rw [g1]; simp
          rcases firstOf_split s sep k (by omega) with ⟨e1, e2⟩ | ⟨c, d, e1, e2, e3⟩
          · rw [hdrop] at e2
            rw [e1]
            refine ⟨k, x :: b', [], by simp [g1], e2, by simp, Or.inl rfl, ?_⟩
            simp [hl']
          · rw [hdrop] at e1
            rw [e3]
            refine ⟨k, c, sep :: d, by rw [g1, e1]; simp, e2, ?_, Or.inr ⟨d, rfl⟩, rfl⟩
            rintro rfl
            simp at e1
            exact g2 e1.1
  · split
    · rename_i h1
      obtain ⟨x, rfl⟩ := List.length_eq_one_iff.mp h1
      rw [beginsWithC_eq]
      simp only [Res.ok_bind]
      by_cases hx : x = sep
      · subst hx
        left
        exact ⟨by simp, by simp⟩
      · right
        have hb : (x == sep) = false := by simpa using hx
        exact ⟨0, [x], [], by simp, by simpa using fun h => hx h.symm, by simp, Or.inl rfl, by simp [hb]⟩
    · left
      have : s = [] := List.length_eq_zero_iff.mp (by omega)
      subst this
      exact ⟨by simp, rfl⟩

/-- C36: with `skip_empty`, `pop_left` is the separators leading the first non-empty component followed by it,
and `gpop_right` what follows, without the separators in between; both are empty for a string of separators
only. -/
theorem C36_pop_left_skip (s : List Nat) (sep : Nat) :
    ∃ p g, popLeft s sep true = .ok p ∧ gpopRight s sep true = .ok g ∧
      p.1 + p.2 ≤ s.length ∧ g.1 + g.2 ≤ s.length ∧
      ((∀ c ∈ s, c = sep) → Rng.of s p = [] ∧ Rng.of s g = []) ∧
      (¬ (∀ c ∈ s, c = sep) → ∃ comp k j, comp ≠ [] ∧ sep ∉ comp ∧ Rng.of s p = List.replicate k sep ++ comp ∧
        s = Rng.of s p ++ List.replicate j sep ++ Rng.of s g ∧ (Rng.of s g).head? ≠ some sep ∧
        (j = 0 → Rng.of s g = [])) := by
  rcases popLeft_skip s sep with ⟨h1, h2⟩ | ⟨k, comp, post, h1, h2, h3, h4, h5⟩
  · have e0 : Rng.of s (0, 0) = [] := by simp [Rng.of]
    refine ⟨_, (0, 0), h2, ?_, by simp, by simp, fun _ => ⟨e0, e0⟩, fun h => ?_⟩
    · unfold gpopRight
      rw [h2]
      simp only [Res.ok_bind, Nat.zero_add, Nat.sub_zero, rng_full]
      by_cases hs : s = []
      · subst hs; rfl
      · obtain ⟨y, t, rfl⟩ := List.exists_cons_of_ne_nil hs
        have hy : y = sep := by
          have : y ∈ List.replicate (y :: t).length sep := by rw [← h1]; simp
          exact List.eq_of_mem_replicate this
        subst hy
        rcases firstOf_split (y :: t) y 0 (by omega) with ⟨_, g2⟩ | ⟨_, _, _, _, g3⟩
        · simp at g2
        · rw [findC, g3]
          simp only [Res.ok_bind, beginsWithC_eq]
          rcases triml_split (y :: t) y with ⟨_, f2⟩ | ⟨k, x, b, f1, f2, _⟩
          · rw [f2]; simp
          · exfalso
            have : x ∈ List.replicate (y :: t).length y := by rw [← h1, f1]; simp
            exact f2 (List.eq_of_mem_replicate this)
    · exact absurd (by rw [h1]; intro c hc; exact List.eq_of_mem_replicate hc) h
  · have hl := congrArg List.length h1
    simp at hl
    have hp : Rng.of s (0, k + comp.length) = List.replicate k sep ++ comp := by
      have := rng_prefix (List.replicate k sep ++ comp) post
      rw [← h1] at this
      simpa using this
    have hpost : ∀ n, post.length ≤ n → Rng.of s (k + comp.length, n) = post := by
      intro n hn
      have := rng_suffix (List.replicate k sep ++ comp) post n hn
      rw [← h1] at this
      simpa using this
    have hna : ¬ (∀ c ∈ s, c = sep) := by
      intro h
      obtain ⟨y, hy⟩ := List.exists_mem_of_ne_nil _ h3
      have := h y (by rw [h1]; simp [hy])
      subst this
      exact h2 hy
    rcases h4 with rfl | ⟨q, rfl⟩
    · have e0 : Rng.of s (k + comp.length, s.length - (k + comp.length)) = [] := hpost _ (by simp)
      refine ⟨_, (k + comp.length, s.length - (k + comp.length)), h5, ?_, by simp; omega, by simp; omega,
        fun h => absurd h hna, fun _ => ?_⟩
      · unfold gpopRight
        rw [h5]
        simp only [Res.ok_bind, Nat.zero_add, e0, findC_nil]
      · refine ⟨comp, k, 0, h3, h2, hp, ?_, by simp [e0], fun _ => e0⟩
        rw [hp, e0]; simpa using h1
    · have hpq : Rng.of s (k + comp.length, s.length - (k + comp.length)) = sep :: q :=
        hpost _ (by omega)
      have hg : ∀ t, triml (sep :: q) sep = .ok t → gpopRight s sep true = .ok (k + comp.length + t.1, t.2) := by
        intro t ht
        unfold gpopRight
        rw [h5]
        simp only [Res.ok_bind, Nat.zero_add, hpq]
        rcases firstOf_split (sep :: q) sep 0 (by omega) with ⟨_, g2⟩ | ⟨x, y, _, _, g3⟩
        · simp at g2
        · rw [findC, g3]
          simp only [Res.ok_bind, beginsWithC_eq, ht]
          simp
      rcases triml_split (sep :: q) sep with ⟨e1, e2⟩ | ⟨k', x, b, e1, e2, e3⟩
      · refine ⟨_, _, h5, hg _ e2, by simp; omega, by simp; omega, fun h => absurd h hna, fun _ => ?_⟩
        refine ⟨comp, k, (sep :: q).length, h3, h2, hp, ?_, by simp [Rng.of], by simp [Rng.of]⟩
        rw [hp, ← e1]
        simp only [Rng.of, List.take_zero, List.append_nil]
        exact h1
      · have hl2 := congrArg List.length e1
        simp at hl2
        have hgb : Rng.of s (k + comp.length + k', (sep :: q).length - k') = x :: b := by
          have h := rng_suffix (List.replicate k sep ++ comp ++ List.replicate k' sep) (x :: b)
            ((sep :: q).length - k') (by rw [e1]; simp)
          have e : s = (List.replicate k sep ++ comp ++ List.replicate k' sep) ++ (x :: b) := by
            rw [h1, e1]; simp
          rw [← e] at h
          simpa [Nat.add_assoc] using h
        have hl3 : (sep :: q).length = q.length + 1 := by simp
        refine ⟨_, _, h5, hg _ e3, by simp only; omega, by simp only; omega, fun h => absurd h hna, fun _ => ?_⟩
        refine ⟨comp, k, k', h3, h2, hp, ?_, ?_, ?_⟩
        · rw [hp, hgb]
          rw [h1, e1]; simp
        · rw [hgb]; simpa using e2
        · rintro rfl
          exfalso
          simp at e1
          exact e2 e1.1.symm

/-- C36: `dirname`, `basename` and the separators trailing the basename make up the string.  The basename holds no
separator and is empty only for strings of separators; the dirname is empty or ends with a separator. -/
theorem C36_basename_dirname (s : List Nat) (sep : Nat) :
    ∃ b d k, basename s sep = .ok b ∧ dirname s sep = .ok d ∧ b.1 + b.2 ≤ s.length ∧ d.1 + d.2 ≤ s.length ∧
      s = Rng.of s d ++ Rng.of s b ++ List.replicate k sep ∧ sep ∉ Rng.of s b ∧
      (Rng.of s b = [] ↔ ∀ c ∈ s, c = sep) ∧ (Rng.of s d = [] ∨ (Rng.of s d).getLast? = some sep) := by
  rcases popRight_skip s sep with ⟨h1, h2⟩ | ⟨pre, comp, k, h1, h2, h3, h4, h5⟩
  · have e0 : Rng.of s (0, 0) = [] := by simp [Rng.of]
    have hb : basename s sep = .ok (0, 0) := by
      unfold basename
      rw [h2]
      simp only [Res.ok_bind, e0]
      rfl
    have hall : ∀ c ∈ s, c = sep := by rw [h1]; intro c hc; exact List.eq_of_mem_replicate hc
    refine ⟨_, (0, s.length), 0, hb, by simp [dirname, hb], by simp, by simp, ?_, by simp [e0], by simpa [e0] using hall, ?_⟩
    · rw [rng_full, e0]; simp
    · rw [rng_full]
      by_cases hs : s = []
      · exact Or.inl hs
      · right
        rw [List.getLast?_eq_some_getLast hs, hall _ (List.getLast_mem hs)]
  · have hl := congrArg List.length h1
    simp at hl
    have hp : Rng.of s (pre.length, s.length - pre.length) = comp ++ List.replicate k sep := by
      have := rng_suffix pre (comp ++ List.replicate k sep) (s.length - pre.length) (by simp; omega)
      rwa [← h1] at this
    have hpre : Rng.of s (0, pre.length) = pre := by
      have := rng_prefix pre (comp ++ List.replicate k sep)
      rwa [← h1] at this
    have hna : ¬ (∀ c ∈ s, c = sep) := by
      intro h
      obtain ⟨y, hy⟩ := List.exists_mem_of_ne_nil _ h3
      have := h y (by rw [h1]; simp [hy])
      subst this
      exact h2 hy
    have hb : basename s sep = .ok (pre.length, comp.length) := by
      unfold basename
      rw [h5]
      simp only [Res.ok_bind, hp, trimr_component comp sep k h3 h2]
      rfl
    have hcl : comp.length ≠ 0 := fun h => h3 (List.length_eq_zero_iff.mp h)
    have hbc : Rng.of s (pre.length, comp.length) = comp := by
      rw [h1]; simp [Rng.of]
    refine ⟨_, (0, pre.length), k, hb, by simp [dirname, hb, hcl], by simp; omega, by simp; omega, ?_, ?_, ?_, ?_⟩
    · rw [hpre, hbc, List.append_assoc]; exact h1
    · rw [hbc]; exact h2
    · rw [hbc]; exact ⟨fun h => absurd h h3, fun h => absurd h hna⟩
    · rw [hpre]
      rcases h4 with h | ⟨q, rfl⟩
      · exact Or.inl h
      · right; simp

/-- C36: for a path without trailing separator (and not empty), dirname and basename make up the path. -/
theorem C36_path (s : List Nat) (sep : Nat) (h : s.getLast? ≠ some sep) :
    ∃ b d, basename s sep = .ok b ∧ dirname s sep = .ok d ∧ s = Rng.of s d ++ Rng.of s b := by
  obtain ⟨b, d, k, h1, h2, _, _, h5, _⟩ := C36_basename_dirname s sep
  refine ⟨b, d, h1, h2, ?_⟩
  cases k with
  | zero => simpa using h5
  | succ k =>
    exfalso; apply h
    rw [h5]
    rw [List.getLast?_append]
    simp [List.getLast?_replicate]

/-- C36: the name without extension and the extension, with a dot between them, make up a file name having a
dot; the short form splits at the last dot and the long form at the first. -/
theorem C36_extensions (s : List Nat) (h : 46 ∈ s) :
    ∃ n e n' e', nameWoExtshort s = .ok n ∧ extshort s = .ok e ∧ nameWoExtlong s = .ok n' ∧ extlong s = .ok e' ∧
      s = Rng.of s n ++ 46 :: Rng.of s e ∧ 46 ∉ Rng.of s e ∧
      s = Rng.of s n' ++ 46 :: Rng.of s e' ∧ 46 ∉ Rng.of s n' := by
  obtain ⟨p, g, h1, h2, _, _, h5, _⟩ := C36_pop_right s 46
  obtain ⟨p', g', h1', h2', _, _, h5', _⟩ := C36_pop_left s 46
  exact ⟨g, p, p', g', h2, h1, h1', h2', (h5 h).1, (h5 h).2, (h5' h).1, (h5' h).2⟩

example : popRight (S "a//b//") 47 true = .ok (3, 3) ∧ gpopLeft (S "a//b//") 47 true = .ok (0, 1) := by
  decide +kernel
example : popLeft (S "//a//b") 47 true = .ok (0, 3) ∧ gpopRight (S "//a//b") 47 true = .ok (5, 1) := by
  decide +kernel
example : basename (S "/usr/lib//") 47 = .ok (5, 3) ∧ dirname (S "/usr/lib//") 47 = .ok (0, 5) := by
  decide +kernel
example : extshort (S "a.tar.gz") = .ok (6, 2) ∧ extlong (S "a.tar.gz") = .ok (2, 6) := by decide +kernel

end C4
