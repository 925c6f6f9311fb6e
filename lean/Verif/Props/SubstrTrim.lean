import Verif.Substr.SearchLemmas
import Verif.Substr.Trim
/-
Properties C31, C32, C41, C42: trimming, prefix/suffix tests, delimited ranges, quotes.
-/
namespace C4
open Spec

/-! ### C31 -/

theorem dropWhile_of_isFirst {p : Nat → Bool} : ∀ {s : List Nat} {r : Option Nat},
    IsFirst (CharSat s (fun x => p x = false)) 0 s.length r →
    s.dropWhile p = match r with | some i => s.drop i | none => []
  | [], r, h => by
    cases r with
    | none => rfl
    | some i => have := h.2.1; simp at this
  | c :: s, r, h => by
    cases hp : p c with
    | false =>
      rw [List.dropWhile_cons_of_neg (by simp [hp])]
      have h' : IsFirst (CharSat (c :: s) (fun x => p x = false)) 0 (c :: s).length (some 0) :=
        ⟨by omega, by simp, ⟨c, rfl, hp⟩, fun j _ _ => by omega⟩
      rw [h.unique h']; rfl
    | true =>
      rw [List.dropWhile_cons_of_pos hp]
      have hshift : ∀ j, CharSat (c :: s) (fun x => p x = false) (j + 1) ↔ CharSat s (fun x => p x = false) j := by
        intro j; simp [CharSat]
      cases r with
      | none =>
        exact dropWhile_of_isFirst (r := none) (fun j _ hj => fun hc =>
          h (j+1) (by omega) (by simp; omega) ((hshift j).mpr hc))
      | some i =>
        obtain ⟨_, h2, h3, h4⟩ := h
        cases i with
        | zero => obtain ⟨x, hx, hpx⟩ := h3; simp at hx; subst hx; simp [hp] at hpx
        | succ i =>
          exact dropWhile_of_isFirst (r := some i) ⟨by omega, by simp at h2; omega, (hshift i).mp h3,
            fun j _ hj hc => h4 (j+1) (by omega) (by omega) ((hshift j).mpr hc)⟩

theorem isLast_reverse {p : Nat → Bool} {s : List Nat} {r : Option Nat}
    (h : IsLast (CharSat s (fun x => p x = false)) s.length r) :
    IsFirst (CharSat s.reverse (fun x => p x = false)) 0 s.reverse.length
      (r.map fun i => s.length - 1 - i) := by
  have hc : ∀ j, j < s.length → (CharSat s.reverse (fun x => p x = false) j ↔
      CharSat s (fun x => p x = false) (s.length - 1 - j)) := by
    intro j hj
    unfold CharSat
    rw [List.getElem?_reverse hj]
  cases r with
  | none =>
    intro j _ hj hs
    rw [List.length_reverse] at hj
    exact h _ (by omega) ((hc j hj).mp hs)
  | some i =>
    obtain ⟨h1, h2, h3⟩ := h
    simp only [Option.map_some]
    refine ⟨by omega, by simp; omega, ?_, ?_⟩
    · rw [hc _ (by omega), show s.length - 1 - (s.length - 1 - i) = i by omega]; exact h2
    · intro j _ hj hs
      exact h3 (s.length - 1 - j) (by omega) (by omega) ((hc j (by omega)).mp hs)

/-- Removing the maximal trailing run. -/
def dropWhileRight (p : Nat → Bool) (s : List Nat) : List Nat := (s.reverse.dropWhile p).reverse

theorem dropWhileRight_of_isLast {p : Nat → Bool} {s : List Nat} {r : Option Nat}
    (h : IsLast (CharSat s (fun x => p x = false)) s.length r) :
    dropWhileRight p s = match r with | some i => s.take (i + 1) | none => [] := by
  rw [dropWhileRight, dropWhile_of_isFirst (isLast_reverse h)]
  cases r with
  | none => rfl
  | some i =>
    have := h.1
    simp only [Option.map_some]
    rw [List.drop_reverse, List.reverse_reverse]
    congr 1; omega

theorem isFirst_congr {P Q : Nat → Prop} {lo hi : Nat} {r : Option Nat} (h : ∀ i, P i ↔ Q i)
    (hp : IsFirst P lo hi r) : IsFirst Q lo hi r := by
  have : P = Q := funext fun i => propext (h i)
  rwa [this] at hp

theorem isLast_congr {P Q : Nat → Prop} {hi : Nat} {r : Option Nat} (h : ∀ i, P i ↔ Q i)
    (hp : IsLast P hi r) : IsLast Q hi r := by
  have : P = Q := funext fun i => propext (h i)
  rwa [this] at hp

theorem triml_generic {s : List Nat} {p : Nat → Bool} {search : Res (Option Nat)}
    (h : ∃ r, search = .ok r ∧ IsFirst (CharSat s (fun x => p x = false)) 0 s.length r) :
    ∃ r : Rng, (if s.length ≠ 0 then do
      match ← search with
      | some pos => Res.ok (pos, s.length - pos)
      | none => .ok (0, 0)
      else .ok (0, 0)) = .ok r ∧ r.1 + r.2 ≤ s.length ∧ Rng.of s r = s.dropWhile p := by
  obtain ⟨r, h1, h2⟩ := h
  by_cases hs : s.length = 0
  · have : s = [] := List.length_eq_zero_iff.mp hs
    subst this
    exact ⟨(0,0), by simp, by simp, by simp [Rng.of]⟩
  · rw [if_pos hs, h1, dropWhile_of_isFirst h2]
    cases r with
    | none => exact ⟨(0,0), rfl, by simp, by simp [Rng.of]⟩
    | some i =>
      refine ⟨(i, s.length - i), rfl, ?_, ?_⟩
      · have := h2.2.1; simp; omega
      · simp only [Rng.of]; exact List.take_of_length_le (by simp)

theorem trimr_generic {s : List Nat} {p : Nat → Bool} {search : Res (Option Nat)}
    (h : ∃ r, search = .ok r ∧ IsLast (CharSat s (fun x => p x = false)) s.length r) :
    ∃ r : Rng, (if s.length ≠ 0 then do
      match ← search with
      | some pos => Res.ok (0, pos + 1)
      | none => .ok (0, 0)
      else .ok (0, 0)) = .ok r ∧ r.1 = 0 ∧ r.1 + r.2 ≤ s.length ∧ Rng.of s r = dropWhileRight p s := by
  obtain ⟨r, h1, h2⟩ := h
  by_cases hs : s.length = 0
  · have : s = [] := List.length_eq_zero_iff.mp hs
    subst this
    exact ⟨(0,0), by simp, rfl, by simp, by simp [Rng.of, dropWhileRight]⟩
  · rw [if_pos hs, h1, dropWhileRight_of_isLast h2]
    cases r with
    | none => exact ⟨(0,0), rfl, rfl, by simp, by simp [Rng.of]⟩
    | some i =>
      refine ⟨(0, i + 1), rfl, rfl, ?_, ?_⟩
      · have := h2.1; simp; omega
      · simp [Rng.of]

/-- C31 for one side, one set of characters `p`: `f` returns a sub-view of its argument with the run of
characters satisfying `p` removed at the left (right). -/
def TrimsLeft (p : Nat → Bool) (f : List Nat → Res Rng) : Prop :=
  ∀ s, ∃ r, f s = .ok r ∧ r.1 + r.2 ≤ s.length ∧ Rng.of s r = s.dropWhile p
@[inherit_doc TrimsLeft] def TrimsRight (p : Nat → Bool) (f : List Nat → Res Rng) : Prop :=
  ∀ s, ∃ r, f s = .ok r ∧ r.1 = 0 ∧ r.1 + r.2 ≤ s.length ∧ Rng.of s r = dropWhileRight p s
@[inherit_doc TrimsLeft] def TrimsBoth (p : Nat → Bool) (f : List Nat → Res Rng) : Prop :=
  ∀ s, ∃ r, f s = .ok r ∧ r.1 + r.2 ≤ s.length ∧ Rng.of s r = dropWhileRight p (s.dropWhile p)

/-- C31: trimming at the left. -/
theorem C31_triml (c : Nat) (chars : List Nat) :
    TrimsLeft (· == c) (fun s => triml s c) ∧ TrimsLeft (chars.contains ·) (fun s => trimlSet s chars) := by
  constructor
  · intro s
    obtain ⟨r, h1, h2⟩ := firstNotOf_spec s c 0
    exact triml_generic ⟨r, h1, isFirst_congr (fun i => by simp [CharSat]) h2⟩
  · intro s
    obtain ⟨r, h1, h2⟩ := firstNotOfSet_spec s chars 0
    exact triml_generic ⟨r, h1, isFirst_congr (fun i => by simp [CharSat]) h2⟩

/-- C31: trimming at the right. -/
theorem C31_trimr (c : Nat) (chars : List Nat) :
    TrimsRight (· == c) (fun s => trimr s c) ∧ TrimsRight (chars.contains ·) (fun s => trimrSet s chars) := by
  constructor
  · intro s
    obtain ⟨r, h1, h2⟩ := lastNotOf_spec s c none (Nat.le_refl _)
    exact trimr_generic ⟨r, h1, isLast_congr (fun i => by simp [CharSat]) h2⟩
  · intro s
    obtain ⟨r, h1, h2⟩ := lastNotOfSet_spec s chars none (Nat.le_refl _)
    exact trimr_generic ⟨r, h1, isLast_congr (fun i => by simp [CharSat]) h2⟩

theorem trim_generic {p : Nat → Bool} {f g : List Nat → Res Rng} (hf : TrimsLeft p f)
    (hg : TrimsRight p g) : TrimsBoth p (fun s => do
      let r ← f s
      let q ← g (Rng.of s r)
      .ok (r.1 + q.1, q.2)) := by
  intro s
  obtain ⟨r, h1, h2, h3⟩ := hf s
  obtain ⟨q, g1, g0, g2, g3⟩ := hg (Rng.of s r)
  refine ⟨(r.1 + q.1, q.2), by simp [h1, g1], ?_, ?_⟩
  · simp [Rng.of] at g2; simp; omega
  · rw [← h3, ← g3]
    have : (Rng.of s r).length = r.2 := by simp [Rng.of]; omega
    rw [this] at g2
    simp only [Rng.of, g0, Nat.add_zero, List.drop_zero, List.take_take]
    congr 1; omega

/-- C31: trimming at both ends. -/
theorem C31_trim (c : Nat) (chars : List Nat) :
    TrimsBoth (· == c) (fun s => trim s c) ∧ TrimsBoth (chars.contains ·) (fun s => trimSet s chars) :=
  ⟨trim_generic (C31_triml c chars).1 (C31_trimr c chars).1,
   trim_generic (C31_triml c chars).2 (C31_trimr c chars).2⟩

example : trimSet (S " \tab c \n") (S " \t\n") = .ok (2, 4) ∧
    dropWhileRight (· == 32) ((S "  a b  ").dropWhile (· == 32)) = S "a b" := by decide +kernel

/-! ### C32 -/

theorem noMismatch_eq {s p : List Nat} {off : Nat} (h : off + p.length ≤ s.length)
    {body : Nat → Res (Option Unit)}
    (hb : ∀ i, body i = (do
      let x ← rd s (off + i)
      let y ← rd p i
      .ok (if x ≠ y then some () else none))) :
    ∃ b, (do
      let r ← forUp 0 p.length body
      Res.ok r.isNone) = .ok b ∧ (b = true ↔ OccursAt s p off) := by
  obtain ⟨b, h1, h2⟩ := matchAt_spec s p off h
  refine ⟨b, ?_, h2⟩
  rw [← h1]
  unfold matchAt
  rw [show body = _ from funext hb]

/-- C32: `begins_with(p)` holds iff `p` is a prefix, `ends_with(p)` iff `p` is a suffix. -/
theorem C32_begins_ends (s p : List Nat) :
    (∃ b, beginsWith s p = .ok b ∧ (b = true ↔ ∃ t, s = p ++ t)) ∧
    (∃ b, endsWith s p = .ok b ∧ (b = true ↔ ∃ t, s = t ++ p)) := by
  constructor
  · unfold beginsWith
    split
    · rename_i h
      refine ⟨false, rfl, ?_⟩
      simp only [Bool.false_eq_true, false_iff]
      rintro ⟨t, rfl⟩; simp at h; omega
    · obtain ⟨b, h1, h2⟩ := noMismatch_eq (s := s) (p := p) (off := 0) (by omega) (body := fun i => do
        let x ← rd s i
        let y ← rd p i
        .ok (if x ≠ y then some () else none)) (fun i => by rw [Nat.zero_add])
      refine ⟨b, h1, h2.trans ⟨?_, ?_⟩⟩
      · rintro ⟨pre, post, rfl, hp⟩
        have : pre = [] := List.length_eq_zero_iff.mp hp
        subst this; exact ⟨post, by simp⟩
      · rintro ⟨t, rfl⟩; exact ⟨[], t, by simp, rfl⟩
  · unfold endsWith
    split
    · rename_i h
      refine ⟨false, rfl, ?_⟩
      simp only [Bool.false_eq_true, false_iff]
      rintro ⟨t, rfl⟩; simp at h; omega
    · obtain ⟨b, h1, h2⟩ := noMismatch_eq (s := s) (p := p) (off := s.length - p.length) (by omega)
        (body := fun i => do
        let x ← rd s (s.length - p.length + i)
        let y ← rd p i
        .ok (if x ≠ y then some () else none)) (fun i => rfl)
      refine ⟨b, h1, h2.trans ⟨?_, ?_⟩⟩
      · rintro ⟨pre, post, rfl, hp⟩
        have : post = [] := by
          apply List.length_eq_zero_iff.mp
          rw [List.length_append, List.length_append] at hp; omega
        subst this; exact ⟨pre, by simp⟩
      · rintro ⟨t, rfl⟩; exact ⟨t, [], by simp, by simp⟩

theorem allEq_forUp {s : List Nat} {c lo hi : Nat} (h : hi ≤ s.length) :
    ∃ b, (do
      let r ← forUp lo hi fun i => do
        let x ← rd s i
        .ok (if x ≠ c then some () else none)
      Res.ok r.isNone) = .ok b ∧ (b = true ↔ ∀ i, lo ≤ i → i < hi → s[i]? = some c) := by
  have hb : ∀ j, lo ≤ j → j < hi → (do
        let x ← rd s j
        .ok (if x ≠ c then some () else none) : Res (Option Unit)) =
      .ok (if s[j]? ≠ some c then some () else none) := by
    intro j _ hj
    rw [rd_ok (by omega), List.getElem?_eq_getElem (by omega)]; simp
  rcases forUp_ok hb with ⟨h1, h2⟩ | ⟨k, r, h1, h2, h3, h4, h5⟩
  · refine ⟨true, by rw [h1]; rfl, ?_⟩
    simp only [true_iff]
    intro i a b
    have := h2 i a b
    by_cases e : s[i]? = some c
    · exact e
    · simp [e] at this
  · refine ⟨false, by rw [h1]; rfl, ?_⟩
    simp only [Bool.false_eq_true, false_iff]
    intro hall
    simp [hall k h2 h3] at h4

/-- C32: the repeated-character forms. -/
theorem C32_begins_ends_num (s : List Nat) (c num : Nat) :
    (∃ b, beginsWithN s c num = .ok b ∧ (b = true ↔ ∃ t, s = List.replicate num c ++ t)) ∧
    (∃ b, endsWithN s c num = .ok b ∧ (b = true ↔ ∃ t, s = t ++ List.replicate num c)) := by
  constructor
  · unfold beginsWithN
    split
    · rename_i h
      refine ⟨false, rfl, ?_⟩
      simp only [Bool.false_eq_true, false_iff]
      rintro ⟨t, rfl⟩; simp at h; omega
    · rename_i h
      obtain ⟨b, h1, h2⟩ := allEq_forUp (s := s) (c := c) (lo := 0) (hi := num) (by omega)
      refine ⟨b, h1, h2.trans ⟨fun ha => ⟨s.drop num, ?_⟩, ?_⟩⟩
      · apply List.ext_getElem?
        intro i
        by_cases hi : i < num
        · rw [List.getElem?_append_left (by simpa using hi), ha i (by omega) hi]; simp [hi]
        · rw [List.getElem?_append_right (by simp; omega), List.getElem?_drop]
          simp; congr 1; omega
      · rintro ⟨t, rfl⟩ i _ hi
        rw [List.getElem?_append_left (by simpa using hi)]; simp [hi]
  · unfold endsWithN
    split
    · rename_i h
      refine ⟨false, rfl, ?_⟩
      simp only [Bool.false_eq_true, false_iff]
      rintro ⟨t, rfl⟩; simp at h; omega
    · rename_i h
      obtain ⟨b, h1, h2⟩ := allEq_forUp (s := s) (c := c) (lo := s.length - num) (hi := s.length) (by omega)
      refine ⟨b, h1, h2.trans ⟨fun ha => ⟨s.take (s.length - num), ?_⟩, ?_⟩⟩
      · apply List.ext_getElem?
        intro i
        by_cases hi : i < s.length - num
        · rw [List.getElem?_append_left (by simp; omega), List.getElem?_take, if_pos hi]
        · rw [List.getElem?_append_right (by simp; omega)]
          by_cases hi2 : i < s.length
          · rw [ha i (by omega) hi2, List.getElem?_replicate, if_pos (by simp; omega)]
          · rw [List.getElem?_eq_none (by omega), List.getElem?_eq_none (by simp; omega)]
      · rintro ⟨t, rfl⟩ i hi1 hi2
        simp at hi1 hi2
        rw [List.getElem?_append_right (by omega), List.getElem?_replicate, if_pos (by omega)]

/-- C32: single character and any-of forms. -/
theorem C32_begins_ends_char (s chars : List Nat) (c : Nat) :
    (∃ b, beginsWithC s c = .ok b ∧ (b = true ↔ ∃ t, s = c :: t)) ∧
    (∃ b, endsWithC s c = .ok b ∧ (b = true ↔ ∃ t, s = t ++ [c])) ∧
    (∃ b, beginsWithAny s chars = .ok b ∧ (b = true ↔ ∃ x t, x ∈ chars ∧ s = x :: t)) ∧
    (∃ b, endsWithAny s chars = .ok b ∧ (b = true ↔ ∃ x t, x ∈ chars ∧ s = t ++ [x])) := by
  have hany : ∀ x, (do
      let r ← forUp 0 chars.length fun i => do
        let y ← rd chars i
        .ok (if x = y then some () else none)
      Res.ok r.isSome : Res Bool) = .ok (decide (x ∈ chars)) := inChars_eq chars
  cases hs : s with
  | nil =>
    refine ⟨⟨false, rfl, by simp⟩, ⟨false, rfl, by simp⟩, ⟨false, rfl, by simp⟩, ⟨false, rfl, by simp⟩⟩
  | cons x l =>
    rw [← hs]
    have hpos : s.length > 0 := by rw [hs]; simp
    have h0 : rd s 0 = .ok x := by rw [hs]; rfl
    obtain ⟨init, z, hz⟩ : ∃ init z, s = init ++ [z] :=
      ⟨s.dropLast, s.getLast (by rw [hs]; simp), (List.dropLast_concat_getLast _).symm⟩
    have h1 : rd s (s.length - 1) = .ok z := by rw [hz]; simp [rd]
    refine ⟨?_, ?_, ?_, ?_⟩
    · refine ⟨x == c, by simp [beginsWithC, hpos, h0], ?_⟩
      rw [hs]; simp
    · refine ⟨z == c, by simp [endsWithC, hpos, h1], ?_⟩
      rw [hz]
      constructor
      · intro h; exact ⟨init, by simp at h; rw [h]⟩
      · rintro ⟨t, ht⟩
        have := List.append_inj' ht rfl
        simpa using this.2
    · refine ⟨decide (x ∈ chars), ?_, ?_⟩
      · rw [beginsWithAny, if_neg (by omega), ← hany x]; simp only [h0, Res.ok_bind]
      · rw [hs]; simp
    · refine ⟨decide (z ∈ chars), ?_, ?_⟩
      · rw [endsWithAny, if_neg (by omega), ← hany z]; simp only [h1, Res.ok_bind]
      · rw [hz]
        constructor
        · intro h; exact ⟨z, init, by simpa using h, rfl⟩
        · rintro ⟨y, t, hy, ht⟩
          have := (List.append_inj' ht rfl).2
          simp at this; simpa [this] using hy

/-- C32: `stripl(p)` / `stripr(p)` remove exactly one occurrence of `p` when present, else return the whole
view. -/
theorem C32_strip (s p : List Nat) :
    (∃ r, stripl s p = .ok r ∧ (∀ t, s = p ++ t → Rng.of s r = t) ∧
      ((¬ ∃ t, s = p ++ t) → r = (0, s.length))) ∧
    (∃ r, stripr s p = .ok r ∧ (∀ t, s = t ++ p → Rng.of s r = t) ∧
      ((¬ ∃ t, s = t ++ p) → r = (0, s.length))) := by
  obtain ⟨⟨b, h1, h2⟩, ⟨e, h3, h4⟩⟩ := C32_begins_ends s p
  constructor
  · unfold stripl
    rw [h1]
    cases b with
    | false =>
      refine ⟨(0, s.length), rfl, fun t ht => ?_, fun _ => rfl⟩
      exact absurd (h2.mpr ⟨t, ht⟩) (by simp)
    | true =>
      refine ⟨_, rfl, fun t ht => ?_, fun h => absurd (h2.mp rfl) h⟩
      subst ht
      simp only [Rng.of]
      split
      · simp
      · rename_i hh
        simp at hh
        subst hh; simp
  · unfold stripr
    rw [h3]
    cases e with
    | false =>
      refine ⟨(0, s.length), rfl, fun t ht => ?_, fun _ => rfl⟩
      exact absurd (h4.mpr ⟨t, ht⟩) (by simp)
    | true =>
      refine ⟨_, rfl, fun t ht => ?_, fun h => absurd (h4.mp rfl) h⟩
      subst ht
      simp only [Rng.of]
      split
      · simp
      · rename_i hh
        simp at hh
        subst hh; simp

example : stripl (S "foofoobar") (S "foo") = .ok (3, 6) ∧ stripr (S "a.cpp") (S ".cpp") = .ok (0, 1) ∧
    endsWithN (S "ab...") 46 3 = .ok true := by decide +kernel

/-! ### C41 -/

/-- C41: `pair_range(open,close)` is the view from the first `open` to the first `close` after it, and null
exactly if there is no such pair. -/
theorem C41_pair_range (s : List Nat) (opn close : Nat) :
    ∃ r, pairRange s opn close = .ok r ∧ ∀ x : Rng, r = some x ↔
      ∃ pre mid post, s = pre ++ opn :: mid ++ close :: post ∧ opn ∉ pre ∧ close ∉ mid ∧
        x = (pre.length, mid.length + 2) := by
  have hpos : ∀ {b : Nat} {c lo : Nat}, IsFirst (CharSat s (· = c)) lo s.length (some b) →
      ∃ mid post, s.drop lo = mid ++ c :: post ∧ c ∉ mid ∧ b = lo + mid.length := by
    rintro b c lo ⟨h1, h2, ⟨x, hx, rfl⟩, h4⟩
    obtain ⟨d, rfl⟩ : ∃ d, b = lo + d := ⟨b - lo, by omega⟩
    refine ⟨(s.drop lo).take d, s.drop (lo + d + 1), ?_, ?_, ?_⟩
    · conv => lhs; rw [← List.take_append_drop d (s.drop lo)]
      rw [List.drop_drop, List.drop_eq_getElem_cons h2]
      rw [List.getElem?_eq_getElem h2] at hx
      simp at hx; rw [hx]
    · intro hm
      obtain ⟨j, hj, e⟩ := List.getElem_of_mem hm
      simp at hj e
      exact h4 (lo + j) (by omega) (by omega) ⟨x, by rw [List.getElem?_eq_getElem (by omega), e], rfl⟩
    · simp; omega
  have hneg : ∀ {c lo : Nat}, IsFirst (CharSat s (· = c)) lo s.length none → c ∉ s.drop lo := by
    intro c lo h hm
    obtain ⟨j, hj, e⟩ := List.getElem_of_mem hm
    simp at hj e
    exact h (lo + j) (by omega) (by omega) ⟨c, by rw [List.getElem?_eq_getElem (by omega), e], rfl⟩
  have hu : ∀ {c : Nat} {a b a' b' : List Nat}, c ∉ a → c ∉ a' → a ++ c :: b = a' ++ c :: b' → a = a' ∧ b = b' := by
    intro c a
    induction a with
    | nil =>
      intro b a' b' _ h2 h
      cases a' with
      | nil => simpa using h
      | cons y a' => simp at h; simp [h.1] at h2
    | cons y a ih =>
      intro b a' b' h1 h2 h
      cases a' with
      | nil => simp at h; simp [h.1] at h1
      | cons y' a' =>
        simp at h
        simp at h1 h2
        obtain ⟨e1, e2⟩ := ih h1.2 h2.2 h.2
        exact ⟨by rw [h.1, e1], e2⟩
  unfold pairRange findC
  obtain ⟨r1, h1, f1⟩ := firstOf_spec s opn 0
  rw [h1]
  cases r1 with
  | none =>
    refine ⟨none, rfl, fun x => ⟨by simp, ?_⟩⟩
    rintro ⟨pre, mid, post, rfl, _⟩
    exact absurd (by simp) (hneg f1)
  | some b =>
    obtain ⟨pre, rest, e1, n1, hb⟩ := hpos f1
    simp at e1 hb
    obtain ⟨r2, h2, f2⟩ := firstOf_spec s close (b + 1)
    have hdrop : s.drop (b + 1) = rest := by rw [e1, hb]; simp
    simp only [Res.ok_bind, h2]
    cases r2 with
    | none =>
      refine ⟨none, rfl, fun x => ⟨by simp, ?_⟩⟩
      rintro ⟨pre', mid, post, e, n2, _⟩
      rw [e1] at e
      simp at e
      obtain ⟨_, e4⟩ := hu n1 n2 e
      have := hneg f2
      rw [hdrop, e4] at this
      simp at this
    | some e =>
      obtain ⟨mid, post, e2, n2, he⟩ := hpos f2
      rw [hdrop] at e2
      refine ⟨some (b, e + 1 - b), rfl, fun x => ⟨?_, ?_⟩⟩
      · intro hx
        simp at hx
        refine ⟨pre, mid, post, by rw [e1, e2]; simp, n1, n2, ?_⟩
        rw [← hx, hb, he, hb]
        congr 1
        omega
      · rintro ⟨pre', mid', post', e', n1', n2', rfl⟩
        rw [e1] at e'
        simp at e'
        obtain ⟨e5, e6⟩ := hu n1 n1' e'
        rw [e2] at e6
        obtain ⟨e7, _⟩ := hu n2 n2' e6
        rw [hb, he, hb, e5, e7]
        simp
        omega

/-- C41: `pair_range_esc`: from the first delimiter to the next delimiter not preceded by the escape
character. -/
theorem C41_pair_range_esc (s : List Nat) (oc esc : Nat) :
    ∃ r, pairRangeEsc s oc esc = .ok r ∧
      (∀ b n, r = some (b, n) → 2 ≤ n ∧ CharAt s oc b ∧ (∀ j, j < b → ¬ CharAt s oc j) ∧
        CharAt s oc (b + n - 1) ∧ ¬ CharAt s esc (b + n - 2) ∧
        ∀ j, b < j → j < b + n - 1 → CharAt s oc j → CharAt s esc (j - 1)) ∧
      (r = none → ∀ b, CharAt s oc b → (∀ j, j < b → ¬ CharAt s oc j) →
        ∀ j, b < j → CharAt s oc j → CharAt s esc (j - 1)) := by
  unfold pairRangeEsc findC
  obtain ⟨r1, h1, f1⟩ := firstOf_spec s oc 0
  have hca : ∀ i, CharSat s (· = oc) i ↔ CharAt s oc i := fun i => by simp [CharSat, CharAt]
  rw [h1]
  cases r1 with
  | none =>
    refine ⟨none, rfl, by simp, fun _ b hb => ?_⟩
    have hlt : b < s.length := by
      unfold CharAt at hb
      exact (List.getElem?_eq_some_iff.mp hb).1
    exact absurd ((hca b).mpr hb) (f1 b (by omega) hlt)
  | some b =>
    obtain ⟨_, hb2, hb3, hb4⟩ := f1
    simp only [Res.ok_bind]
    have hdec : ∀ i, Decidable (CharAt s oc i ∧ ¬ CharAt s esc (i - 1)) := fun _ => Classical.propDecidable _
    have hbody : ∀ i, b + 1 ≤ i → i < s.length → (do
        let c ← rd s i
        if c = oc then do
          let p ← rd s (i - 1)
          .ok (if p ≠ esc then some (b, i + 1 - b) else none)
        else .ok none : Res (Option Rng)) =
        .ok (if CharAt s oc i ∧ ¬ CharAt s esc (i - 1) then some (b, i + 1 - b) else none) := by
      intro i hi1 hi2
      rw [rd_ok hi2, rd_ok (show i - 1 < s.length by omega)]
      have c1 : CharAt s oc i ↔ s[i] = oc := by
        unfold CharAt; rw [List.getElem?_eq_getElem hi2]; simp
      have c2 : CharAt s esc (i - 1) ↔ s[i-1] = esc := by
        unfold CharAt; rw [List.getElem?_eq_getElem (show i - 1 < s.length by omega)]; simp
      simp only [Res.ok_bind]
      by_cases e1 : s[i] = oc
      · by_cases e2 : s[i-1] = esc
        · rw [if_pos e1, if_neg (by simp [e2]), if_neg (by rw [c2]; simp [e2])]
        · rw [if_pos e1, if_pos e2, if_pos ⟨c1.mpr e1, fun h => e2 (c2.mp h)⟩]
      · rw [if_neg e1, if_neg (fun h => e1 (c1.mp h.1))]
    rcases forUp_ok hbody with ⟨g1, g2⟩ | ⟨k, x, g1, g2, g3, g4, g5⟩
    · refine ⟨none, g1, by simp, ?_⟩
      intro _ b' hb' hmin j hj hcj
      have hbb : b' = b := by
        rcases Nat.lt_trichotomy b' b with h | h | h
        · exact absurd ((hca b').mpr hb') (hb4 b' (by omega) h)
        · exact h
        · exact absurd ((hca b).mp hb3) (hmin b h)
      subst hbb
      have hjl : j < s.length := (List.getElem?_eq_some_iff.mp hcj).1
      have := g2 j (by omega) hjl
      by_cases e : CharAt s esc (j - 1)
      · exact e
      · rw [if_pos ⟨hcj, e⟩] at this; cases this
    · by_cases hx : CharAt s oc k ∧ ¬ CharAt s esc (k - 1)
      · rw [if_pos hx] at g4
        cases g4
        refine ⟨_, g1, ?_, by simp⟩
        intro b' n he
        cases he
        refine ⟨by omega, (hca b).mp hb3, fun j hj h => hb4 j (by omega) hj ((hca j).mpr h), ?_, ?_, ?_⟩
        · rw [show b + (k + 1 - b) - 1 = k by omega]; exact hx.1
        · rw [show b + (k + 1 - b) - 2 = k - 1 by omega]; exact hx.2
        · intro j hj1 hj2 hcj
          have := g5 j (by omega) (by omega)
          by_cases e : CharAt s esc (j - 1)
          · exact e
          · rw [if_pos ⟨hcj, e⟩] at this; cases this
      · rw [if_neg hx] at g4; cases g4

example : pairRangeEsc (S "x='a\\'b' 'c'") 39 92 = .ok (some (2, 6)) := by decide +kernel

/-- Balanced text: as many closers as openers, and no prefix has more closers than openers. -/
def Balanced (opn close : Nat) (t : List Nat) : Prop :=
  t.count close = t.count opn ∧ ∀ k, (t.take k).count close ≤ (t.take k).count opn

/-- Position of the closer that brings the nesting level below zero, starting at level `n` (used in the
proof only). -/
def nestScan (opn close : Nat) : List Nat → Nat → Option Nat
  | [], _ => none
  | x :: l, n =>
    if x = opn then (nestScan opn close l (n + 1)).map (· + 1)
    else if x = close then
      if n = 0 then some 0 else (nestScan opn close l (n - 1)).map (· + 1)
    else (nestScan opn close l n).map (· + 1)

theorem nestScan_skip {opn close : Nat} (n : Nat) : ∀ (l : List Nat) (d : Nat), d ≤ l.length →
    (∀ x ∈ l.take d, x ≠ opn ∧ x ≠ close) →
    nestScan opn close l n = (nestScan opn close (l.drop d) n).map (· + d)
  | l, 0, _, _ => by simp
  | [], d+1, h, _ => by simp at h
  | x :: l, d+1, h, hx => by
    have h1 := hx x (by simp)
    have := nestScan_skip n l d (by simpa using h) (fun y hy => hx y (by simp [hy]))
    simp only [nestScan, h1.1, h1.2, if_false, List.drop_succ_cons, this, Option.map_map]
    congr 1

theorem nestScan_spec {opn close : Nat} (hne : opn ≠ close) : ∀ (l : List Nat) (n k : Nat),
    nestScan opn close l n = some k ↔
      (∃ post, l = l.take k ++ close :: post ∧ k ≤ l.length) ∧
      (l.take k).count close = (l.take k).count opn + n ∧
      ∀ j, j ≤ k → (l.take j).count close ≤ (l.take j).count opn + n
  | [], n, k => by simp [nestScan]
  | x :: l, n, k => by
    unfold nestScan
    by_cases h1 : x = opn
    · subst h1
      rw [if_pos rfl]
      cases k with
      | zero => simp [hne]
      | succ k =>
        have ih := nestScan_spec hne l (n+1) k
        have hm : (nestScan x close l (n + 1)).map (· + 1) = some (k + 1) ↔
            nestScan x close l (n + 1) = some k := by
          cases nestScan x close l (n + 1) <;> simp
        rw [hm, ih]
        have hc : ∀ t : List Nat, (x :: t).count close = t.count close := fun t => by
          rw [List.count_cons_of_ne hne]
        have ho : ∀ t : List Nat, (x :: t).count x = t.count x + 1 := fun t => List.count_cons_self
        simp only [List.take_succ_cons, hc, ho, List.cons_append, List.cons.injEq, true_and,
          List.length_cons, Nat.add_le_add_iff_right]
        constructor
        · rintro ⟨a, b, c⟩
          refine ⟨a, by omega, fun j hj => ?_⟩
          cases j with
          | zero => simp
          | succ j => rw [List.take_succ_cons, hc, ho]; have := c j (by omega); omega
        · rintro ⟨a, b, c⟩
          refine ⟨a, by omega, fun j hj => ?_⟩
          have := c (j+1) (by omega)
          rw [List.take_succ_cons, hc, ho] at this; omega
    · rw [if_neg h1]
      by_cases h2 : x = close
      · subst h2
        rw [if_pos rfl]
        have hc : ∀ t : List Nat, (x :: t).count x = t.count x + 1 := fun t => List.count_cons_self
        have ho : ∀ t : List Nat, (x :: t).count opn = t.count opn := fun t => by
          rw [List.count_cons_of_ne h1]
        by_cases hn : n = 0
        · subst hn
          rw [if_pos rfl]
          cases k with
          | zero => simp
          | succ k =>
            simp only [Option.some.injEq, false_iff, show (0 = k + 1) = False by simp]
            rintro ⟨_, _, c⟩
            have := c 1 (by omega)
            simp [h1] at this
        · rw [if_neg hn]
          cases k with
          | zero => simp; omega
          | succ k =>
            have ih := nestScan_spec hne l (n-1) k
            have hm : (nestScan opn x l (n - 1)).map (· + 1) = some (k + 1) ↔
                nestScan opn x l (n - 1) = some k := by
              cases nestScan opn x l (n - 1) <;> simp
            rw [hm, ih]
            simp only [List.take_succ_cons, hc, ho, List.cons_append, List.cons.injEq, true_and,
              List.length_cons, Nat.add_le_add_iff_right]
            constructor
            · rintro ⟨a, b, c⟩
              refine ⟨a, by omega, fun j hj => ?_⟩
              cases j with
              | zero => simp
              | succ j => rw [List.take_succ_cons, hc, ho]; have := c j (by omega); omega
            · rintro ⟨a, b, c⟩
              refine ⟨a, by omega, fun j hj => ?_⟩
              have := c (j+1) (by omega)
              rw [List.take_succ_cons, hc, ho] at this; omega
      · rw [if_neg h2]
        have hc : ∀ t : List Nat, (x :: t).count close = t.count close := fun t => by
          rw [List.count_cons_of_ne h2]
        have ho : ∀ t : List Nat, (x :: t).count opn = t.count opn := fun t => by
          rw [List.count_cons_of_ne h1]
        cases k with
        | zero => simp [h2]
        | succ k =>
          have ih := nestScan_spec hne l n k
          have hm : (nestScan opn close l n).map (· + 1) = some (k + 1) ↔
              nestScan opn close l n = some k := by
            cases nestScan opn close l n <;> simp
          rw [hm, ih]
          simp only [List.take_succ_cons, hc, ho, List.cons_append, List.cons.injEq, true_and,
            List.length_cons, Nat.add_le_add_iff_right]
          constructor
          · rintro ⟨a, b, c⟩
            refine ⟨a, b, fun j hj => ?_⟩
            cases j with
            | zero => simp
            | succ j => rw [List.take_succ_cons, hc, ho]; exact c j (by omega)
          · rintro ⟨a, b, c⟩
            refine ⟨a, b, fun j hj => ?_⟩
            have := c (j+1) (by omega)
            rwa [List.take_succ_cons, hc, ho] at this

theorem pairNestedLoop_eq {opn close : Nat} (hne : opn ≠ close) (s : List Nat) (b : Nat) :
    ∀ fuel curr count, s.length < fuel + curr → b < curr → curr ≤ s.length →
    pairNestedLoop s opn close b fuel curr count =
      .ok ((nestScan opn close (s.drop curr) count).map fun k => (b, curr + k + 1 - b))
  | 0, curr, count, h, _, hc => by omega
  | fuel+1, curr, count, h, hb, hcl => by
    unfold pairNestedLoop
    obtain ⟨r, h1, h2⟩ := firstOfSet_spec s [opn, close] curr
    rw [h1]
    cases r with
    | none =>
      simp only [Res.ok_bind]
      have hall : ∀ x ∈ s.drop curr, x ≠ opn ∧ x ≠ close := by
        intro x hx
        obtain ⟨j, hj, e⟩ := List.getElem_of_mem hx
        simp at hj e
        have := h2 (curr + j) (by omega) (by omega)
        have hh : ¬ (x = opn ∨ x = close) := by
          intro hor
          apply this
          refine ⟨x, by rw [List.getElem?_eq_getElem (by omega), e], by simpa using hor⟩
        exact ⟨fun e => hh (Or.inl e), fun e => hh (Or.inr e)⟩
      rw [nestScan_skip count (s.drop curr) (s.drop curr).length (Nat.le_refl _)
        (by rw [List.take_length]; exact hall), List.drop_length]
      simp [nestScan]
    | some e =>
      obtain ⟨g1, g2, ⟨x, hx, hxm⟩, g4⟩ := h2
      obtain ⟨d, rfl⟩ : ∃ d, e = curr + d := ⟨e - curr, by omega⟩
      have hall : ∀ y ∈ (s.drop curr).take d, y ≠ opn ∧ y ≠ close := by
        intro y hy
        obtain ⟨j, hj, e⟩ := List.getElem_of_mem hy
        simp at hj e
        have := g4 (curr + j) (by omega) (by omega)
        have hh : ¬ (y = opn ∨ y = close) := by
          intro hor
          apply this
          refine ⟨y, by rw [List.getElem?_eq_getElem (by omega), e], by simpa using hor⟩
        exact ⟨fun e => hh (Or.inl e), fun e => hh (Or.inr e)⟩
      rw [nestScan_skip count (s.drop curr) d (by simp; omega) hall, List.drop_drop,
        List.drop_eq_getElem_cons g2]
      have hx' : s[curr + d] = x := by
        rw [List.getElem?_eq_getElem g2] at hx; simpa using hx
      rw [hx']
      simp only [Res.ok_bind, rd_some hx]
      by_cases e1 : x = opn
      · subst e1
        rw [if_pos rfl, pairNestedLoop_eq hne s b fuel (curr + d + 1) (count + 1) (by omega) (by omega) (by omega)]
        simp only [nestScan, if_true, Option.map_map]
        congr 2
        funext k; simp; omega
      · have e2 : x = close := by simpa [e1] using hxm
        subst e2
        rw [if_neg e1, if_pos rfl]
        simp only [nestScan, e1, if_false, if_true]
        by_cases hc : count = 0
        · simp [hc]
        · rw [if_neg hc, if_neg hc, pairNestedLoop_eq hne s b fuel (curr + d + 1) (count - 1) (by omega) (by omega) (by omega)]
          simp only [Option.map_map]
          congr 2
          funext k; simp; omega

theorem pairNestedLoop_same (s : List Nat) (c b fuel curr count : Nat) (h : s.length < fuel + curr) (hf : 0 < fuel) :
    pairNestedLoop s c c b fuel curr count = .ok none := by
  induction fuel generalizing curr count with
  | zero => omega
  | succ fuel ih =>
    unfold pairNestedLoop
    obtain ⟨r, h1, h2⟩ := firstOfSet_spec s [c, c] curr
    rw [h1]
    cases r with
    | none => rfl
    | some e =>
      obtain ⟨g1, g2, ⟨x, hx, hxm⟩, _⟩ := h2
      have e1 : x = c := by simpa using hxm
      simp only [Res.ok_bind, rd_some hx, if_pos e1]
      exact ih (e + 1) (count + 1) (by omega) (by omega)

/-- C41: with the same character as both delimiters every occurrence counts as an opening one, none is balanced, and the
result is the null view for every string. -/
theorem C41_nested_same (s : List Nat) (c : Nat) : pairRangeNested s c c = .ok none := by
  unfold pairRangeNested findC
  obtain ⟨r1, h1, _⟩ := firstOf_spec s c 0
  rw [h1]
  cases r1 with
  | none => rfl
  | some b =>
    simp only [Res.ok_bind]
    exact pairNestedLoop_same s c b (s.length + 1) (b + 1) 0 (by omega) (by omega)

example : pairRangeNested (S "a'b'c") 39 39 = .ok none := by decide +kernel
example : pairRange (S "a'b'c") 39 39 = .ok (some (1, 3)) := by decide +kernel

/-- C41: `pair_range_nested(open,close)` (different delimiters) is the view from the first `open` to the
`close` that balances it, and null exactly if there is none. -/
theorem C41_pair_range_nested (s : List Nat) (opn close : Nat) (hne : opn ≠ close) :
    ∃ r, pairRangeNested s opn close = .ok r ∧ ∀ x : Rng, r = some x ↔
      ∃ pre mid post, s = pre ++ opn :: mid ++ close :: post ∧ opn ∉ pre ∧ Balanced opn close mid ∧
        x = (pre.length, mid.length + 2) := by
  unfold pairRangeNested findC
  obtain ⟨r1, h1, f1⟩ := firstOf_spec s opn 0
  rw [h1]
  cases r1 with
  | none =>
    refine ⟨none, rfl, fun x => ⟨by simp, ?_⟩⟩
    rintro ⟨pre, mid, post, rfl, _⟩
    exact absurd ⟨opn, by simp, rfl⟩ (f1 pre.length (by omega) (by simp))
  | some b =>
    obtain ⟨_, hb2, ⟨y, hy, rfl⟩, hb4⟩ := f1
    simp only [Res.ok_bind]
    rw [pairNestedLoop_eq hne s b (s.length + 1) (b + 1) 0 (by omega) (by omega) (by omega)]
    have hy' : s[b] = y := by rw [List.getElem?_eq_getElem hb2] at hy; simpa using hy
    have hsplit : s = s.take b ++ y :: s.drop (b + 1) := by
      conv => lhs; rw [← List.take_append_drop b s, List.drop_eq_getElem_cons hb2, hy']
    have hnotin : y ∉ s.take b := by
      intro hm
      obtain ⟨j, hj, e⟩ := List.getElem_of_mem hm
      simp at hj e
      exact hb4 j (by omega) (by omega) ⟨y, by rw [List.getElem?_eq_getElem (by omega), e], rfl⟩
    refine ⟨_, rfl, fun x => ?_⟩
    constructor
    · intro hx
      rw [Option.map_eq_some_iff] at hx
      obtain ⟨k, hk, rfl⟩ := hx
      obtain ⟨⟨post, hp, hkl⟩, hc, hj⟩ := (nestScan_spec hne _ 0 k).mp hk
      refine ⟨s.take b, (s.drop (b+1)).take k, post, ?_, hnotin, ⟨by simpa using hc, fun j => ?_⟩, ?_⟩
      · rw [List.append_assoc, List.cons_append, ← hp]; exact hsplit
      · rw [List.take_take]
        have := hj (min j k) (by omega)
        simpa using this
      · simp at hkl ⊢; omega
    · rintro ⟨pre, mid, post, e, hpre, hbal, rfl⟩
      have hbl : b = pre.length := by
        rcases Nat.lt_trichotomy b pre.length with h | h | h
        · exfalso
          apply hpre
          have : s[b]? = pre[b]? := by rw [e, List.append_assoc, List.getElem?_append_left h]
          rw [hy] at this
          exact List.mem_of_getElem? this.symm
        · exact h
        · exact absurd ⟨y, by rw [e]; simp, rfl⟩ (hb4 pre.length (by omega) h)
      have hd : s.drop (b + 1) = mid ++ close :: post := by
        rw [e, hbl]; simp
      have : nestScan y close (s.drop (b+1)) 0 = some mid.length := by
        rw [nestScan_spec hne, hd]
        refine ⟨⟨post, by simp, by simp⟩, by simpa using hbal.1, fun j hj => ?_⟩
        have := hbal.2 j
        rw [List.take_append_of_le_length hj]; simpa using this
      rw [this, hbl]; simp; omega

example : pairRangeNested (S "a(b(c)d)e)") 40 41 = .ok (some (1, 7)) ∧
    pairRange (S "a{b}c}") 123 125 = .ok (some (1, 3)) := by decide +kernel

/-! ### C42 -/

/-- C42: `unquoted()` removes the surrounding quotes when the text is `q t q` with `q` a single or double
quote and the closing quote is not preceded by a backslash, and otherwise returns the whole view. -/
theorem C42_unquoted (s : List Nat) :
    ∃ r, unquoted s = .ok r ∧
      (∀ q t, (q = 39 ∨ q = 34) → s = q :: t ++ [q] → t.getLast? ≠ some 92 → Rng.of s r = t) ∧
      ((¬ ∃ q t, (q = 39 ∨ q = 34) ∧ s = q :: t ++ [q] ∧ t.getLast? ≠ some 92) → r = (0, s.length)) := by
  unfold unquoted
  by_cases hl : s.length ≥ 2
  · rw [if_pos hl]
    obtain ⟨x, l, rfl⟩ : ∃ x l, s = x :: l := by
      cases s with
      | nil => simp at hl
      | cons x l => exact ⟨x, l, rfl⟩
    obtain ⟨t, z, rfl⟩ : ∃ t z, l = t ++ [z] := by
      have : l ≠ [] := by intro h; simp [h] at hl
      exact ⟨l.dropLast, l.getLast this, (List.dropLast_concat_getLast _).symm⟩
    have hb : ∀ c, beginsWithC (x :: (t ++ [z])) c = .ok (x == c) := by
      intro c; simp [beginsWithC, rd]
    have he : ∀ c, endsWithC (x :: (t ++ [z])) c = .ok (z == c) := by
      intro c; simp [endsWithC, rd]
    have hp : rd (x :: (t ++ [z])) ((x :: (t ++ [z])).length - 2) = .ok ((x :: t).getLast (by simp)) := by
      apply rd_some
      simp only [List.length_cons, List.length_append, List.length_nil]
      rw [← List.cons_append, List.getElem?_append_left (by simp), List.getLast_eq_getElem,
        List.getElem?_eq_getElem (by simp)]
      congr 1
    rw [hp]
    simp only [Res.ok_bind, hb, he]
    have hx : ∀ q, (q = 39 ∨ q = 34) → x = q → ((x :: t).getLast (by simp) = 92 ↔ t.getLast? = some 92) := by
      rintro q hq rfl
      cases t with
      | nil => simp; omega
      | cons y t => simp [List.getLast?_cons, List.getLast_eq_getLastD, List.getLastD_eq_getLast?]
    by_cases hq : ((x == 39 && z == 39) || (x == 34 && z == 34)) = true
    · have hxz : x = z ∧ (x = 39 ∨ x = 34) := by
        simp at hq; omega
      obtain ⟨rfl, hx'⟩ := hxz
      by_cases h92 : t.getLast? = some 92
      · rw [if_neg (by simpa [hx x hx' rfl] using h92)]
        refine ⟨_, rfl, ?_, fun _ => rfl⟩
        intro q t' _ e hne
        simp at e
        rw [e.2.1] at h92
        exact absurd h92 hne
      · rw [if_pos (by simpa [hx x hx' rfl] using h92), if_pos hq]
        refine ⟨_, rfl, ?_, ?_⟩
        · intro q t' _ e _
          simp at e
          simp [Rng.of, e.2]
        · intro hno
          exact absurd ⟨x, t, hx', by simp, h92⟩ hno
    · have hno : ¬ ∃ q t', (q = 39 ∨ q = 34) ∧ x :: (t ++ [z]) = q :: t' ++ [q] ∧ t'.getLast? ≠ some 92 := by
        rintro ⟨q, t', hq', e, _⟩
        simp only [List.cons_append, List.cons.injEq] at e
        obtain ⟨e1, e2⟩ := e
        have e3 := (List.append_inj' e2 rfl).2
        simp at e3
        apply hq
        subst e1 e3
        rcases hq' with rfl | rfl <;> simp
      refine ⟨(0, (x :: (t ++ [z])).length), ?_, ?_, fun _ => rfl⟩
      · split
        · rfl
        · rfl
      · intro q t' hq' e hne
        exact absurd ⟨q, t', hq', e, hne⟩ hno
  · rw [if_neg hl]
    refine ⟨_, rfl, ?_, fun _ => rfl⟩
    rintro q t _ rfl _
    simp at hl

example : unquoted (S "\"it's\"") = .ok (1, 4) ∧ unquoted (S "'a\"") = .ok (0, 3) ∧
    unquoted (S "'") = .ok (0, 1) := by decide +kernel

end C4
