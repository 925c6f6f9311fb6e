import Verif.Debug.Read
import Verif.Props.DebugSpans
import Verif.Props.Atof
import Verif.Props.SubstrTrim
import Verif.Props.CharconvRead
/-
Property C160: the texts for which an assertion fails in the readers of numbers.
-/
namespace C4
open Spec FF

/-! ### Specification -/

/-- The text begins with a plus sign. -/
def Spec.BeginsPlus (s : List Nat) : Prop := ∃ t, s = 43 :: t

/-- What follows the `0x` of a real number is refused by assertion: nothing, a sign, a second `0x`, a power with two plus signs. -/
inductive Spec.RhexRefused : List Nat → Prop
  | nothing : RhexRefused []
  | sign {c t} : c = 43 ∨ c = 45 → RhexRefused (c :: t)
  | again {x t} : x = 120 ∨ x = 88 → RhexRefused (48 :: x :: t)
  | plus {ds p t} : (∀ c ∈ ds, HexChar c) → IsP p → RhexRefused (ds ++ p :: 43 :: 43 :: t)
  | plusPoint {ds fs p t} : (∀ c ∈ ds, HexChar c) → (∀ c ∈ fs, HexChar c) → IsP p → RhexRefused (ds ++ 46 :: (fs ++ p :: 43 :: 43 :: t))

/-- The text of a real number is refused by assertion: it is empty, it begins with a blank, or it is a hexadecimal number that is refused. -/
def Spec.RealRefused (s : List Nat) : Prop :=
  s = [] ∨ (∃ c t, s = c :: t ∧ Blank c) ∨ ∃ sg x t, s = sg ++ 48 :: x :: t ∧ SignText true sg ∧ (x = 120 ∨ x = 88) ∧ RhexRefused t

/-! ### Integers -/

theorem assertThat_neg {c : Prop} [Decidable c] (h : ¬ c) : assertThat c = .abort := by
  unfold assertThat; rw [if_neg h]

theorem readDecD_eq (t : ITy) {s : List Nat} (h : s.length ≠ 0) : readDecD t s = .ok (readDec t s) := by
  unfold readDecD; rw [assertThat_pos h]; rfl
theorem readHexD_eq (t : ITy) {s : List Nat} (h : s.length ≠ 0) : readHexD t s = .ok (readHex t s) := by
  unfold readHexD; rw [assertThat_pos h]; rfl
theorem readBinD_eq (t : ITy) {s : List Nat} (h : s.length ≠ 0) : readBinD t s = .ok (readBin t s) := by
  unfold readBinD; rw [assertThat_pos h]; rfl
theorem readOctD_eq (t : ITy) {s : List Nat} (h : s.length ≠ 0) : readOctD t s = .ok (readOct t s) := by
  unfold readOctD; rw [assertThat_pos h]; rfl

theorem sub_read {f : List Nat → Res α} {g : List Nat → α} {s : List Nat} {n : Nat} (h : n < s.length)
    (hf : ∀ s, s.length ≠ 0 → f s = .ok (g s)) : (do let x ← subL s n; f x) = .ok (g (s.drop n)) := by
  rw [subL_eq (Nat.le_of_lt h), Res.ok_bind, hf]
  simp; omega

theorem atoiMagD_eq (t : ITy) (s : List Nat) (n : Nat) : atoiMagD t s n = atoiMag t s n := by
  unfold atoiMagD atoiMag
  refine rd_bind_congr fun c hc => ?_
  have h0 := rd_lt hc
  have e := sub_read h0 (fun s h => readDecD_eq t h)
  rw [e]
  split
  · rfl
  · split
    · rename_i h1
      refine rd_bind_congr fun c _ => ?_
      rw [sub_read h1 (fun s h => readDecD_eq t h)]
      by_cases h2 : s.length > n + 2
      · rw [sub_read h2 (fun s h => readHexD_eq t h), sub_read h2 (fun s h => readBinD_eq t h), sub_read h2 (fun s h => readOctD_eq t h)]
      · simp only [if_neg h2]
    · rfl

theorem atoiD_eq (t : ITy) (s : List Nat) (h : ¬ BeginsPlus s) : atoiD t s = atoi t s := by
  unfold atoiD atoi
  cases s with
  | nil => rfl
  | cons c s =>
    rw [if_neg (by simp), if_neg (by simp)]
    have : rd (c :: s) 0 = .ok c := rfl
    rw [this, Res.ok_bind, Res.ok_bind, assertThat_pos (by intro hc; exact h ⟨s, by rw [hc]⟩), Res.ok_bind]
    simp only [atoiMagD_eq]

theorem atoiD_abort (t : ITy) (s : List Nat) (h : BeginsPlus s) : atoiD t s = .abort := by
  obtain ⟨s, rfl⟩ := h
  unfold atoiD
  rw [if_neg (by simp)]
  have : rd (43 :: s) 0 = .ok 43 := rfl
  rw [this, Res.ok_bind, assertThat_neg (by simp)]; rfl

theorem atouD_eq (t : ITy) (s : List Nat) : atouD t s = atou t s := by
  unfold atouD atou
  by_cases h0 : s.length = 0
  · rw [if_pos h0, if_pos h0]
  · rw [if_neg h0, if_neg h0, assertThat_pos (by omega), Res.ok_bind, readDecD_eq t h0]
    refine rd_bind_congr fun c hc => ?_
    by_cases h2 : s.length > 2
    · rw [sub_read h2 (fun s h => readHexD_eq t h), sub_read h2 (fun s h => readBinD_eq t h), sub_read h2 (fun s h => readOctD_eq t h)]
    · simp only [if_neg h2]

/-! ### Real numbers -/

/-- What follows the power character makes the exponent begin with a plus sign. -/
def PlusPlus (s : List Nat) : Prop := ∃ t, s = 43 :: 43 :: t

theorem rhexPowerD_abort (s : List Nat) (val : Rat) (h : PlusPlus s) : rhexPowerD s val = .abort := by
  obtain ⟨t, rfl⟩ := h
  unfold rhexPowerD
  simp [atoiD_abort _ _ ⟨t, rfl⟩]

theorem rhexPowerD_eq (s : List Nat) (val : Rat) (h : ¬ PlusPlus s) : rhexPowerD s val = rhexPower s val := by
  unfold rhexPowerD rhexPower
  by_cases hs : (if s.head? = some 43 then s.drop 1 else s).length > 0
  · simp only [if_pos hs]
    rw [atoiD_eq]
    intro ⟨t, ht⟩
    split at ht
    · rename_i hh
      cases s with
      | nil => simp at hh
      | cons c s => simp at hh ht; subst hh; exact h ⟨t, by rw [ht]⟩
    · rename_i hh; rw [ht] at hh; simp at hh
  · simp only [if_neg hs]

theorem rhexDigit_hex (c : Nat) : (HexChar c ∧ ∃ d, rhexDigit c = some d) ∨ (¬ HexChar c ∧ rhexDigit c = none) := by
  unfold rhexDigit HexChar
  by_cases h1 : 48 ≤ c ∧ c ≤ 57
  · exact Or.inl ⟨Or.inl h1, _, by rw [if_pos h1]⟩
  · by_cases h2 : 97 ≤ c ∧ c ≤ 102
    · exact Or.inl ⟨Or.inr (Or.inl h2), _, by rw [if_neg h1, if_pos h2]⟩
    · by_cases h3 : 65 ≤ c ∧ c ≤ 70
      · exact Or.inl ⟨Or.inr (Or.inr h3), _, by rw [if_neg h1, if_neg h2, if_pos h3]⟩
      · exact Or.inr ⟨by omega, by rw [if_neg h1, if_neg h2, if_neg h3]⟩

/-- Digits, then a power with two plus signs. -/
def FracPP (s : List Nat) : Prop := ∃ fs p t, (∀ c ∈ fs, HexChar c) ∧ IsP p ∧ s = fs ++ p :: 43 :: 43 :: t
/-- The same, or with a point between the digits. -/
def IntPP (s : List Nat) : Prop := FracPP s ∨ ∃ ds u, (∀ c ∈ ds, HexChar c) ∧ FracPP u ∧ s = ds ++ 46 :: u

theorem p_not_hex {p : Nat} (h : IsP p) : ¬ HexChar p := by unfold IsP at h; unfold HexChar; omega

theorem fracPP_hex {c : Nat} {s : List Nat} (h : HexChar c) : FracPP (c :: s) ↔ FracPP s := by
  constructor
  · rintro ⟨fs, p, t, h1, h2, h3⟩
    cases fs with
    | nil => simp at h3; exact absurd h (h3.1 ▸ p_not_hex h2)
    | cons f fs => simp at h3; exact ⟨fs, p, t, fun c hc => h1 c (by simp [hc]), h2, h3.2⟩
  · rintro ⟨fs, p, t, h1, h2, rfl⟩
    refine ⟨c :: fs, p, t, ?_, h2, rfl⟩
    intro x hx; rcases List.mem_cons.1 hx with rfl | hx
    · exact h
    · exact h1 x hx

theorem fracPP_other {c : Nat} {s : List Nat} (h : ¬ HexChar c) : FracPP (c :: s) ↔ IsP c ∧ PlusPlus s := by
  constructor
  · rintro ⟨fs, p, t, h1, h2, h3⟩
    cases fs with
    | nil => simp at h3; exact ⟨h3.1 ▸ h2, t, h3.2⟩
    | cons f fs => simp at h3; exact absurd (h1 f (by simp)) (h3.1 ▸ h)
  · rintro ⟨h1, t, rfl⟩
    exact ⟨[], c, t, by simp, h1, rfl⟩

theorem intPP_hex {c : Nat} {s : List Nat} (h : HexChar c) : IntPP (c :: s) ↔ IntPP s := by
  unfold IntPP
  rw [fracPP_hex h]
  refine or_congr Iff.rfl ?_
  constructor
  · rintro ⟨ds, u, h1, h2, h3⟩
    cases ds with
    | nil => simp at h3; rw [h3.1] at h; unfold HexChar at h; omega
    | cons f fs => simp at h3; exact ⟨fs, u, fun c hc => h1 c (by simp [hc]), h2, h3.2⟩
  · rintro ⟨ds, u, h1, h2, rfl⟩
    refine ⟨c :: ds, u, ?_, h2, rfl⟩
    intro x hx; rcases List.mem_cons.1 hx with rfl | hx
    · exact h
    · exact h1 x hx

theorem intPP_other {c : Nat} {s : List Nat} (h : ¬ HexChar c) : IntPP (c :: s) ↔ (IsP c ∧ PlusPlus s) ∨ (c = 46 ∧ FracPP s) := by
  unfold IntPP
  rw [fracPP_other h]
  refine or_congr Iff.rfl ?_
  constructor
  · rintro ⟨ds, u, h1, h2, h3⟩
    cases ds with
    | nil => simp at h3; exact ⟨h3.1, h3.2 ▸ h2⟩
    | cons f fs => simp at h3; exact absurd (h1 f (by simp)) (h3.1 ▸ h)
  · rintro ⟨rfl, h1⟩
    exact ⟨[], s, by simp, h1, rfl⟩

theorem not_pp_nil : ¬ FracPP [] ∧ ¬ IntPP [] := by
  constructor
  · rintro ⟨fs, p, t, _, _, h⟩; simp at h
  · rintro (⟨fs, p, t, _, _, h⟩ | ⟨ds, u, _, _, h⟩) <;> simp at h

theorem rhexFracD_eq : ∀ (s : List Nat) (d v : Rat), (FracPP s → rhexFracD s d v = .abort) ∧ (¬ FracPP s → rhexFracD s d v = rhexFrac s d v)
  | [], d, v => ⟨fun h => absurd h not_pp_nil.1, fun _ => rfl⟩
  | c :: s, d, v => by
    rw [rhexFracD, rhexFrac]
    rcases rhexDigit_hex c with ⟨h1, x, h2⟩ | ⟨h1, h2⟩
    · rw [fracPP_hex h1, h2]; exact rhexFracD_eq s _ _
    · rw [fracPP_other h1, h2]
      simp only
      by_cases hp : c = 112 ∨ c = 80
      · rw [if_pos hp, if_pos hp]
        exact ⟨fun h => rhexPowerD_abort _ _ h.2, fun h => rhexPowerD_eq _ _ fun h' => h ⟨hp, h'⟩⟩
      · rw [if_neg hp, if_neg hp]
        exact ⟨fun h => absurd h.1 hp, fun _ => rfl⟩

theorem rhexIntD_eq : ∀ (s : List Nat) (v : Rat), (IntPP s → rhexIntD s v = .abort) ∧ (¬ IntPP s → rhexIntD s v = rhexInt s v)
  | [], v => ⟨fun h => absurd h not_pp_nil.2, fun _ => rfl⟩
  | c :: s, v => by
    rw [rhexIntD, rhexInt]
    rcases rhexDigit_hex c with ⟨h1, x, h2⟩ | ⟨h1, h2⟩
    · rw [intPP_hex h1, h2]; exact rhexIntD_eq s _
    · rw [intPP_other h1, h2]
      simp only
      by_cases h46 : c = 46
      · rw [if_pos h46, if_pos h46]
        have hnp : ¬ IsP c := by unfold IsP; omega
        have := rhexFracD_eq s (1 / 16) v
        exact ⟨fun h => this.1 (by rcases h with h | h; exact absurd h.1 hnp; exact h.2), fun h => this.2 fun h' => h (Or.inr ⟨h46, h'⟩)⟩
      · rw [if_neg h46, if_neg h46]
        simp only [h46, false_and, or_false]
        by_cases hp : c = 112 ∨ c = 80
        · rw [if_pos hp, if_pos hp]
          exact ⟨fun h => rhexPowerD_abort _ _ h.2, fun h => rhexPowerD_eq _ _ fun h' => h ⟨hp, h'⟩⟩
        · rw [if_neg hp, if_neg hp]
          exact ⟨fun h => absurd h.1 hp, fun _ => rfl⟩

theorem intPP_refused {s : List Nat} (h : IntPP s) : RhexRefused s := by
  rcases h with ⟨ds, p, t, h1, h2, rfl⟩ | ⟨ds, u, h1, ⟨fs, p, t, h2, h3, rfl⟩, rfl⟩
  · exact .plus h1 h2
  · exact .plusPoint h1 h2 h3

theorem scanRhexD_eq (s : List Nat) (v : Rat) : (RhexRefused s → scanRhexD s v = .abort) ∧ (¬ RhexRefused s → scanRhexD s v = scanRhex s v) := by
  cases s with
  | nil => exact ⟨fun _ => by unfold scanRhexD; rw [assertThat_neg (by simp)]; rfl, fun h => absurd .nothing h⟩
  | cons c s =>
    obtain ⟨b1, e1, h1⟩ := (C32_begins_ends (c :: s) (S "0x")).1
    obtain ⟨b2, e2, h2⟩ := (C32_begins_ends (c :: s) (S "0X")).1
    have hrd : rd (c :: s) 0 = .ok c := rfl
    unfold scanRhexD
    rw [assertThat_pos (by simp), Res.ok_bind, hrd, Res.ok_bind]
    by_cases hm : c = 45
    · rw [assertThat_neg (by simp [hm])]
      exact ⟨fun _ => rfl, fun h => absurd (.sign (Or.inr hm)) h⟩
    rw [assertThat_pos hm, Res.ok_bind]
    by_cases hp : c = 43
    · rw [assertThat_neg (by simp [hp])]
      exact ⟨fun _ => rfl, fun h => absurd (.sign (Or.inl hp)) h⟩
    rw [assertThat_pos hp, Res.ok_bind, e1, Res.ok_bind]
    cases b1 with
    | true =>
      obtain ⟨t, ht⟩ := h1.1 rfl
      rw [assertThat_neg (by simp)]
      exact ⟨fun _ => rfl, fun h => absurd (by rw [ht]; exact .again (Or.inl rfl)) h⟩
    | false =>
      rw [assertThat_pos rfl, Res.ok_bind, e2, Res.ok_bind]
      cases b2 with
      | true =>
        obtain ⟨t, ht⟩ := h2.1 rfl
        rw [assertThat_neg (by simp)]
        exact ⟨fun _ => rfl, fun h => absurd (by rw [ht]; exact .again (Or.inr rfl)) h⟩
      | false =>
        rw [assertThat_pos rfl, Res.ok_bind]
        refine ⟨fun h => ?_, fun h => (rhexIntD_eq _ _).2 fun h' => h (intPP_refused h')⟩
        refine (rhexIntD_eq _ _).1 ?_
        generalize hcs : c :: s = cs at h h1 h2
        cases h with
        | nothing => simp at hcs
        | sign h => simp at hcs; rcases h with h | h <;> omega
        | again h =>
          rename_i x t
          rcases h with rfl | rfl
          · exact absurd (h1.2 ⟨t, rfl⟩) (by simp)
          · exact absurd (h2.2 ⟨t, rfl⟩) (by simp)
        | plus g1 g2 => exact Or.inl ⟨_, _, _, g1, g2, rfl⟩
        | plusPoint g1 g2 g3 => exact Or.inr ⟨_, _, g1, ⟨_, _, _, g2, g3, rfl⟩, rfl⟩

/-- The part of a refusal that concerns hexadecimal numbers. -/
def HexRefused (s : List Nat) : Prop :=
  ∃ sg x t, s = sg ++ 48 :: x :: t ∧ SignText true sg ∧ (x = 120 ∨ x = 88) ∧ RhexRefused t

theorem atofHexD_eq (s : List Nat) (v : Rat) : (HexRefused s → atofHexD s v = .abort) ∧ (¬ HexRefused s → atofHexD s v = atofHex s v) := by
  cases s with
  | nil =>
    refine ⟨?_, fun _ => rfl⟩
    rintro ⟨sg, x, t, h, _⟩
    simp at h
  | cons c s =>
    have hrd : rd (c :: s) 0 = .ok c := rfl
    unfold atofHexD atofHex
    rw [hrd, Res.ok_bind, Res.ok_bind, subL_eq (by split <;> simp), Res.ok_bind]
    have hrem : (c :: s).drop (if c = 45 ∨ c = 43 then 1 else 0) = if c = 45 ∨ c = 43 then (c :: s).drop 1 else c :: s := by
      split <;> simp
    rw [hrem]
    have key : HexRefused (c :: s) ↔ ∃ x t, (if c = 45 ∨ c = 43 then (c :: s).drop 1 else c :: s) = 48 :: x :: t ∧ (x = 120 ∨ x = 88) ∧ RhexRefused t := by
      constructor
      · rintro ⟨sg, x, t, h, h1, h2, h3⟩
        refine ⟨x, t, ?_, h2, h3⟩
        rcases h1 with rfl | rfl | ⟨_, rfl⟩ <;> simp at h
        · rw [if_neg (by omega)]; simp [h]
        · rw [if_pos (by omega)]; simp [h]
        · rw [if_pos (by omega)]; simp [h]
      · rintro ⟨x, t, h, h2, h3⟩
        split at h
        · rename_i hc
          simp at h; subst h
          refine ⟨[c], x, t, rfl, ?_, h2, h3⟩
          rcases hc with rfl | rfl
          · exact Or.inr (Or.inr ⟨rfl, rfl⟩)
          · exact Or.inr (Or.inl rfl)
        · exact ⟨[], x, t, h, Or.inl rfl, h2, h3⟩
    rw [key]
    generalize (if c = 45 ∨ c = 43 then (c :: s).drop 1 else c :: s) = rem
    clear key hrem
    by_cases hx : ∃ x t, rem = 48 :: x :: t ∧ (x = 120 ∨ x = 88)
    · obtain ⟨x, t, rfl, hx⟩ := hx
      simp only [if_pos hx]
      refine ⟨?_, fun h => ?_⟩
      · rintro ⟨x', t', h1, _, h3⟩
        simp at h1; obtain ⟨rfl, rfl⟩ := h1
        rw [(scanRhexD_eq t v).1 h3]; rfl
      · rw [(scanRhexD_eq t v).2 fun h' => h ⟨x, t, rfl, hx, h'⟩]
    · refine ⟨?_, fun _ => ?_⟩
      · rintro ⟨x, t, h1, h2, _⟩; exact absurd ⟨x, t, h1, h2⟩ hx
      · match rem, hx with
        | [], _ => rfl
        | [a], _ =>
          by_cases ha : a = 48
          · subst ha; rfl
          · simp
        | a :: x :: t, hx =>
          by_cases ha : a = 48
          · subst ha
            have : ¬ (x = 120 ∨ x = 88) := fun h => hx ⟨x, t, rfl, h⟩
            simp only [if_neg this]
          · simp [ha]

theorem triml_blank (c : Nat) (s : List Nat) : ∃ r, trimlSet (c :: s) [32, 13, 9, 10] = .ok r ∧ (r.2 = (c :: s).length ↔ ¬ Blank c) := by
  obtain ⟨r, h1, h2, h3⟩ := (C31_triml 0 [32, 13, 9, 10]).2 (c :: s)
  refine ⟨r, h1, ?_⟩
  have hl := congrArg List.length h3
  rw [rng_length h2] at hl
  clear h1 h2 h3
  generalize hp : (fun x => [32, 13, 9, 10].contains x) = p at hl
  by_cases hb : Blank c
  · have : p c = true := by
      subst hp; unfold Blank at hb; rcases hb with rfl | rfl | rfl | rfl <;> decide
    simp only [hb, not_true_eq_false, iff_false]
    rw [hl, List.dropWhile_cons_of_pos this]
    have := (List.dropWhile_sublist p (l := s)).length_le
    simp only [List.length_cons]
    omega
  · have : p c = false := by
      subst hp; unfold Blank at hb; simp; omega
    simp only [hb, not_false_eq_true, iff_true]
    rw [hl, List.dropWhile_cons_of_neg (by simp [this])]

/-! ### C160 -/

/-- **C160** as far as it holds, `atou`: no text fails an assertion; every text gives the result of a build without assertions. -/
theorem C160_atou (t : ITy) (s : List Nat) : ∃ r, atouD t s = .ok r ∧ atou t s = .ok r := by
  obtain ⟨r, h, _⟩ := C11_atou t s
  exact ⟨r, by rw [atouD_eq, h], h⟩

/-- **C160** as far as it holds, `atoi`: an assertion fails exactly if the text begins with a plus sign; every other text gives the result of
a build without assertions. -/
theorem C160_atoi_partial (t : ITy) (s : List Nat) :
    (BeginsPlus s → atoiD t s = .abort) ∧ (¬ BeginsPlus s → ∃ r, atoiD t s = .ok r ∧ atoi t s = .ok r) := by
  obtain ⟨r, h, _⟩ := C12_atoi t s
  exact ⟨atoiD_abort t s, fun hp => ⟨r, by rw [atoiD_eq t s hp, h], h⟩⟩

/-- **C160**, `atou_first`: no text fails an assertion. -/
theorem C160_atou_first (t : ITy) (s : List Nat) : ∃ r, atouFirstD t s = .ok r ∧ atouFirst t s = .ok r := by
  unfold atouFirstD atouFirst
  obtain ⟨r, h, _⟩ := firstUintSpan_contract s
  rw [firstUintSpanD_eq, h]
  simp only [Res.ok_bind]
  split
  · exact ⟨_, rfl, rfl⟩
  · obtain ⟨q, h1, h2⟩ := C160_atou t (Rng.of s r)
    rw [h1, h2]
    exact ⟨_, rfl, rfl⟩

theorem rng_append (ws tok rest : List Nat) : Rng.of (ws ++ tok ++ rest) (ws.length, tok.length) = tok := by
  simp [Rng.of]

/-- **C160** as far as it holds, `atoi_first`: an assertion fails exactly if the integer token that the text begins with has a plus sign. -/
theorem C160_atoi_first_partial (t : ITy) (s : List Nat) :
    ((∃ off n, TokenAt (IntToken true) s off n ∧ s[off]? = some 43) → atoiFirstD t s = .abort) ∧
    ((¬ ∃ off n, TokenAt (IntToken true) s off n ∧ s[off]? = some 43) → ∃ r, atoiFirstD t s = .ok r ∧ atoiFirst t s = .ok r) := by
  obtain ⟨r, h, hle, hu, hr⟩ := firstIntSpan_contract s
  have e0 : atoiFirstD t s = if r.2 = 0 then .ok none else
      (atoiD t (Rng.of s r)).bind fun x => .ok (if x.1 then some (r.1 + r.2, x.2.1) else none) := by
    unfold atoiFirstD; rw [firstIntSpanD_eq, h]; rfl
  have e1 : atoiFirst t s = if r.2 = 0 then .ok none else
      (atoi t (Rng.of s r)).bind fun x => .ok (if x.1 then some (r.1 + r.2, x.2.1) else none) := by
    unfold atoiFirst; rw [h]; rfl
  rw [e0, e1]
  constructor
  · rintro ⟨off, n, ht, h43⟩
    have := hu off n ht
    subst this
    obtain ⟨ws, tok, rest, h1, h2, h3, h4, rfl, rfl⟩ := ht
    have hne : tok ≠ [] := by
      rintro rfl
      obtain ⟨sg, body, h5, _, hb⟩ := h3
      have : body = [] := by simpa using (List.append_eq_nil_iff.1 h5.symm).2
      subst this
      cases hb with
      | dec h => exact h.1 rfl
    obtain ⟨c, tok, rfl⟩ := List.exists_cons_of_ne_nil hne
    have hc : c = 43 := by rw [h1] at h43; simpa using h43
    subst hc
    rw [if_neg (by simp), h1, rng_append, atoiD_abort _ _ ⟨tok, rfl⟩]
    rfl
  · intro hno
    split
    · exact ⟨_, rfl, rfl⟩
    · rename_i h0
      have ht := hr h0
      have : ¬ BeginsPlus (Rng.of s r) := by
        rintro ⟨u, hu⟩
        refine hno ⟨_, _, ht, ?_⟩
        obtain ⟨ws, tok, rest, h1, h2, h3, h4, h5, h6⟩ := ht
        rw [h1, show r = (ws.length, tok.length) by rw [← h5, ← h6], rng_append] at hu
        rw [h1, hu, h5]; simp
      obtain ⟨q, h1, h2⟩ := (C160_atoi_partial t (Rng.of s r)).2 this
      rw [h1, h2]
      exact ⟨_, rfl, rfl⟩

/-- **C160** as far as it holds, `atof` and `atod`: an assertion fails exactly for the refused texts; every other text gives the result of a
build without assertions. -/
theorem C160_atof_partial (f : Fmt) (fpu : Fpu) (s : List Nat) (v : Rat) :
    (RealRefused s → atofD f fpu s v = .abort) ∧ (¬ RealRefused s → atofD f fpu s v = atof f fpu s v) := by
  cases s with
  | nil =>
    refine ⟨fun _ => ?_, fun h => absurd (Or.inl rfl) h⟩
    unfold atofD; rw [assertThat_neg (by simp)]; rfl
  | cons c s =>
    obtain ⟨r, h1, h2⟩ := triml_blank c s
    unfold atofD atof
    rw [assertThat_pos (by simp), Res.ok_bind, h1, Res.ok_bind]
    by_cases hb : Blank c
    · rw [assertThat_neg (by rw [h2]; simp [hb])]
      exact ⟨fun _ => rfl, fun h => absurd (Or.inr (Or.inl ⟨c, s, rfl, hb⟩)) h⟩
    · rw [assertThat_pos (h2.2 hb), Res.ok_bind]
      have key : RealRefused (c :: s) ↔ HexRefused (c :: s) := by
        constructor
        · rintro (h | ⟨c', t, h, hb'⟩ | h)
          · simp at h
          · simp at h; exact absurd (h.1 ▸ hb') hb
          · exact h
        · exact fun h => Or.inr (Or.inr h)
      rw [key]
      refine ⟨fun h => ?_, fun h => ?_⟩
      · rw [(atofHexD_eq _ v).1 h]; rfl
      · rw [(atofHexD_eq _ v).2 h]; rfl

theorem realBody_nonempty {dig pw : Nat → Prop} {signs : List (List Nat)} {b : List Nat} (h : RealBody dig pw signs b) :
    ∃ c t, b = c :: t ∧ (dig c ∨ c = 46) := by
  obtain ⟨ip, fp, ep, rfl, h1, h2, _⟩ := h
  cases ip with
  | cons c ip => exact ⟨c, ip ++ fp ++ ep, by simp, Or.inl (h1 c (by simp))⟩
  | nil =>
    rcases h2 with ⟨_, h⟩ | ⟨f, rfl, _, _⟩
    · exact absurd rfl h
    · exact ⟨46, f ++ ep, by simp, Or.inr rfl⟩

/-- In a text of characters of a class and others, the first other character is in one place. -/
theorem split_first {P : Nat → Prop} : ∀ {as bs : List Nat} {x y : Nat} {s t : List Nat}, (∀ c ∈ as, P c) → (∀ c ∈ bs, P c) → ¬ P x → ¬ P y →
    as ++ x :: s = bs ++ y :: t → as = bs ∧ x = y ∧ s = t
  | [], [], x, y, s, t, _, _, _, _, h => by simpa using h
  | [], b :: bs, x, y, s, t, _, hb, hx, _, h => by simp at h; exact absurd (hb b (by simp)) (h.1 ▸ hx)
  | a :: as, [], x, y, s, t, ha, _, _, hy, h => by simp at h; exact absurd (ha a (by simp)) (h.1.symm ▸ hy)
  | a :: as, b :: bs, x, y, s, t, ha, hb, hx, hy, h => by
    simp at h
    have := split_first (fun c hc => ha c (by simp [hc])) (fun c hc => hb c (by simp [hc])) hx hy h.2
    exact ⟨by rw [h.1, this.1], this.2⟩

theorem no_first {P : Nat → Prop} {as bs : List Nat} {x : Nat} {s : List Nat} (ha : ∀ c ∈ as, P c) (hx : ¬ P x)
    (h : as = bs ++ x :: s) : False := hx (ha x (by rw [h]; simp))

theorem realBody_not_refused {b : List Nat} (h : RealBody HexChar IsP [[43], [45]] b) : ¬ RhexRefused b := by
  have hp : ∀ p, IsP p → ¬ HexChar p := fun p h => p_not_hex h
  have h46 : ¬ HexChar 46 := by unfold HexChar; omega
  have hnp : ∀ p, IsP p → p ≠ 46 := by intro p h; unfold IsP at h; omega
  obtain ⟨c, t, hc, hd⟩ := realBody_nonempty h
  intro hr
  -- a power has one sign, and then digits
  have hpow : ∀ (ep : List Nat) (e sg ds t), ep = e :: (sg ++ ds) → sg ∈ [[43], [45]] → Run DecChar ds → ∀ p, ep ≠ p :: 43 :: 43 :: t := by
    rintro ep e sg ds t rfl hsg hds p h
    simp at hsg h
    obtain ⟨d, ds, rfl⟩ := List.exists_cons_of_ne_nil hds.1
    have := hds.2 d (by simp)
    unfold DecChar at this
    rcases hsg with rfl | rfl <;> first | (simp at h; omega) | simp at h
  obtain ⟨ip, fp, ep, hb, h1, h2, h3⟩ := h
  cases hr with
  | nothing => simp at hc
  | sign hs => simp at hc; obtain ⟨rfl, _⟩ := hc; unfold HexChar at hd; omega
  | again hx =>
    rename_i x u
    -- the second character is a digit, a point, or a power character
    have hx' : ¬ HexChar x ∧ x ≠ 46 ∧ ¬ IsP x := by unfold HexChar IsP; omega
    cases ip with
    | nil =>
      rcases h2 with ⟨_, h⟩ | ⟨f, rfl, _⟩
      · exact h rfl
      · simp at hb
    | cons a ip =>
      simp at hb
      obtain ⟨_, hb⟩ := hb
      cases ip with
      | cons b ip => simp at hb; exact hx'.1 (hb.1 ▸ h1 b (by simp))
      | nil =>
        rcases h2 with ⟨rfl, _⟩ | ⟨f, rfl, _⟩
        · rcases h3 with rfl | ⟨e, sg, ds, rfl, he, _⟩
          · simp at hb
          · simp at hb; exact hx'.2.2 (hb.1 ▸ he)
        · simp at hb; exact hx'.2.1 hb.1
  | plus g1 g2 =>
    rename_i ds p u
    rcases h2 with ⟨rfl, _⟩ | ⟨f, rfl, hf, _⟩
    · rcases h3 with rfl | ⟨e, sg, ds', rfl, he, hsg, hds⟩
      · simp at hb; exact no_first h1 (hp p g2) hb.symm
      · have := split_first g1 h1 (hp p g2) (hp e he) (by simpa using hb)
        exact hpow _ _ _ _ u rfl hsg hds p (by rw [this.2.1, this.2.2])
    · have := split_first g1 h1 (hp p g2) h46 (by simpa using hb)
      exact hnp p g2 this.2.1
  | plusPoint g1 g2 g3 =>
    rename_i ds fs p u
    rcases h2 with ⟨rfl, _⟩ | ⟨f, rfl, hf, _⟩
    · rcases h3 with rfl | ⟨e, sg, ds', rfl, he, hsg, hds⟩
      · simp at hb; exact no_first h1 h46 hb.symm
      · have := split_first g1 h1 h46 (hp e he) (by simpa using hb)
        exact hnp e he this.2.1.symm
    · have := split_first g1 h1 h46 h46 (by simpa using hb)
      have hb := this.2.2
      rcases h3 with rfl | ⟨e, sg, ds', rfl, he, hsg, hds⟩
      · simp at hb; exact no_first hf (hp p g3) hb.symm
      · have := split_first g2 hf (hp p g3) (hp e he) hb
        exact hpow _ _ _ _ u rfl hsg hds p (by rw [this.2.1, this.2.2])

theorem realLit_head {b : List Nat} (h : RealLit b) : ∃ c t, b = c :: t ∧ ¬ Blank c ∧ c ≠ 43 ∧ c ≠ 45 := by
  cases h with
  | dec h =>
    obtain ⟨c, t, rfl, hd⟩ := realBody_nonempty h
    refine ⟨c, t, rfl, ?_⟩
    unfold DecChar at hd; unfold Blank; omega
  | hex _ _ => exact ⟨_, _, rfl, by unfold Blank; omega, by omega, by omega⟩
  | bin _ _ => exact ⟨_, _, rfl, by unfold Blank; omega, by omega, by omega⟩
  | oct _ _ => exact ⟨_, _, rfl, by unfold Blank; omega, by omega, by omega⟩
  | inf => exact ⟨_, _, rfl, by unfold Blank; omega, by omega, by omega⟩
  | infinity => exact ⟨_, _, rfl, by unfold Blank; omega, by omega, by omega⟩
  | nan => exact ⟨_, _, rfl, by unfold Blank; omega, by omega, by omega⟩

theorem realLit_hex {x : Nat} {t : List Nat} (hx : x = 120 ∨ x = 88) (h : RealLit (48 :: x :: t)) : RealBody HexChar IsP [[43], [45]] t := by
  generalize hb : 48 :: x :: t = b at h
  cases h with
  | hex _ h => simp at hb; exact hb.2 ▸ h
  | bin h _ => simp at hb; omega
  | oct h _ => simp at hb; omega
  | inf => simp at hb
  | infinity => simp at hb
  | nan => simp at hb
  | dec h =>
    exfalso
    obtain ⟨ip, fp, ep, rfl, h1, h2, h3⟩ := h
    cases ip with
    | nil =>
      rcases h2 with ⟨_, h⟩ | ⟨f, rfl, _⟩
      · exact h rfl
      · simp at hb
    | cons a ip =>
      simp at hb
      obtain ⟨_, hb⟩ := hb
      cases ip with
      | cons b ip =>
        simp at hb
        have := h1 b (by simp)
        unfold DecChar at this; omega
      | nil =>
        rcases h2 with ⟨rfl, _⟩ | ⟨f, rfl, _⟩
        · rcases h3 with rfl | ⟨e, sg, ds, rfl, he, _⟩
          · simp at hb
          · simp at hb; unfold IsE at he; omega
        · simp at hb; omega

theorem realToken_not_refused {t : List Nat} (h : RealToken t) : ¬ RealRefused t := by
  obtain ⟨sg, b, rfl, hsg, hb⟩ := h
  obtain ⟨c, u, hc, h1, h2, h3⟩ := realLit_head hb
  rintro (h | ⟨c', u', h, hbl⟩ | ⟨sg', x, u', h, hsg', hx, hr⟩)
  · subst hc; simp at h
  · rcases hsg with rfl | rfl | ⟨_, rfl⟩ <;> rw [hc] at h <;> simp at h
    · exact h1 (h.1 ▸ hbl)
    · obtain ⟨rfl, _⟩ := h; unfold Blank at hbl; omega
    · obtain ⟨rfl, _⟩ := h; unfold Blank at hbl; omega
  · have : b = 48 :: x :: u' := by
      subst hc
      rcases hsg with rfl | rfl | ⟨_, rfl⟩ <;> rcases hsg' with rfl | rfl | ⟨_, rfl⟩ <;> simp at h ⊢ <;> first | exact h | omega
    rw [this] at hb
    exact realBody_not_refused (realLit_hex hx hb) hr

/-- **C160**, `atof_first` and `atod_first`: no text fails an assertion; the result is that of a build without assertions. -/
theorem C160_atof_first (f : Fmt) (fpu : Fpu) (s : List Nat) (v : Rat) : atofFirstD f fpu s v = atofFirst f fpu s v := by
  unfold atofFirstD atofFirst
  obtain ⟨r, h, _, _, hr⟩ := firstRealSpan_contract s
  rw [firstRealSpanD_eq, h]
  simp only [Res.ok_bind]
  split
  · rfl
  · rename_i h0
    obtain ⟨ws, tok, rest, h1, h2, h3, h4, h5, h6⟩ := hr h0
    rw [(C160_atof_partial f fpu (Rng.of s r) v).2 ?_]
    rw [h1, show r = (ws.length, tok.length) by rw [← h5, ← h6], rng_append]
    exact realToken_not_refused h3

theorem skipZerosD_eq {str : List Nat} {start : Nat} {f g : Nat → Res Bool} (h : start ≤ str.length)
    (hfg : ∀ n, n < str.length → f n = g n) : skipZerosD str start f = skipZeros str start g := by
  unfold skipZerosD skipZeros
  rw [assertThat_pos h, Res.ok_bind]
  obtain ⟨r, hr, hs⟩ := firstNotOf_spec str 48 start
  rw [hr]; simp only [Res.ok_bind]
  cases r with
  | none => rfl
  | some n => exact hfg n hs.2.1

/-- **C160**, `overflows`: no text fails an assertion; the answer is that of a build without assertions. -/
theorem C160_overflows (w : W) (s : List Nat) : overflowsUD w s = overflowsU w s ∧ overflowsID w s = overflowsI w s := by
  constructor
  · unfold overflowsUD overflowsU
    split
    · rfl
    · refine rd_bind_congr fun c _ => ?_
      split
      · split
        · rfl
        · refine rd_bind_congr fun c _ => ?_
          simp only [skipZerosD_eq (g := fun fno => .ok (!decide (s.length ≤ fno + w.bytes * 2))) (show 2 ≤ s.length by omega) (fun _ _ => rfl),
            skipZerosD_eq (g := fun fno => .ok (!decide (s.length ≤ fno + w.bytes * 8))) (show 2 ≤ s.length by omega) (fun _ _ => rfl),
            skipZerosD_eq (f := fun fno => do let s ← subL s fno; isOctOverflow ⟨w, false⟩ s)
              (g := fun fno => isOctOverflow ⟨w, false⟩ (s.drop fno)) (show 2 ≤ s.length by omega) (fun n hn => by rw [subL_eq (Nat.le_of_lt hn)]; rfl),
            skipZerosD_eq (f := fun fno => do let s ← subL s fno; .ok (checkOverflow s (maxValueDec ⟨w, false⟩)))
              (g := fun fno => .ok (checkOverflow (s.drop fno) (maxValueDec ⟨w, false⟩))) (show 1 ≤ s.length by omega) (fun n hn => by rw [subL_eq (Nat.le_of_lt hn)]; rfl)]
      · rfl
  · unfold overflowsID overflowsI
    split
    · rfl
    · refine rd_bind_congr fun c _ => ?_
      split
      · refine rd_bind_congr fun c hc => ?_
        have := rd_lt hc
        split
        · split
          · rfl
          · refine rd_bind_congr fun c _ => ?_
            have h3 : ∀ t : List Nat, skipZerosD s 3 (fun fno => do let s ← subL s fno; .ok (checkOverflow s t))
                = skipZeros s 3 (fun fno => .ok (checkOverflow (s.drop fno) t)) := fun t =>
              skipZerosD_eq (by omega) (fun n hn => by rw [subL_eq (Nat.le_of_lt hn)]; rfl)
            have h2 : ∀ t : List Nat, skipZerosD s 2 (fun fno => do let s ← subL s fno; .ok (checkOverflow s t))
                = skipZeros s 2 (fun fno => .ok (checkOverflow (s.drop fno) t)) := fun t =>
              skipZerosD_eq (by omega) (fun n hn => by rw [subL_eq (Nat.le_of_lt hn)]; rfl)
            simp only [h3, h2]
        · rw [subL_eq (by omega)]; rfl
      · split
        · split
          · rfl
          · refine rd_bind_congr fun c _ => ?_
            split
            · exact skipZerosD_eq (by omega) (fun _ _ => rfl)
            · split
              · exact skipZerosD_eq (by omega) (fun _ _ => rfl)
              · split
                · exact skipZerosD_eq (by omega) (fun n hn => by rw [subL_eq (Nat.le_of_lt hn)]; rfl)
                · exact skipZerosD_eq (by omega) (fun n hn => by rw [subL_eq (Nat.le_of_lt hn)]; rfl)
        · rfl

/-- **C160** as far as it holds, the readers of digits: an assertion fails exactly if there is no text. -/
theorem C160_read_partial (t : ITy) (s : List Nat) :
    (s = [] → readDecD t s = .abort ∧ readHexD t s = .abort ∧ readBinD t s = .abort ∧ readOctD t s = .abort) ∧
    (s ≠ [] → readDecD t s = .ok (readDec t s) ∧ readHexD t s = .ok (readHex t s) ∧ readBinD t s = .ok (readBin t s) ∧ readOctD t s = .ok (readOct t s)) := by
  constructor
  · rintro rfl; exact ⟨rfl, rfl, rfl, rfl⟩
  · intro h
    have h : s.length ≠ 0 := by simpa using h
    exact ⟨readDecD_eq t h, readHexD_eq t h, readBinD_eq t h, readOctD_eq t h⟩

/-- **C160** is false as stated: texts that a build without assertions reads, or reports as unreadable, fail an assertion. -/
theorem C160_refuted :
    (atoi ⟨.w32, true⟩ (S "+5") = .ok (false, 0, false) ∧ atoiD ⟨.w32, true⟩ (S "+5") = .abort) ∧
    (atoiFirst ⟨.w32, true⟩ (S " +5 ") = .ok none ∧ atoiFirstD ⟨.w32, true⟩ (S " +5 ") = .abort) ∧
    (∀ f fpu v, ∀ t ∈ [S "", S " 1", S "0x", S "-0x-1", S "0x0x1", S "0x1p++3", S "0x1.8p++3"], atofD f fpu t v = .abort) ∧
    (∀ f fpu, ∃ x, atof f fpu (S "0x1p++3") 0 = .ok (false, x)) := by
  refine ⟨by decide +kernel, by decide +kernel, ?_, ?_⟩
  · intro f fpu v t ht
    refine (C160_atof_partial f fpu t v).1 ?_
    simp only [List.mem_cons, List.not_mem_nil, or_false] at ht
    rcases ht with rfl | rfl | rfl | rfl | rfl | rfl | rfl
    · exact Or.inl rfl
    · exact Or.inr (Or.inl ⟨32, S "1", rfl, Or.inl rfl⟩)
    · exact Or.inr (Or.inr ⟨[], 120, [], rfl, Or.inl rfl, Or.inl rfl, .nothing⟩)
    · exact Or.inr (Or.inr ⟨[45], 120, S "-1", rfl, by simp [SignText], Or.inl rfl, .sign (Or.inr rfl)⟩)
    · exact Or.inr (Or.inr ⟨[], 120, S "0x1", rfl, Or.inl rfl, Or.inl rfl, .again (Or.inl rfl)⟩)
    · exact Or.inr (Or.inr ⟨[], 120, S "1p++3", rfl, Or.inl rfl, Or.inl rfl, .plus (ds := [49]) (p := 112) (t := S "3") (by simp [HexChar]) (by simp [IsP])⟩)
    · exact Or.inr (Or.inr ⟨[], 120, S "1.8p++3", rfl, Or.inl rfl, Or.inl rfl,
        .plusPoint (ds := [49]) (fs := [56]) (p := 112) (t := S "3") (by simp [HexChar]) (by simp [HexChar]) (by simp [IsP])⟩)
  · intro f fpu
    obtain ⟨x, hx⟩ : ∃ x, atofHex (S "0x1p++3") 0 = .ok (some (false, x)) := ⟨1, by decide +kernel⟩
    exact ⟨.hex x, by unfold atof; rw [hx]; rfl⟩

/-! Texts that are accepted and read. -/
example : atoiD ⟨.w8, true⟩ (S "-0x80") = .ok (true, -128, false) ∧ atouD ⟨.w8, false⟩ (S "255") = .ok (true, 255, false) ∧
    ¬ BeginsPlus (S "-0x80") := by
  refine ⟨by decide +kernel, by decide +kernel, ?_⟩
  rintro ⟨t, h⟩; cases h

end C4
