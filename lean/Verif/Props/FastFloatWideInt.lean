import Verif.Props.FastFloatWide
import Verif.Props.FFParseInt
/-
Property C148: integers in texts of wide characters (fast_float).
-/
namespace C4.FF
open Spec

namespace WdInt

/-- The character `c'` can stand for `c`: they are the same or both are characters that cannot be a part of a number. -/
def Alike (c c' : Nat) : Prop := c' = c ∨ (Other c ∧ Other c')

/-- No wide character has a digit or a letter as its low byte. -/
def LowBytes (s : List Nat) : Prop := ∀ c ∈ s, 256 ≤ c → digit36 (c % 256) = none

theorem digit36_other {c : Nat} (h : Other c) : digit36 c = none := by
  unfold Other IsPoint IsDigit at h
  unfold digit36
  repeat' split
  all_goals first | rfl | omega

theorem toDigit {c c' : Nat} (h : Alike c c') (hb : c' < 256) (hl : 256 ≤ c → digit36 (c % 256) = none) : chToDigit c' = chToDigitW c := by
  unfold chToDigitW
  change chToDigit c' = chToDigit (c % 256)
  rw [chToDigit_eq c' hb, chToDigit_eq _ (Nat.mod_lt _ (by omega))]
  by_cases hc : c < 256
  · rw [Nat.mod_eq_of_lt hc]
    rcases h with h | ⟨h1, h2⟩
    · rw [h]
    · rw [digit36_other h1, digit36_other h2]
  · rw [hl (by omega)]
    rcases h with h | ⟨h1, h2⟩
    · omega
    · rw [digit36_other h2]

variable {g : Nat → Nat}

theorem baseLoop_map (b : Nat) : ∀ (s : List Nat), (∀ c ∈ s, Alike c (g c)) → (∀ c ∈ s, g c < 256) → LowBytes s →
    ∀ i, baseLoop b (s.map g) i = ((baseLoopW b s i).1.map g, (baseLoopW b s i).2) := by
  intro s
  induction s with
  | nil => intro _ _ _ i; rfl
  | cons c s ih =>
    intro h hb hl i
    rw [List.map_cons, baseLoop, baseLoopW, toDigit (h c (by simp)) (hb c (by simp)) (hl c (by simp)),
      ih (fun x hx => h x (List.mem_cons_of_mem _ hx)) (fun x hx => hb x (List.mem_cons_of_mem _ hx)) (fun x hx => hl x (List.mem_cons_of_mem _ hx))]
    split <;> rfl

theorem baseLoop_suffix (b : Nat) : ∀ (s : List Nat) (i : Nat), (baseLoopW b s i).1 <:+ s := by
  intro s
  induction s with
  | nil => intro i; exact List.suffix_refl _
  | cons c s ih =>
    intro i
    rw [baseLoopW]
    split
    · exact List.suffix_refl _
    · exact (ih _).trans (List.suffix_cons _ _)

theorem skipZero_map : ∀ (s : List Nat), (∀ c ∈ s, Alike c (g c)) → skipZeroDigits (s.map g) = (skipZeroDigits s).map g := by
  intro s
  induction s with
  | nil => intro _; rfl
  | cons c s ih =>
    intro h
    have h48 : g c = 48 ↔ c = 48 := by
      rcases h c (by simp) with h | ⟨h1, h2⟩
      · rw [h]
      · unfold Other IsPoint IsDigit at h1 h2
        omega
    rw [List.map_cons, skipZeroDigits, skipZeroDigits, ih (fun x hx => h x (List.mem_cons_of_mem _ hx))]
    simp only [h48]
    split <;> rfl

theorem skipZero_suffix : ∀ (s : List Nat), skipZeroDigits s <:+ s := by
  intro s
  induction s with
  | nil => exact List.suffix_refl _
  | cons c s ih =>
    rw [skipZeroDigits]
    split
    · exact ih.trans (List.suffix_cons _ _)
    · exact List.suffix_refl _

theorem digit_value {c : Nat} (h : IsDigit c) : chToDigit c = c - 48 ∧ chToDigitW c = c - 48 := by
  unfold IsDigit at h
  have : ∀ c < 58, 48 ≤ c → chToDigit c = c - 48 ∧ chToDigitW c = c - 48 := by decide
  exact this c (by omega) h.1

theorem wide_loops (k : Cfg) (s : List Nat) (i : Nat) (hr : k.uc.InRange s) :
    baseLoopW 10 (k.loopEight s i).1 (k.loopEight s i).2 = baseLoopW 10 s i := by
  apply loopEight_then k (baseLoopW 10) _ s i hr
  intro c s i h
  have h1 := (digit_value h).2
  unfold IsDigit at h
  rw [baseLoopW, if_neg (by omega), h1]

theorem narrow_loops (s : List Nat) (i : Nat) (hb : ∀ c ∈ s, c < 256) :
    baseLoop 10 (loopParseIfEightDigits s i).1 (loopParseIfEightDigits s i).2 = baseLoop 10 s i := by
  rw [Wd.loopEight_narrow s i hb]
  apply loopEight_then Wd.narrow (baseLoop 10) _ s i (fun c hc => by simpa [Wd.narrow, Uc.bytes] using hb c hc)
  intro c s i h
  have h1 := (digit_value h).1
  unfold IsDigit at h
  rw [baseLoop, if_neg (by omega), h1]

/-- `parse_int_string` with the loop over single digits only. -/
def ref (t : ITy) (base : Nat) (L : List Nat → Nat → List Nat × Nat) (first : List Nat) (c : Nat) (s : List Nat) : IntResult :=
  if t.sgn = false ∧ (c == 45) = true then ⟨.invalidArgument, first, none⟩
  else
    let startNum := if (c == 45) = true then s else first
    let startDigits := skipZeroDigits startNum
    let p := L startDigits 0
    if startDigits.length - p.1.length = 0 then
      (if startDigits.length < startNum.length then ⟨.ok, p.1, some 0⟩ else ⟨.invalidArgument, first, none⟩)
    else intStore t base (c == 45) (startDigits.length - p.1.length) p.2 p.1

theorem wide_ref (k : Cfg) (t : ITy) (base : Nat) (c : Nat) (s : List Nat) (hr : k.uc.InRange (c :: s)) :
    k.parseIntString t base (c :: s) = .ok (ref t base (baseLoopW base) (c :: s) c s) := by
  have hloop : ∀ u : List Nat, u <:+ c :: s → baseLoopW base (if base = 10 then k.loopEight u 0 else (u, 0)).1 (if base = 10 then k.loopEight u 0 else (u, 0)).2 =
      baseLoopW base u 0 := by
    intro u hu
    by_cases h : base = 10
    · rw [if_pos h, h]
      exact wide_loops k u 0 (fun c hc => hr c (hu.subset hc))
    · rw [if_neg h]
  unfold Cfg.parseIntString ref
  dsimp only
  split
  · rfl
  · have hs : skipZeroDigits (if (c == 45) = true then s else c :: s) <:+ c :: s := (skipZero_suffix _).trans (by
      split
      · exact List.suffix_cons _ _
      · exact List.suffix_refl _)
    have := hloop _ hs
    generalize hu : skipZeroDigits (if (c == 45) = true then s else c :: s) = u at *
    rw [this]
    by_cases h : u.length - (baseLoopW base u 0).1.length = 0
    · rw [if_pos h, if_pos h]
      simp only [decide_eq_true_eq]
    · rw [if_neg h, if_neg h]

theorem narrow_ref (t : ITy) (base : Nat) (c : Nat) (s : List Nat) (hb : ∀ x ∈ c :: s, x < 256) :
    parseIntString t base (c :: s) = .ok (ref t base (baseLoop base) (c :: s) c s) := by
  have hloop : ∀ u : List Nat, u <:+ c :: s → baseLoop base (if base = 10 then loopParseIfEightDigits u 0 else (u, 0)).1
      (if base = 10 then loopParseIfEightDigits u 0 else (u, 0)).2 = baseLoop base u 0 := by
    intro u hu
    by_cases h : base = 10
    · rw [if_pos h, h]
      exact narrow_loops u 0 (fun c hc => hb c (hu.subset hc))
    · rw [if_neg h]
  unfold parseIntString ref
  dsimp only
  split
  · rfl
  · have hs : skipZeroDigits (if (c == 45) = true then s else c :: s) <:+ c :: s := (skipZero_suffix _).trans (by
      split
      · exact List.suffix_cons _ _
      · exact List.suffix_refl _)
    have := hloop _ hs
    generalize hu : skipZeroDigits (if (c == 45) = true then s else c :: s) = u at *
    rw [this]
    by_cases h : u.length - (baseLoop base u 0).1.length = 0
    · rw [if_pos h, if_pos h]
      simp only [decide_eq_true_eq]
    · rw [if_neg h, if_neg h]

/-- The same, but for the text that is left. -/
def mapPtr (g : Nat → Nat) (r : IntResult) : IntResult := ⟨r.ec, r.ptr.map g, r.value⟩

theorem intStore_map (t : ITy) (base : Nat) (neg : Bool) (n i : Nat) (p : List Nat) : intStore t base neg n i (p.map g) = mapPtr g (intStore t base neg n i p) := by
  unfold intStore
  repeat' split
  all_goals rfl

theorem intStore_ptr (t : ITy) (base : Nat) (neg : Bool) (n i : Nat) (p : List Nat) : (intStore t base neg n i p).ptr = p := by
  unfold intStore
  repeat' split
  all_goals rfl

theorem ref_map (t : ITy) (base : Nat) (c : Nat) (s : List Nat) (h : ∀ x ∈ c :: s, Alike x (g x)) (hb : ∀ x ∈ c :: s, g x < 256) (hl : LowBytes (c :: s)) :
    ref t base (baseLoop base) (g c :: s.map g) (g c) (s.map g) = mapPtr g (ref t base (baseLoopW base) (c :: s) c s) ∧
      (ref t base (baseLoopW base) (c :: s) c s).ptr <:+ c :: s := by
  have h45 : (g c == 45) = (c == 45) := by
    rw [Bool.eq_iff_iff, beq_iff_eq, beq_iff_eq]
    rcases h c (by simp) with h | ⟨h1, h2⟩
    · rw [h]
    · unfold Other IsPoint IsDigit at h1 h2
      omega
  unfold ref
  rw [h45]
  dsimp only
  split
  · exact ⟨rfl, List.suffix_refl _⟩
  · have hif : (if (c == 45) = true then s.map g else g c :: s.map g) = (if (c == 45) = true then s else c :: s).map g := by
      split <;> rfl
    have hs : (if (c == 45) = true then s else c :: s) <:+ c :: s := by
      split
      · exact List.suffix_cons _ _
      · exact List.suffix_refl _
    rw [hif]
    generalize (if (c == 45) = true then s else c :: s) = u at hs ⊢
    rw [skipZero_map u (fun x hx => h x (hs.subset hx))]
    have hs2 := (skipZero_suffix u).trans hs
    generalize skipZeroDigits u = v at hs2 ⊢
    rw [baseLoop_map base v (fun x hx => h x (hs2.subset hx)) (fun x hx => hb x (hs2.subset hx)) (fun x hx => hl x (hs2.subset hx))]
    have hs3 := (baseLoop_suffix base v 0).trans hs2
    generalize baseLoopW base v 0 = q at hs3 ⊢
    simp only [List.length_map]
    split
    · split
      · exact ⟨rfl, hs3⟩
      · exact ⟨rfl, List.suffix_refl _⟩
    · rw [intStore_map, intStore_ptr]
      exact ⟨rfl, hs3⟩

end WdInt

open WdInt in
/-- **C148**, the part that holds: whatever the character type, the SIMD instructions and the byte order, an integer in a text of wide characters is read as in
the text of narrow characters that has the same characters, or characters that cannot be a part of a number for those that cannot either.  Missing: texts with
wide characters whose low byte is a digit or a letter (false, see `C148_refuted`). -/
theorem C148_same_partial (k : Cfg) (t : ITy) (base : Int) (g : Nat → Nat) (s : List Nat) (hr : k.uc.InRange s) (hg : ∀ c ∈ s, g c = c ∨ (Other c ∧ Other (g c)))
    (hb : ∀ c ∈ s, g c < 256) (hl : ∀ c ∈ s, 256 ≤ c → digit36 (c % 256) = none) :
    ∃ r r', k.intFromChars t base s = .ok r ∧ intFromChars t base (s.map g) = .ok r' ∧ r.ec = r'.ec ∧ r.value = r'.value ∧
      r.ptr = s.drop (s.length - r'.ptr.length) := by
  unfold Cfg.intFromChars intFromChars
  simp only [show (s.map g = [] ∨ base < 2 ∨ base > 36) ↔ (s = [] ∨ base < 2 ∨ base > 36) by simp]
  split
  · exact ⟨_, _, rfl, rfl, rfl, rfl, by simp⟩
  · cases s with
    | nil => rename_i h; exact absurd (Or.inl rfl) h
    | cons c s =>
      rw [List.map_cons, wide_ref k t base.toNat c s hr, narrow_ref t base.toNat (g c) (s.map g) (by
        intro x hx
        rw [← List.map_cons, List.mem_map] at hx
        obtain ⟨y, hy, rfl⟩ := hx
        exact hb y hy)]
      obtain ⟨h1, h2⟩ := ref_map t base.toNat c s hg hb hl
      refine ⟨_, _, rfl, rfl, ?_⟩
      rw [h1]
      refine ⟨rfl, rfl, ?_⟩
      unfold mapPtr
      dsimp only
      rw [List.length_map]
      exact Wd.suffix_drop h2

/-- A case of `C148_same_partial`: nine digits and a euro sign, in UTF-16. -/
example (t : ITy) := C148_same_partial ⟨.char16, .neon, false⟩ t 10 (fun c => if 256 ≤ c then 63 else c) (S "-00123456789" ++ [0x20AC])
  (by unfold Uc.InRange; decide) (by unfold Other IsPoint IsDigit; decide) (by decide) (by decide)

/-- What is read in this case. -/
example : (⟨.char16, .neon, false⟩ : Cfg).intFromChars ⟨.w32, true⟩ 10 (S "-00123456789" ++ [0x20AC]) = .ok ⟨.ok, [0x20AC], some (-123456789)⟩ := by decide +kernel

/-- **C148** for texts that have no wide characters: the result is the same for all character types, SIMD instructions and byte orders. -/
theorem C148_latin1 (k : Cfg) (t : ITy) (base : Int) (s : List Nat) (hb : ∀ c ∈ s, c < 256) : k.intFromChars t base s = intFromChars t base s := by
  have hr : k.uc.InRange s := by
    intro c hc
    have := hb c hc
    cases k.uc <;> simp only [Uc.bytes] <;> omega
  cases s with
  | nil => simp [Cfg.intFromChars, intFromChars]
  | cons c s =>
    have h := (WdInt.ref_map (g := id) t base.toNat c s (fun x _ => Or.inl rfl) hb (fun x hx h => absurd (hb x hx) (by omega))).1
    rw [List.map_id] at h
    unfold Cfg.intFromChars intFromChars
    rw [WdInt.wide_ref k t base.toNat c s hr, WdInt.narrow_ref t base.toNat c s hb]
    split
    · rfl
    · rw [show WdInt.ref t base.toNat (baseLoop base.toNat) (c :: s) c s = _ from h]
      unfold WdInt.mapPtr
      rw [List.map_id]

/-- A case of `C148_latin1`. -/
example (t : ITy) := C148_latin1 ⟨.char32, .none, true⟩ t 16 (S "-00ffx") (by decide)

/-- **C148 is false** in general: the dotless i, U+0131, is read as the digit 1, though no text with a character that is not a digit in its place is. -/
theorem C148_refuted : ¬ ∀ (k : Cfg) (t : ITy) (base : Int) (g : Nat → Nat) (s : List Nat), k.uc.InRange s → (∀ c ∈ s, g c = c ∨ (Other c ∧ Other (g c))) →
    (∀ c ∈ s, g c < 256) → ∃ r r', k.intFromChars t base s = .ok r ∧ intFromChars t base (s.map g) = .ok r' ∧ r.ec = r'.ec := by
  intro h
  obtain ⟨r, r', h1, h2, h3⟩ := h ⟨.char16, .sse2, false⟩ ⟨.w32, true⟩ 10 (fun _ => 63) [0x131] (by unfold Uc.InRange; decide)
    (by unfold Other IsPoint IsDigit; decide) (by decide)
  rw [show (⟨.char16, .sse2, false⟩ : Cfg).intFromChars ⟨.w32, true⟩ 10 [0x131] = .ok ⟨.ok, [], some 1⟩ by decide +kernel] at h1
  rw [show intFromChars ⟨.w32, true⟩ 10 ([0x131].map (fun _ => 63)) = .ok ⟨.invalidArgument, [63], none⟩ by decide +kernel] at h2
  obtain rfl := Res.ok.inj h1
  obtain rfl := Res.ok.inj h2
  cases h3

end C4.FF
