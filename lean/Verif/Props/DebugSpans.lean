import Verif.Debug.Spans
import Verif.Substr.SearchLemmas
import Verif.Props.SubstrSpans
/-
Property C161: no text makes the search for a number fail an assertion.
-/
namespace C4
open Spec

theorem assertThat_pos {c : Prop} [Decidable c] (h : c) : assertThat c = .ok () := by
  unfold assertThat; rw [if_pos h]

theorem firstL_eq {s : List Nat} {n : Nat} (h : n ≤ s.length) : firstL s n = .ok n := by
  unfold firstL; rw [assertThat_pos h]; rfl

theorem subL_eq {s : List Nat} {n : Nat} (h : n ≤ s.length) : subL s n = .ok (s.drop n) := by
  unfold subL; rw [assertThat_pos h]; rfl

theorem firstL_zero {s : List Nat} : firstL s 0 = .ok 0 := firstL_eq (Nat.zero_le _)

theorem rd_lt {α} {s : List α} {i : Nat} {c : α} (h : rd s i = .ok c) : i < s.length := by
  unfold rd at h
  rcases Nat.lt_or_ge i s.length with hn | hn
  · exact hn
  · rw [List.getElem?_eq_none hn] at h
    exact absurd h (by simp)

theorem rd_bind_congr {α β} {s : List α} {i : Nat} {f g : α → Res β} (h : ∀ c, rd s i = .ok c → f c = g c) :
    (rd s i >>= f) = (rd s i >>= g) := by
  cases hr : rd s i with
  | ok c => exact h c hr
  | _ => rfl

theorem firstNonEmptySpanD_eq (s : List Nat) : firstNonEmptySpanD s = firstNonEmptySpan s := by
  unfold firstNonEmptySpanD firstNonEmptySpan
  obtain ⟨r, h1, h2⟩ := firstNotOfSet_spec s blankChars 0
  rw [h1]
  simp only [Res.ok_bind]
  cases r with
  | none => simp [firstL_zero]
  | some pos =>
    have hp : pos < s.length := h2.2.1
    simp only [subL_eq (Nat.le_of_lt hp), Res.ok_bind]
    obtain ⟨r, h3, h4⟩ := firstOfSet_spec (s.drop pos) blankChars 0
    rw [h3]
    simp only [Res.ok_bind]
    cases r with
    | none => simp
    | some q =>
      have hq : q < (s.drop pos).length := h4.2.1
      simp [firstL_eq (Nat.le_of_lt hq)]

theorem digitLoopD_eq (s : List Nat) (isDig : Nat → Bool) (skip : Nat) : digitLoopD s isDig skip = digitLoop s isDig skip := by
  unfold digitLoopD digitLoop
  congr 1
  funext i
  refine rd_bind_congr fun c hc => ?_
  have := rd_lt hc
  rw [firstL_eq (Nat.le_of_lt this), firstL_zero]
  cases isDig c <;> simp
  split <;> rfl

theorem digitSpanD_eq (s : List Nat) (isDig : Nat → Bool) (skip : Nat) : digitSpanD s isDig skip = digitSpan s isDig skip := by
  unfold digitSpanD digitSpan; rw [digitLoopD_eq]; rfl

theorem firstIntegralSpanD_eq (s : List Nat) (skip : Nat) (h0 : s ≠ []) (h : skip ≤ s.length) :
    firstIntegralSpanD s skip = firstIntegralSpan s skip := by
  have h0 : s.length ≠ 0 := by simpa using h0
  unfold firstIntegralSpanD firstIntegralSpan
  rw [assertThat_pos h0, Res.ok_bind]
  by_cases he : skip = s.length
  · rw [if_pos he, if_pos he, firstL_zero]
  · rw [if_neg he, if_neg he, assertThat_pos (by omega), Res.ok_bind]
    simp only [digitLoopD_eq, digitSpanD_eq]
    rfl

theorem firstNonEmptySpan_of (s : List Nat) : ∃ r, firstNonEmptySpan s = .ok r ∧ r.1 + r.2 ≤ s.length := by
  rcases firstNonEmptySpan_eq s with ⟨_, h⟩ | ⟨ws, ne, rest, h1, _, _, _, h⟩
  · exact ⟨_, h, by simp⟩
  · exact ⟨_, h, by rw [h1]; simp⟩

theorem rng_length {s : List Nat} {r : Rng} (h : r.1 + r.2 ≤ s.length) : (Rng.of s r).length = r.2 := by
  unfold Rng.of; simp; omega

theorem firstUintSpanD_eq (s : List Nat) : firstUintSpanD s = firstUintSpan s := by
  unfold firstUintSpanD firstUintSpan
  rw [firstNonEmptySpanD_eq]
  obtain ⟨r, h, hr⟩ := firstNonEmptySpan_of s
  rw [h]; simp only [Res.ok_bind]
  have hl := rng_length hr
  split
  · rfl
  · refine rd_bind_congr fun c hc => ?_
    split
    · rw [firstL_zero]; rfl
    · rw [firstIntegralSpanD_eq _ _ (by intro h; rw [h] at hl; simp at hl; omega) (by split <;> omega)]

theorem firstIntSpanD_eq (s : List Nat) : firstIntSpanD s = firstIntSpan s := by
  unfold firstIntSpanD firstIntSpan
  rw [firstNonEmptySpanD_eq]
  obtain ⟨r, h, hr⟩ := firstNonEmptySpan_of s
  rw [h]; simp only [Res.ok_bind]
  have hl := rng_length hr
  split
  · rfl
  · refine rd_bind_congr fun c hc => ?_
    rw [firstIntegralSpanD_eq _ _ (by intro h; rw [h] at hl; simp at hl; omega) (by split <;> omega)]

/-- What is known of how the loops over the digits end. -/
def PartOk (s : List Nat) (isPow : Nat → Bool) : PartEnd → Prop
  | .dot p _ => 0 < p ∧ p ≤ s.length ∧ rd s (p - 1) = .ok 46
  | .pow p _ => 0 < p ∧ p ≤ s.length ∧ ∃ c, rd s (p - 1) = .ok c ∧ isPow c = true
  | .delim p _ => p < s.length
  | _ => True

theorem intPart_ok (s : List Nat) (isDig isPow : Nat → Bool) : ∀ n pos seen e, intPart s isDig isPow n pos seen = .ok e → PartOk s isPow e := by
  intro n
  induction n with
  | zero => intro pos seen e h; simp [intPart] at h; subst h; trivial
  | succ n ih =>
    intro pos seen e h
    rw [intPart] at h
    cases hr : rd s pos with
    | ok c =>
      have := rd_lt hr
      rw [hr, Res.ok_bind] at h
      split at h
      · exact ih _ _ _ h
      · split at h
        · rename_i h46
          injection h with h; subst h
          exact ⟨by omega, by omega, by rw [Nat.add_sub_cancel, hr, h46]⟩
        · split at h
          · rename_i hp
            injection h with h; subst h
            exact ⟨by omega, by omega, c, by rw [Nat.add_sub_cancel, hr], hp⟩
          · split at h
            · injection h with h; subst h; exact this
            · injection h with h; subst h; trivial
    | _ => rw [hr] at h; exact absurd h (by simp)

theorem fracPart_ok (s : List Nat) (isDig isPow : Nat → Bool) : ∀ n pos seen e, fracPart s isDig isPow n pos seen = .ok e → PartOk s isPow e := by
  intro n
  induction n with
  | zero => intro pos seen e h; simp [fracPart] at h; subst h; trivial
  | succ n ih =>
    intro pos seen e h
    rw [fracPart] at h
    cases hr : rd s pos with
    | ok c =>
      have := rd_lt hr
      rw [hr, Res.ok_bind] at h
      split at h
      · exact ih _ _ _ h
      · split at h
        · rename_i hp
          injection h with h; subst h
          exact ⟨by omega, by omega, c, by rw [Nat.add_sub_cancel, hr], hp⟩
        · split at h
          · injection h with h; subst h; exact this
          · injection h with h; subst h; trivial
    | _ => rw [hr] at h; exact absurd h (by simp)

theorem powDigits_ok (s : List Nat) : ∀ n pos seen r, powDigits s n pos seen = .ok r → ∀ k, r.1 = some k → k ≤ s.length := by
  intro n
  induction n with
  | zero => intro pos seen r h k hk; simp [powDigits] at h; subst h; simp at hk
  | succ n ih =>
    intro pos seen r h k hk
    rw [powDigits] at h
    cases hr : rd s pos with
    | ok c =>
      have := rd_lt hr
      rw [hr, Res.ok_bind] at h
      split at h
      · exact ih _ _ _ h k hk
      · split at h
        · injection h with h; subst h; simp at hk; omega
        · injection h with h; subst h; simp at hk; omega
    | _ => rw [hr] at h; exact absurd h (by simp)

theorem bind_congr_ok {α β} {x : Res α} {f g : α → Res β} (h : ∀ a, x = .ok a → f a = g a) : (x >>= f) = (x >>= g) := by
  cases x with
  | ok a => exact h a rfl
  | _ => rfl

theorem powDecD_eq (s : List Nat) (p : Nat) (digs : Bool) (h : 0 < p ∧ p ≤ s.length ∧ ∃ c, rd s (p - 1) = .ok c ∧ isEC c = true) :
    powDecD s p digs = powDec s p digs := by
  obtain ⟨h1, h2, c, h3, h4⟩ := h
  unfold powDecD powDec
  rw [assertThat_pos h1, Res.ok_bind, h3, Res.ok_bind, assertThat_pos (by simpa [isEC] using h4), Res.ok_bind]
  split
  · rw [firstL_zero]
  · refine rd_bind_congr fun c hc => ?_
    refine bind_congr_ok fun r hr => ?_
    cases hk : r.1 with
    | some k => exact firstL_eq (powDigits_ok _ _ _ _ _ hr k hk)
    | none => simp only [firstL_zero]; split <;> rfl

theorem powHexD_eq (s : List Nat) (p : Nat) (digs : Bool) (h : 0 < p ∧ p ≤ s.length ∧ ∃ c, rd s (p - 1) = .ok c ∧ isPC c = true) :
    powHexD s p digs = powHex s p digs := by
  obtain ⟨h1, h2, c, h3, h4⟩ := h
  unfold powHexD powHex
  rw [assertThat_pos h1, Res.ok_bind, h3, Res.ok_bind, assertThat_pos (by simpa [isPC] using h4), Res.ok_bind]
  split
  · rw [firstL_zero]
  · refine rd_bind_congr fun c hc => ?_
    split
    · rw [firstL_zero]
    · refine bind_congr_ok fun r hr => ?_
      cases hk : r.1 with
      | some k => exact firstL_eq (powDigits_ok _ _ _ _ _ hr k hk)
      | none => rfl

theorem realSpanGenD_eq (s : List Nat) (isDig isPow : Nat → Bool) (pow powD : Nat → Bool → Res Nat) (pos : Nat)
    (hp : ∀ p digs, (0 < p ∧ p ≤ s.length ∧ ∃ c, rd s (p - 1) = .ok c ∧ isPow c = true) → powD p digs = pow p digs) :
    realSpanGenD s isDig isPow powD pos = realSpanGen s isDig isPow pow pos := by
  unfold realSpanGenD realSpanGen
  refine bind_congr_ok fun e he => ?_
  have hok := intPart_ok _ _ _ _ _ _ _ he
  cases e with
  | eos i => simp only [firstL_zero]; split <;> rfl
  | bad => exact firstL_zero
  | pow p i => exact hp _ _ hok
  | delim p i => simp only [firstL_zero, firstL_eq (Nat.le_of_lt hok)]; split <;> rfl
  | dot p i =>
    obtain ⟨h1, h2, h3⟩ := hok
    show afterFracD _ _ _ _ _ _ = afterFrac _ _ _ _ _ _
    unfold afterFracD afterFrac
    rw [assertThat_pos h1, Res.ok_bind, h3, Res.ok_bind, assertThat_pos rfl, Res.ok_bind]
    refine bind_congr_ok fun e he => ?_
    have hok := fracPart_ok _ _ _ _ _ _ _ he
    cases e with
    | eos i => simp only [firstL_zero]; split <;> rfl
    | bad => exact firstL_zero
    | dot p i => exact firstL_zero
    | pow p i => exact hp _ _ hok
    | delim p i => simp only [firstL_zero, firstL_eq (Nat.le_of_lt hok)]; split <;> rfl

theorem wordFollowsD_eq (s : List Nat) (pos : Nat) (word : List Nat) : wordFollowsD s pos word = wordFollows s pos word := by
  unfold wordFollowsD wordFollows
  by_cases h : s.length ≥ pos + word.length
  · rw [if_pos h, assertThat_pos (by omega), Res.ok_bind, assertThat_pos (by omega), Res.ok_bind, assertThat_pos (Or.inl h), Res.ok_bind]
    simp only [h, true_and, firstL_zero, firstL_eq h]
    split
    · split
      · rfl
      · refine rd_bind_congr fun c _ => ?_
        split <;> rfl
    · rfl
  · rw [if_neg h, if_neg (by simp [h]), firstL_zero]

theorem realSpanNeD_eq (s : List Nat) : realSpanNeD s = realSpanNe s := by
  unfold realSpanNeD realSpanNe realSpanDecD realSpanHexD realSpanBinD realSpanOctD realSpanDec realSpanHex realSpanBin realSpanOct
  refine rd_bind_congr fun c _ => ?_
  have : assertThat ((if c = 43 ∨ c = 45 then 1 else 0) = 0 ∨ (if c = 43 ∨ c = 45 then 1 else 0) = 1) = .ok () :=
    assertThat_pos (by split <;> simp)
  simp only [this, Res.ok_bind, wordFollowsD_eq]
  have e1 := fun pos => realSpanGenD_eq s isDecC isEC (powDec s) (powDecD s) pos (powDecD_eq s)
  have e2 := fun d pos => realSpanGenD_eq s d isPC (powHex s) (powHexD s) pos (powHexD_eq s)
  simp only [e1, e2]

theorem firstRealSpanD_eq (s : List Nat) : firstRealSpanD s = firstRealSpan s := by
  unfold firstRealSpanD firstRealSpan
  rw [firstNonEmptySpanD_eq]
  obtain ⟨r, h, hr⟩ := firstNonEmptySpan_of s
  rw [h]; simp only [Res.ok_bind]
  split
  · rfl
  · rw [realSpanNeD_eq]

/-- **C161**: no assertion fails in the search for the first word, whatever the text. -/
theorem C161_word (s : List Nat) : ∃ r, firstNonEmptySpanD s = .ok r ∧ firstNonEmptySpan s = .ok r ∧ r.1 + r.2 ≤ s.length := by
  obtain ⟨r, h, hr⟩ := firstNonEmptySpan_of s
  exact ⟨r, by rw [firstNonEmptySpanD_eq, h], h, hr⟩

/-- **C161**: no assertion fails in the search for an unsigned integer, whatever the text; the result is the token. -/
theorem C161_uint (s : List Nat) : ∃ r, firstUintSpanD s = .ok r ∧ r.1 + r.2 ≤ s.length ∧
    (∀ off n, TokenAt (IntToken false) s off n → r = (off, n)) ∧ (r.2 ≠ 0 → TokenAt (IntToken false) s r.1 r.2) := by
  rw [firstUintSpanD_eq]; exact firstUintSpan_contract s

/-- **C161**: no assertion fails in the search for an integer, whatever the text; the result is the token. -/
theorem C161_int (s : List Nat) : ∃ r, firstIntSpanD s = .ok r ∧ r.1 + r.2 ≤ s.length ∧
    (∀ off n, TokenAt (IntToken true) s off n → r = (off, n)) ∧ (r.2 ≠ 0 → TokenAt (IntToken true) s r.1 r.2) := by
  rw [firstIntSpanD_eq]; exact firstIntSpan_contract s

/-- **C161**: no assertion fails in the search for a real number, whatever the text; the result is the token. -/
theorem C161_real (s : List Nat) : ∃ r, firstRealSpanD s = .ok r ∧ r.1 + r.2 ≤ s.length ∧
    (∀ off n, TokenAt RealToken s off n → r = (off, n)) ∧ (r.2 ≠ 0 → TokenAt RealToken s r.1 r.2) := by
  rw [firstRealSpanD_eq]; exact firstRealSpan_contract s

example : firstRealSpanD (S " 0x1.8p+3,") = .ok (1, 8) ∧ firstRealSpanD (S "+infinity]") = .ok (0, 9) ∧
    firstRealSpanD (S "1.5e") = .ok (0, 0) ∧ firstIntSpanD (S "+") = .ok (0, 0) ∧ firstUintSpanD (S " -3") = .ok (0, 0) := by decide +kernel

end C4
