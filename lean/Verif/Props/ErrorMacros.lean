import Verif.ErrorMacros
import Verif.Props.Error
/-
Properties C169 and C170: what failed checks report, and the messages of the library's own checks.
-/
namespace C4
open Spec Err

/-- Specification: `t` is the string in memory `m`. -/
def Spec.StringAt (m t : List Nat) : Prop := 0 ∉ t ∧ ∃ r, m = t ++ 0 :: r

/-- Specification: `t` are the first `n` characters of the string in memory `m`, or all of it. -/
def Spec.FirstOf (n : Nat) (m t : List Nat) : Prop := 0 ∉ t ∧ ((t.length = n ∧ t <+: m) ∨ (t.length < n ∧ ∃ r, m = t ++ 0 :: r))

/-- Specification: an integer in decimal. -/
def Spec.SignedText (v : Int) (t : List Nat) : Prop := (0 ≤ v ∧ t = numeralText 10 v.toNat) ∨ (v < 0 ∧ t = 45 :: numeralText 10 (-v).toNat)

/-- Specification: the text of a format and arguments. -/
inductive Spec.Formats : List Nat → List PfArg → List Nat → Prop
  | done {as} : Formats [] as []
  /-- other characters than % -/
  | char {c f as o} : c ≠ 37 → Formats f as o → Formats (c :: f) as (c :: o)
  /-- %% -/
  | percent {f as o} : Formats f as o → Formats (37 :: 37 :: f) as (37 :: o)
  /-- %s -/
  | string {f as o m t} : StringAt m t → Formats f as o → Formats (37 :: 115 :: f) (.str m :: as) (t ++ o)
  /-- %d -/
  | int {f as o v t} : SignedText v t → Formats f as o → Formats (37 :: 100 :: f) (.int v :: as) (t ++ o)
  /-- %c -/
  | chr {f as o v} {c : Nat} : c < 256 → (256 : Int) ∣ v - c → Formats f as o → Formats (37 :: 99 :: f) (.int v :: as) (c :: o)
  /-- %zu -/
  | size {f as o v} : Formats f as o → Formats (37 :: 122 :: 117 :: f) (.size v :: as) (numeralText 10 v ++ o)
  /-- %lu -/
  | long {f as o v} : Formats f as o → Formats (37 :: 108 :: 117 :: f) (.size v :: as) (numeralText 10 v ++ o)
  /-- %zd -/
  | diff {f as o v t} : SignedText v t → Formats f as o → Formats (37 :: 122 :: 100 :: f) (.diff v :: as) (t ++ o)
  /-- %.*s -/
  | first {f as o n m t} : FirstOf n m t → Formats f as o → Formats (37 :: 46 :: 42 :: 115 :: f) (.int (n : Nat) :: .str m :: as) (t ++ o)
  /-- %.*s with a negative number -/
  | negative {f as o n m t} : n < 0 → StringAt m t → Formats f as o → Formats (37 :: 46 :: 42 :: 115 :: f) (.int n :: .str m :: as) (t ++ o)

theorem pf_bind {α β : Type} {x : Res α} {g : α → Res β} {b : β} (h : (x >>= g) = .ok b) : ∃ a, x = .ok a ∧ g a = .ok b := by
  cases x with
  | ok a => exact ⟨a, rfl, h⟩
  | ub => cases h
  | abort => cases h
  | loop => cases h

theorem pfString_eq {m t : List Nat} (h : StringAt m t) : pfString m = .ok t := by
  obtain ⟨hz, r, rfl⟩ := h
  induction t with
  | nil => rfl
  | cons c t ih =>
    have hc : c ≠ 0 := fun h => hz (h ▸ List.mem_cons_self)
    simp only [List.cons_append, pfString, if_neg hc, ih (fun h => hz (List.mem_cons_of_mem _ h)), Res.ok_bind]

theorem pfString_at : ∀ {m t : List Nat}, pfString m = .ok t → StringAt m t := by
  intro m
  induction m with
  | nil => intro t h; cases h
  | cons c m ih =>
    intro t h
    unfold pfString at h
    split at h
    · next hc =>
      cases h
      exact ⟨by simp, m, by rw [hc]; rfl⟩
    · next hc =>
      obtain ⟨a, h1, h2⟩ := pf_bind h
      cases h2
      obtain ⟨hz, r, rfl⟩ := ih h1
      exact ⟨by simp [hz, Ne.symm hc], r, rfl⟩

theorem pfUpTo_eq : ∀ {n : Nat} {m t : List Nat}, FirstOf n m t → pfUpTo n m = .ok t := by
  intro n
  induction n with
  | zero =>
    intro m t ⟨_, h⟩
    have : t = [] := by
      rcases h with ⟨h, -⟩ | ⟨h, -⟩
      · exact List.length_eq_zero_iff.1 h
      · omega
    subst this
    rfl
  | succ n ih =>
    intro m t ⟨hz, h⟩
    cases t with
    | nil =>
      rcases h with ⟨h, -⟩ | ⟨-, r, rfl⟩
      · simp at h
      · rfl
    | cons c t =>
      have hc : c ≠ 0 := fun h => hz (h ▸ List.mem_cons_self)
      have hz' : 0 ∉ t := fun h => hz (List.mem_cons_of_mem _ h)
      rcases h with ⟨h, r, rfl⟩ | ⟨h, r, rfl⟩
      · have := ih (m := t ++ r) (t := t) ⟨hz', .inl ⟨by simpa using h, r, rfl⟩⟩
        simp only [List.cons_append, pfUpTo, if_neg hc, this, Res.ok_bind]
      · have := ih (m := t ++ 0 :: r) (t := t) ⟨hz', .inr ⟨by simpa using h, r, rfl⟩⟩
        simp only [List.cons_append, pfUpTo, if_neg hc, this, Res.ok_bind]

theorem pfUpTo_first : ∀ {n : Nat} {m t : List Nat}, pfUpTo n m = .ok t → FirstOf n m t := by
  intro n
  induction n with
  | zero =>
    intro m t h
    cases h
    exact ⟨by simp, .inl ⟨rfl, List.nil_prefix⟩⟩
  | succ n ih =>
    intro m t h
    cases m with
    | nil => cases h
    | cons c m =>
      unfold pfUpTo at h
      split at h
      · next hc =>
        cases h
        exact ⟨by simp, .inr ⟨by simp, m, by rw [hc]; rfl⟩⟩
      · next hc =>
        obtain ⟨a, h1, h2⟩ := pf_bind h
        cases h2
        obtain ⟨hz, h3⟩ := ih h1
        clear h
        refine ⟨by simp [hz, Ne.symm hc], ?_⟩
        rcases h3 with ⟨h, r, rfl⟩ | ⟨h, r, rfl⟩
        · exact .inl ⟨by simpa using h, r, rfl⟩
        · exact .inr ⟨by simpa using h, r, rfl⟩

theorem pfInt_iff (v : Int) (t : List Nat) : SignedText v t ↔ t = pfInt v := by
  unfold SignedText pfInt
  by_cases h : v < 0
  · rw [if_pos h, show v.natAbs = (-v).toNat by omega]
    constructor
    · rintro (⟨h', -⟩ | ⟨-, h'⟩)
      · omega
      · exact h'
    · exact fun h' => .inr ⟨h, h'⟩
  · rw [if_neg h, show v.natAbs = v.toNat by omega]
    constructor
    · rintro (⟨-, h'⟩ | ⟨h', -⟩)
      · exact h'
      · omega
    · exact fun h' => .inl ⟨by omega, h'⟩

theorem pf_cons {c : Nat} (hc : c ≠ 37) (f : List Nat) (as : List PfArg) : pf (c :: f) as = (pf f as).bind fun o => .ok (c :: o) := by
  conv => lhs; unfold pf
  rw [if_pos hc]
  rfl

theorem pf_formats {f : List Nat} {as : List PfArg} {o : List Nat} (h : Formats f as o) : pf f as = .ok o := by
  induction h with
  | done => rfl
  | char hc _ ih =>
    unfold pf
    rw [if_pos hc, ih]
    rfl
  | percent _ ih => simp [pf, ih]
  | string hm _ ih => simp [pf, ih, pfString_eq hm]
  | int ht _ ih => rw [(pfInt_iff _ _).1 ht]; simp [pf, ih]
  | @chr f as o v c h1 h2 _ ih =>
    have : (v % 256).toNat = c := by omega
    simp [pf, ih, this]
  | size _ ih => simp [pf, ih]
  | long _ ih => simp [pf, ih]
  | diff ht _ ih => rw [(pfInt_iff _ _).1 ht]; simp [pf, ih]
  | @first f as o n m t hf _ ih =>
    have : ¬ (n : Int) < 0 := by omega
    simp [pf, ih, this, pfUpTo_eq hf]
  | negative hn hm _ ih => simp [pf, ih, hn, pfString_eq hm]

theorem Spec.Formats.lit {a f : List Nat} {as : List PfArg} {o : List Nat} (ha : 37 ∉ a) (h : Formats f as o) : Formats (a ++ f) as (a ++ o) := by
  induction a with
  | nil => exact h
  | cons c a ih => exact .char (fun hc => ha (hc ▸ List.mem_cons_self)) (ih fun h => ha (List.mem_cons_of_mem _ h))

/-- A text without conversions. -/
theorem Spec.Formats.plain {a : List Nat} {as : List PfArg} (ha : 37 ∉ a) : Formats a as a := by
  have := Formats.lit (as := as) ha .done
  rwa [List.append_nil] at this

/-- The other direction: what `vsnprintf` gives is a text of the format. -/
theorem formats_pf : ∀ (n : Nat) (f : List Nat) (as : List PfArg) (o : List Nat), f.length ≤ n → pf f as = .ok o → Formats f as o := by
  intro n
  induction n with
  | zero =>
    intro f as o hf h
    have : f = [] := List.length_eq_zero_iff.1 (by omega)
    subst this
    cases h
    exact .done
  | succ n ih =>
    intro f as o hf h
    cases f with
    | nil => cases h; exact .done
    | cons c f =>
      unfold pf at h
      split at h
      · next hc =>
        obtain ⟨a, h1, h2⟩ := pf_bind h
        cases h2
        exact .char hc (ih _ _ _ (by simpa using hf) h1)
      · next hc =>
        have hc : c = 37 := by omega
        subst hc
        split at h
        · obtain ⟨a, h1, h2⟩ := pf_bind h
          cases h2
          exact .percent (ih _ _ _ (by simp at hf; omega) h1)
        · obtain ⟨t, h0, h⟩ := pf_bind h
          obtain ⟨a, h1, h2⟩ := pf_bind h
          cases h2
          exact .string (pfString_at h0) (ih _ _ _ (by simp at hf; omega) h1)
        · obtain ⟨a, h1, h2⟩ := pf_bind h
          cases h2
          exact .int ((pfInt_iff _ _).2 rfl) (ih _ _ _ (by simp at hf; omega) h1)
        · obtain ⟨a, h1, h2⟩ := pf_bind h
          cases h2
          exact .chr (by omega) (by omega) (ih _ _ _ (by simp at hf; omega) h1)
        · obtain ⟨a, h1, h2⟩ := pf_bind h
          cases h2
          exact .size (ih _ _ _ (by simp at hf; omega) h1)
        · obtain ⟨a, h1, h2⟩ := pf_bind h
          cases h2
          exact .long (ih _ _ _ (by simp at hf; omega) h1)
        · obtain ⟨a, h1, h2⟩ := pf_bind h
          cases h2
          exact .diff ((pfInt_iff _ _).2 rfl) (ih _ _ _ (by simp at hf; omega) h1)
        · next k m as =>
          dsimp only at h
          split at h
          · next hn =>
            obtain ⟨t, h0, h⟩ := pf_bind h
            obtain ⟨a, h1, h2⟩ := pf_bind h
            cases h2
            exact .negative hn (pfString_at h0) (ih _ _ _ (by simp at hf; omega) h1)
          · next hn =>
            obtain ⟨t, h0, h⟩ := pf_bind h
            obtain ⟨a, h1, h2⟩ := pf_bind h
            cases h2
            obtain ⟨j, rfl⟩ : ∃ j : Nat, k = j := ⟨k.toNat, by omega⟩
            exact .first (pfUpTo_first h0) (ih _ _ _ (by simp at hf; omega) h1)
        · cases h

/-! ### C169 -/

theorem has_break (s : Settings) : has s ON_ERROR_DEBUGBREAK = s.flags.testBit 0 := has_bit s 0

theorem cError_eq (b : Build) (attached : Bool) (cbs : Nat → Callback) (loc : Where) {fmt : List Nat} {as : List PfArg} {t : List Nat} (s : Settings)
    (h : s.flags.testBit 1 = true ∨ s.flags.testBit 2 = true) (ht : Formats fmt as t) :
    ∃ r, handleError b.throws cbs loc (some t) s = .ok r ∧ cError b attached cbs loc fmt as s = .ok (s.flags.testBit 0 && b.breaks && attached, r) := by
  have h0 := handleError_eq b.throws cbs loc t s h
  refine ⟨_, h0, ?_⟩
  have he : (s.flags.testBit 1 || s.flags.testBit 2) = true := by simpa using h
  unfold cError
  rw [has_either, he, if_pos rfl, pf_formats ht]
  simp only [Res.ok_bind, has_break, h0]

/-- **C169**: a check that holds does nothing; one that fails reports "check failed: " and the condition as it is spelled (as C125 says errors are reported), after a
breakpoint if the flag for this is set, breakpoints are compiled in, and a debugger is attached. -/
theorem C169_check (b : Build) (attached : Bool) (cbs : Nat → Callback) (loc : Where) (cond : List Nat) (hc : 0 ∉ cond) (s : Settings) (h : s.flags.testBit 1 = true ∨ s.flags.testBit 2 = true) :
    cCheck b attached cbs loc cond true s = .ok none ∧
    ∃ r, handleError b.throws cbs loc (some (S "check failed: " ++ cond)) s = .ok r ∧
      cCheck b attached cbs loc cond false s = .ok (some (s.flags.testBit 0 && b.breaks && attached, r)) := by
  refine ⟨rfl, ?_⟩
  have hf : Formats (S "check failed: %s") [.str (cond ++ [0])] (S "check failed: " ++ cond) := by
    have := Formats.lit (a := S "check failed: ") (by decide) (Formats.string (f := []) (as := []) (m := cond ++ [0]) (t := cond) ⟨hc, [], rfl⟩ .done)
    rwa [List.append_nil] at this
  obtain ⟨r, h1, h2⟩ := cError_eq b attached cbs loc s h hf
  refine ⟨r, h1, ?_⟩
  unfold cCheck
  rw [if_pos (by decide), h2]
  rfl

/-- **C169**, as far as it holds: with a message, the condition and the message with its arguments are reported, if there is no % in the condition.
Missing: conditions with %; see `C169_refuted`. -/
theorem C169_message_partial (b : Build) (attached : Bool) (cbs : Nat → Callback) (loc : Where) (cond : List Nat) (hc : 37 ∉ cond) (fmt : List Nat) (as : List PfArg) (t : List Nat)
    (ht : Formats fmt as t) (s : Settings) (h : s.flags.testBit 1 = true ∨ s.flags.testBit 2 = true) :
    cCheckMsg b attached cbs loc cond true fmt as s = .ok none ∧
    ∃ r, handleError b.throws cbs loc (some (S "check failed: " ++ cond ++ [10] ++ t)) s = .ok r ∧
      cCheckMsg b attached cbs loc cond false fmt as s = .ok (some (s.flags.testBit 0 && b.breaks && attached, r)) := by
  refine ⟨rfl, ?_⟩
  have hf : Formats (S "check failed: " ++ cond ++ [10] ++ fmt) as (S "check failed: " ++ cond ++ [10] ++ t) := by
    refine Formats.lit ?_ ht
    rw [List.mem_append, List.mem_append]
    rintro ((h | h) | h)
    · exact absurd h (by decide)
    · exact hc h
    · exact absurd h (by decide)
  obtain ⟨r, h1, h2⟩ := cError_eq b attached cbs loc s h hf
  refine ⟨r, h1, ?_⟩
  unfold cCheckMsg
  rw [if_pos (by decide), h2]
  rfl

/-- Neither logging nor the callback nor exceptions: a failed check only aborts, whatever its message. -/
theorem C169_silent (b : Build) (attached : Bool) (cbs : Nat → Callback) (loc : Where) (cond fmt : List Nat) (as : List PfArg) (s : Settings) (h1 : s.flags.testBit 1 = false)
    (h2 : s.flags.testBit 2 = false) (h4 : s.flags.testBit 4 = false ∨ b.throws = false) :
    cCheck b attached cbs loc cond false s = .ok (some (s.flags.testBit 0 && b.breaks && attached, [], s, .aborted)) ∧
    cCheckMsg b attached cbs loc cond false fmt as s = .ok (some (s.flags.testBit 0 && b.breaks && attached, [], s, .aborted)) := by
  have key : ∀ fmt as, cError b attached cbs loc fmt as s = .ok (s.flags.testBit 0 && b.breaks && attached, [], s, .aborted) := by
    intro fmt as
    have he : (s.flags.testBit 1 || s.flags.testBit 2) = false := by rw [h1, h2]; rfl
    unfold cError
    rw [has_either, he, if_neg (by simp)]
    simp only [Res.ok_bind, has_break, C125_silent b.throws cbs loc (some []) s h1 h2 h4]
  unfold cCheck cCheckMsg
  rw [if_pos (by decide), if_pos (by decide), key, key]
  exact ⟨rfl, rfl⟩

/-- Assertions are checks if they are enabled, and nothing otherwise. -/
theorem C169_assert (b : Build) (attached : Bool) (cbs : Nat → Callback) (loc : Where) (cond : List Nat) (v : Bool) (s : Settings) :
    cAssert true b attached cbs loc cond v s = cCheck b attached cbs loc cond v s ∧ cAssert false b attached cbs loc cond v s = .ok none := ⟨rfl, rfl⟩

/-- **C169** fails: the condition of C4_CHECK_MSG becomes part of the format.  In `C4_CHECK_MSG(n %s == 0, "bad")` it asks for an argument that is not there (undefined), and in
`C4_CHECK_MSG(n%d == 0, "d=%d e=%d", d, e)` takes that of the message. -/
theorem C169_refuted (b : Build) (attached : Bool) (cbs : Nat → Callback) (loc : Where) :
    cCheckMsg b attached cbs loc (S "n %s == 0") false (S "bad") [] ⟨ON_ERROR_DEFAULTS, none⟩ = .ub ∧
    cCheckMsg b attached cbs loc (S "n%d == 0") false (S "d=%d") [.int 3] ⟨ON_ERROR_DEFAULTS, none⟩ = .ub ∧
    pf (S "check failed: " ++ S "n%d == 0" ++ [10] ++ S "d=%d e=%d") [.int 3, .int 4, .int 5] = .ok (S "check failed: n3 == 0\nd=4 e=5") := by
  have key : ∀ cond fmt as, pf (S "check failed: " ++ cond ++ [10] ++ fmt) as = .ub → cCheckMsg b attached cbs loc cond false fmt as ⟨ON_ERROR_DEFAULTS, none⟩ = .ub := by
    intro cond fmt as h
    unfold cCheckMsg cError
    rw [if_pos (by decide), if_pos (by decide), h]
    rfl
  exact ⟨key _ _ _ (by decide +kernel), key _ _ _ (by decide +kernel), by decide +kernel⟩

example : (⟨ON_ERROR_DEFAULTS, none⟩ : Settings).flags.testBit 1 = true ∧ Formats (S "n=%d of '%.*s'") [.int (-3), .int (2 : Nat), .str (S "abc")] (S "n=-3 of 'ab'") ∧
    cCheckMsg ⟨false, true⟩ true (fun _ _ s => (s, false)) .nothing (S "n > 0") false (S "n=%d") [.int (-3)] ⟨ON_ERROR_DEFAULTS, none⟩ =
      .ok (some (true, [.log (S "\nERROR: check failed: n > 0\nn=-3\n")], ⟨ON_ERROR_DEFAULTS, none⟩, .aborted)) := by
  refine ⟨by decide, formats_pf 14 _ _ _ (by decide +kernel) (by decide +kernel), by decide +kernel⟩

/-! ### C170 -/

theorem toInt_small {n : Nat} (h : n < 2 ^ 31) : toInt n = n := by
  unfold toInt
  rw [Nat.mod_eq_of_lt (by omega), if_pos h]

theorem fmt_msgAllocate : S "check failed: mem != nullptr\n" ++ S "could not allocate %lu bytes" = S "check failed: mem != nullptr\ncould not allocate " ++ (37 :: 108 :: 117 :: (S " bytes")) := by decide +kernel
theorem fmt_msgReallocate : S "check failed: mem != nullptr\n" ++ S "could not reallocate from %lu to %lu bytes" = S "check failed: mem != nullptr\ncould not reallocate from " ++ (37 :: 108 :: 117 :: (S " to " ++ (37 :: 108 :: 117 :: (S " bytes")))) := by decide +kernel
theorem fmt_msgNoMemory : S "There was insufficient memory to fulfill the allocation request of %zu bytes (alignment=%lu)" = S "There was insufficient memory to fulfill the allocation request of " ++ (37 :: 122 :: 117 :: (S " bytes (alignment=" ++ (37 :: 108 :: 117 :: (S ")")))) := by decide +kernel
theorem fmt_msgSzconv : S "check failed: (SizeIn)sz <= (SizeIn)std::numeric_limits<SizeOut>::max()\n" ++ S "size conversion overflow: in=%zu" = S "check failed: (SizeIn)sz <= (SizeIn)std::numeric_limits<SizeOut>::max()\nsize conversion overflow: in=" ++ (37 :: 122 :: 117 :: ([])) := by decide +kernel
theorem fmt_msgEnumValue : S "check failed: p != nullptr\n" ++ S "could not find symbol=%zd" = S "check failed: p != nullptr\ncould not find symbol=" ++ (37 :: 122 :: 100 :: ([])) := by decide +kernel
theorem fmt_msgEnumName : S "check failed: p != nullptr\n" ++ S "could not find symbol \"%s\"" = S "check failed: p != nullptr\ncould not find symbol \"" ++ (37 :: 115 :: (S "\"")) := by decide +kernel
theorem fmt_msgEnumNameLen : S "check failed: p != nullptr\n" ++ S "could not find symbol \"%.*s\"" = S "check failed: p != nullptr\ncould not find symbol \"" ++ (37 :: 46 :: 42 :: 115 :: (S "\"")) := by decide +kernel
theorem fmt_msgEoffs : S "unknown offset type %d" = S "unknown offset type " ++ (37 :: 100 :: ([])) := by decide +kernel
theorem fmt_msgBmWrite : S "cannot write to string pos=%d num=%d sz=%d" = S "cannot write to string pos=" ++ (37 :: 100 :: (S " num=" ++ (37 :: 100 :: (S " sz=" ++ (37 :: 100 :: ([])))))) := by decide +kernel
theorem fmt_msgBmName : S "check failed: p != nullptr\n" ++ S "no valid enum pair name for '%.*s'" = S "check failed: p != nullptr\nno valid enum pair name for '" ++ (37 :: 46 :: 42 :: 115 :: (S "'")) := by decide +kernel
theorem fmt_msgBmNumber : S "check failed: len != csubstr::npos\n" ++ S "could not read string as an integral type: '%.*s'" = S "check failed: len != csubstr::npos\ncould not read string as an integral type: '" ++ (37 :: 46 :: 42 :: 115 :: (S "'")) := by decide +kernel
theorem fmt_msgBmChar : S "bad character '%c' in bitmask string" = S "bad character '" ++ (37 :: 99 :: (S "' in bitmask string")) := by decide +kernel

theorem pf_lit {a : List Nat} (ha : 37 ∉ a) (f : List Nat) (as : List PfArg) : pf (a ++ f) as = (pf f as).bind fun o => .ok (a ++ o) := by
  induction a with
  | nil => cases h : pf f as <;> simp [h, Res.bind]
  | cons c a ih =>
    rw [List.cons_append, pf_cons (fun hc => ha (hc ▸ List.mem_cons_self)), ih fun h => ha (List.mem_cons_of_mem _ h)]
    cases pf f as <;> rfl

theorem signed_nat (n : Nat) : SignedText (n : Nat) (numeralText 10 n) := .inl ⟨by omega, by simp⟩

/-- **C170**, as far as it holds: the messages of the library's checks name the sizes, values and texts they are about.
Missing: the alignment in the message for lack of memory, the name given to `EnumSymbols::get(s, len)`, and sizes of 2^31 and more in the messages about bitmasks; see `C170_refuted`. -/
theorem C170_partial (sz old new : Nat) (v : Int) (vt : List Nat) (hv : SignedText v vt) :
    msgAllocate sz = .ok (S "check failed: mem != nullptr\ncould not allocate " ++ numeralText 10 sz ++ S " bytes") ∧
    msgReallocate old new = .ok (S "check failed: mem != nullptr\ncould not reallocate from " ++ numeralText 10 old ++ S " to " ++ numeralText 10 new ++ S " bytes") ∧
    msgSzconv sz = .ok (S "check failed: (SizeIn)sz <= (SizeIn)std::numeric_limits<SizeOut>::max()\nsize conversion overflow: in=" ++ numeralText 10 sz) ∧
    msgEnumValue v = .ok (S "check failed: p != nullptr\ncould not find symbol=" ++ vt) ∧
    msgEoffs v = .ok (S "unknown offset type " ++ vt) := by
  refine ⟨?_, ?_, ?_, ?_, ?_⟩
  · have := pf_formats (Formats.lit (a := S "check failed: mem != nullptr\ncould not allocate ") (by decide +kernel) (.long (v := sz) (.plain (a := S " bytes") (as := []) (by decide))))
    rw [List.append_assoc]
    unfold msgAllocate
    rw [fmt_msgAllocate]
    exact this
  · have := pf_formats (Formats.lit (a := S "check failed: mem != nullptr\ncould not reallocate from ") (by decide +kernel) (.long (v := old) (.lit (a := S " to ") (by decide)
      (.long (v := new) (.plain (a := S " bytes") (as := []) (by decide))))))
    rw [List.append_assoc, List.append_assoc, List.append_assoc]
    unfold msgReallocate
    rw [fmt_msgReallocate]
    exact this
  · have := pf_formats (Formats.lit (a := S "check failed: (SizeIn)sz <= (SizeIn)std::numeric_limits<SizeOut>::max()\nsize conversion overflow: in=") (by decide +kernel) (.size (v := sz) (.done (as := []))))
    rw [List.append_nil] at this
    unfold msgSzconv
    rw [fmt_msgSzconv]
    exact this
  · have := pf_formats (Formats.lit (a := S "check failed: p != nullptr\ncould not find symbol=") (by decide +kernel) (.diff hv (.done (as := []))))
    rw [List.append_nil] at this
    unfold msgEnumValue
    rw [fmt_msgEnumValue]
    exact this
  · have := pf_formats (Formats.lit (a := S "unknown offset type ") (by decide +kernel) (.int hv (.done (as := []))))
    rw [List.append_nil] at this
    unfold msgEoffs
    rw [fmt_msgEoffs]
    exact this

/-- **C170** for the messages with texts: names for `EnumSymbols::get(s)`, the part of a text that is no name or number of a bitmask, bad characters, and lack of room. -/
theorem C170_texts_partial (name rest : List Nat) (hn : 0 ∉ name) (hs : name.length < 2 ^ 31) (pos num sz : Nat) (h1 : pos < 2 ^ 31) (h2 : num < 2 ^ 31) (h3 : sz < 2 ^ 31) (c : Nat) (hc : c < 256) :
    msgEnumName (name ++ 0 :: rest) = .ok (S "check failed: p != nullptr\ncould not find symbol \"" ++ name ++ S "\"") ∧
    msgBmName (name ++ rest) name.length = .ok (S "check failed: p != nullptr\nno valid enum pair name for '" ++ name ++ S "'") ∧
    msgBmNumber (name ++ rest) name.length = .ok (S "check failed: len != csubstr::npos\ncould not read string as an integral type: '" ++ name ++ S "'") ∧
    msgBmChar c = .ok (S "bad character '" ++ [c] ++ S "' in bitmask string") ∧
    msgBmWrite pos num sz = .ok (S "cannot write to string pos=" ++ numeralText 10 pos ++ S " num=" ++ numeralText 10 num ++ S " sz=" ++ numeralText 10 sz) := by
  refine ⟨?_, ?_, ?_, ?_, ?_⟩
  · have := pf_formats (Formats.lit (a := S "check failed: p != nullptr\ncould not find symbol \"") (by decide +kernel) (.string (m := name ++ 0 :: rest) (t := name) ⟨hn, rest, rfl⟩
      (.plain (a := S "\"") (as := []) (by decide))))
    rw [List.append_assoc]
    unfold msgEnumName
    rw [fmt_msgEnumName]
    exact this
  · have := pf_formats (Formats.lit (a := S "check failed: p != nullptr\nno valid enum pair name for '") (by decide +kernel)
      (.first (n := name.length) (m := name ++ rest) (t := name) ⟨hn, .inl ⟨rfl, rest, rfl⟩⟩ (.plain (a := S "'") (as := []) (by decide))))
    rw [List.append_assoc]
    unfold msgBmName
    rw [toInt_small hs, fmt_msgBmName]
    exact this
  · have := pf_formats (Formats.lit (a := S "check failed: len != csubstr::npos\ncould not read string as an integral type: '") (by decide +kernel)
      (.first (n := name.length) (m := name ++ rest) (t := name) ⟨hn, .inl ⟨rfl, rest, rfl⟩⟩ (.plain (a := S "'") (as := []) (by decide))))
    rw [List.append_assoc]
    unfold msgBmNumber
    rw [toInt_small hs, fmt_msgBmNumber]
    exact this
  · have := pf_formats (Formats.lit (a := S "bad character '") (by decide +kernel) (.chr (v := if c < 128 then (c : Int) else (c : Int) - 256) (c := c) hc (by split <;> omega)
      (.plain (a := S "' in bitmask string") (as := []) (by decide))))
    rw [List.append_assoc]
    unfold msgBmChar
    rw [fmt_msgBmChar]
    exact this
  · have := pf_formats (Formats.lit (a := S "cannot write to string pos=") (by decide +kernel) (.int (signed_nat pos) (.lit (a := S " num=") (by decide) (.int (signed_nat num)
      (.lit (a := S " sz=") (by decide) (.int (signed_nat sz) (.done (as := []))))))))
    rw [List.append_nil] at this
    unfold msgBmWrite
    rw [toInt_small h1, toInt_small h2, toInt_small h3, List.append_assoc, List.append_assoc, List.append_assoc, List.append_assoc, fmt_msgBmWrite]
    exact this

/-- **C170** fails: the message for lack of memory shows the size in place of the alignment, whatever this is; the message of `EnumSymbols::get(s, len)` is undefined, because the length is not an `int`;
and for 2^31 characters and more, as many as up to the next zero are shown, or the room is shown negative. -/
theorem C170_refuted (size al : Nat) (mem : List Nat) (len : Nat) :
    msgNoMemory size al = .ok (S "There was insufficient memory to fulfill the allocation request of " ++ numeralText 10 size ++ S " bytes (alignment=" ++ numeralText 10 size ++ S ")") ∧
    msgEnumNameLen mem len = .ub ∧
    msgBmName (S "ab") (2 ^ 31) = .ub ∧
    msgBmWrite 0 1 (2 ^ 31) = .ok (S "cannot write to string pos=0 num=1 sz=-2147483648") := by
  refine ⟨?_, ?_, by decide +kernel, by decide +kernel⟩
  swap
  · unfold msgEnumNameLen
    rw [fmt_msgEnumNameLen, pf_lit (by decide +kernel)]
    rfl
  have := pf_formats (Formats.lit (a := S "There was insufficient memory to fulfill the allocation request of ") (by decide +kernel) (.size (v := size) (.lit (a := S " bytes (alignment=") (by decide)
    (.long (v := size) (.plain (a := S ")") (as := []) (by decide))))))
  rw [List.append_assoc, List.append_assoc, List.append_assoc]
  unfold msgNoMemory
  rw [fmt_msgNoMemory]
  exact this

example : msgNoMemory 16 64 = .ok (S "There was insufficient memory to fulfill the allocation request of 16 bytes (alignment=16)") := by decide +kernel

end C4
