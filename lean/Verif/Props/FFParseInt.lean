import Verif.FastFloat.ParseInt
import Verif.Props.FFParse
import Verif.Props.IPow
/-
Property C144: integers in any base (fast_float).
-/
namespace C4

/-- Specification: the value of a digit, `0` to `9` and the letters of either case. -/
def Spec.digit36 (c : Nat) : Option Nat :=
  if 48 ≤ c ∧ c ≤ 57 then some (c - 48)
  else if 97 ≤ c ∧ c ≤ 122 then some (c - 97 + 10)
  else if 65 ≤ c ∧ c ≤ 90 then some (c - 65 + 10)
  else none

/-- Specification: the text `s` has the digits `ds`, of base `b`. -/
def Spec.Digits36 (b : Nat) (s ds : List Nat) : Prop := s.map digit36 = ds.map some ∧ ∀ d ∈ ds, d < b

/-- Specification: the text does not begin with a digit of base `b`. -/
def Spec.NoDigit (b : Nat) (s : List Nat) : Prop := ∀ c d, s.head? = some c → digit36 c = some d → b ≤ d

namespace FF
open Spec

theorem digits36_nil {b : Nat} {ds : List Nat} (h : Digits36 b [] ds) : ds = [] := by
  have := h.1
  cases ds with
  | nil => rfl
  | cons _ _ => cases this

theorem digits36_cons {b c : Nat} {s ds : List Nat} (h : Digits36 b (c :: s) ds) :
    ∃ d ds', ds = d :: ds' ∧ digit36 c = some d ∧ d < b ∧ Digits36 b s ds' := by
  obtain ⟨h1, h2⟩ := h
  cases ds with
  | nil => cases h1
  | cons d ds =>
    simp only [List.map_cons, List.cons.injEq] at h1
    exact ⟨d, ds, rfl, h1.1, h2 d (by simp), h1.2, fun x hx => h2 x (by simp [hx])⟩

theorem chToDigit_eq : ∀ c < 256, chToDigit c = (digit36 c).getD 255 := by decide +kernel

theorem chToDigit_digit {c d : Nat} (h : digit36 c = some d) : chToDigit c = d := by
  have hc : c < 256 := by
    unfold digit36 at h
    split at h
    · omega
    · split at h
      · omega
      · split at h
        · omega
        · cases h
  rw [chToDigit_eq c hc, h]
  rfl

/-- The tables: the number of digits of 2^64 - 1 and the smallest number with as many. -/
theorem tables : ∀ b, 2 ≤ b → b ≤ 36 → minSafe b = b ^ (maxDigitsU64 b - 1) ∧ 1 ≤ maxDigitsU64 b ∧ b ^ (maxDigitsU64 b - 1) < 2 ^ 64 ∧
    2 ^ 64 ≤ b ^ maxDigitsU64 b ∧ 2 ^ 32 < b ^ (maxDigitsU64 b - 1) := by
  have h : ∀ b < 37, 2 ≤ b → minSafe b = b ^ (maxDigitsU64 b - 1) ∧ 1 ≤ maxDigitsU64 b ∧ b ^ (maxDigitsU64 b - 1) < 2 ^ 64 ∧
    2 ^ 64 ≤ b ^ maxDigitsU64 b ∧ 2 ^ 32 < b ^ (maxDigitsU64 b - 1) := by decide +kernel
  exact fun b h1 h2 => h b (by omega) h1

theorem noDigit_stop {b : Nat} (hb : b ≤ 36) {rest : List Nat} (h : NoDigit b rest) (hr : ∀ c ∈ rest, c < 256) (i : Nat) : baseLoop b rest i = (rest, i) := by
  cases rest with
  | nil => rfl
  | cons c s =>
    have : chToDigit c ≥ b := by
      rw [chToDigit_eq c (hr c (by simp))]
      cases e : digit36 c with
      | none => show 255 ≥ b; omega
      | some d => exact h c d rfl e
    rw [baseLoop, if_pos this]

theorem baseLoop_eq {b : Nat} (hb : b ≤ 36) {rest : List Nat} (h : NoDigit b rest) (hr : ∀ c ∈ rest, c < 256) :
    ∀ (s ds : List Nat) (i : Nat), Digits36 b s ds → i < 2 ^ 64 → baseLoop b (s ++ rest) i = (rest, (i * b ^ ds.length + value b ds) % 2 ^ 64) := by
  intro s
  induction s with
  | nil =>
    intro ds i hd hi
    cases digits36_nil hd
    rw [List.nil_append, noDigit_stop hb h hr]
    simp only [value_nil, List.length_nil, Nat.pow_zero, Nat.mul_one, Nat.add_zero, Nat.mod_eq_of_lt hi]
  | cons c s ih =>
    intro ds i hd hi
    obtain ⟨d, ds', rfl, e, hlt, hd'⟩ := digits36_cons hd
    rw [List.cons_append, baseLoop, chToDigit_digit e, if_neg (by omega), ih ds' _ hd' (Nat.mod_lt _ (by decide)), value_cons, List.length_cons]
    congr 1
    rw [Nat.add_mod, Nat.mod_mul_mod, ← Nat.add_mod, Nat.pow_succ]
    congr 1
    ring

theorem digit36_dec {c : Nat} (h : isInteger c = true) : digit36 c = some (c - 48) := by
  rw [isInteger_iff] at h
  unfold IsDigit at h
  unfold digit36
  rw [if_pos (by omega)]

/-- The loops over the digits together. -/
theorem loops_eq {b : Nat} (hb : b ≤ 36) {rest : List Nat} (h : NoDigit b rest) {s ds : List Nat} (hd : Digits36 b s ds)
    (hs : ∀ c ∈ s ++ rest, c < 256) :
    baseLoop b (if b = 10 then loopParseIfEightDigits (s ++ rest) 0 else (s ++ rest, 0)).1
      (if b = 10 then loopParseIfEightDigits (s ++ rest) 0 else (s ++ rest, 0)).2 = (rest, value b ds % 2 ^ 64) := by
  have hr : ∀ c ∈ rest, c < 256 := fun c hc => hs c (by simp [hc])
  by_cases h10 : b = 10
  · subst h10
    rw [if_pos rfl]
    obtain ⟨pre, h1, h2, h3⟩ := loopParseIfEightDigits_eq (s ++ rest).length (s ++ rest) 0 (Nat.le_refl _) hs (by decide)
    generalize loopParseIfEightDigits (s ++ rest) 0 = r at h1 h3
    obtain ⟨p, i⟩ := r
    dsimp only at h1 h3 ⊢
    subst h3
    rw [Nat.zero_mul, Nat.zero_add]
    -- the digits read first are a part of the digits
    have key : ∀ (pre s ds p : List Nat), Digits36 10 s ds → s ++ rest = pre ++ p → (∀ c ∈ pre, isInteger c = true) →
        ∃ s2 ds2, p = s2 ++ rest ∧ Digits36 10 s2 ds2 ∧ ds = pre.map (· - 48) ++ ds2 := by
      intro pre
      induction pre with
      | nil => intro s ds p hd e _; exact ⟨s, ds, e.symm, hd, rfl⟩
      | cons c pre ih =>
        intro s ds p hd e hp
        have hc := hp c (by simp)
        cases s with
        | nil =>
          rw [List.nil_append] at e
          have h0 := h c (c - 48) (by rw [e]; rfl) (digit36_dec hc)
          rw [isInteger_iff] at hc
          unfold IsDigit at hc
          omega
        | cons x s =>
          rw [List.cons_append, List.cons_append, List.cons.injEq] at e
          obtain ⟨rfl, e⟩ := e
          obtain ⟨d, ds', rfl, e1, _, hd'⟩ := digits36_cons hd
          obtain ⟨s2, ds2, g1, g2, g3⟩ := ih s ds' p hd' e (fun c hc => hp c (by simp [hc]))
          refine ⟨s2, ds2, g1, g2, ?_⟩
          rw [digit36_dec hc] at e1
          cases e1
          rw [g3]
          rfl
    obtain ⟨s2, ds2, rfl, g2, rfl⟩ := key pre s ds p hd h1 h2
    rw [baseLoop_eq hb h hr s2 ds2 _ g2 (Nat.mod_lt _ (by decide)), value_append_list]
    congr 1
    show (digitsVal pre % 2 ^ 64 * 10 ^ ds2.length + value 10 ds2) % 2 ^ 64 = _
    rw [Nat.add_mod, Nat.mod_mul_mod, ← Nat.add_mod]
    rfl
  · rw [if_neg h10]
    rw [baseLoop_eq hb h hr s ds 0 hd (by decide), Nat.zero_mul, Nat.zero_add]

theorem skipZeroDigits_eq : ∀ (s ds rest : List Nat) (b : Nat), 2 ≤ b → Digits36 b s ds → NoDigit b rest →
    ∃ z s' ds', s = List.replicate z 48 ++ s' ∧ ds = List.replicate z 0 ++ ds' ∧ Digits36 b s' ds' ∧ skipZeroDigits (s ++ rest) = s' ++ rest ∧
      (∀ d, ds'.head? = some d → d ≠ 0) := by
  intro s
  induction s with
  | nil =>
    intro ds rest b hb hd hr
    cases digits36_nil hd
    refine ⟨0, [], [], rfl, rfl, hd, ?_, by simp⟩
    rw [List.nil_append]
    cases rest with
    | nil => rfl
    | cons c r =>
      rw [skipZeroDigits, if_neg]
      rintro rfl
      have := hr 48 0 rfl (by decide)
      omega
  | cons c s ih =>
    intro ds rest b hb hd hr
    obtain ⟨d, ds', rfl, e, hlt, hd'⟩ := digits36_cons hd
    by_cases hc : c = 48
    · subst hc
      have : d = 0 := by
        rw [show digit36 48 = some 0 by decide] at e
        cases e; rfl
      subst this
      obtain ⟨z, s', ds2, g1, g2, g3, g4, g5⟩ := ih ds' rest b hb hd' hr
      refine ⟨z + 1, s', ds2, by rw [g1]; rfl, by rw [g2]; rfl, g3, ?_, g5⟩
      rw [List.cons_append, skipZeroDigits, if_pos rfl, g4]
    · refine ⟨0, c :: s, d :: ds', rfl, rfl, hd, ?_, ?_⟩
      · rw [List.cons_append, skipZeroDigits, if_neg hc]
      · intro x hx
        cases hx
        rintro rfl
        unfold digit36 at e
        split at e
        · simp only [Option.some.injEq] at e; omega
        · split at e
          · simp only [Option.some.injEq] at e; omega
          · split at e
            · simp only [Option.some.injEq] at e; omega
            · cases e

theorem digits36_length {b : Nat} {s ds : List Nat} (h : Digits36 b s ds) : s.length = ds.length := by
  have := congrArg List.length h.1
  simpa using this

/-- The number of the digits says the size of the number. -/
theorem value_ge {b : Nat} {ds : List Nat} (h : ∀ d, ds.head? = some d → d ≠ 0) (hne : ds ≠ []) : b ^ (ds.length - 1) ≤ value b ds := by
  cases ds with
  | nil => exact absurd rfl hne
  | cons d ds =>
    rw [value_cons, List.length_cons, Nat.add_sub_cancel]
    have := h d rfl
    have : b ^ ds.length * 1 ≤ d * b ^ ds.length := by
      rw [Nat.mul_comm]
      exact Nat.mul_le_mul_right _ (by omega)
    omega

theorem max_bounds (t : ITy) : 1 ≤ t.max ∧ t.max < 2 ^ 64 ∧ (t.w ≠ .w64 → t.max < 2 ^ 32) ∧ (t.sgn = true → t.min = -t.max - 1 ∧ t.max < 2 ^ 63) ∧
    (t.sgn = false → t.min = 0) ∧ (t.w = .w64 → t.sgn = false → t.max = 2 ^ 64 - 1) := by
  obtain ⟨w, s⟩ := t
  cases w <;> cases s <;> decide

/-- The checks are right, unless a number with as many digits as 2^64 - 1 is larger than what they can tell. -/
theorem intStore_eq (t : ITy) {b : Nat} (hb : 2 ≤ b) (hb2 : b ≤ 36) (negative : Bool) (hn : negative = true → t.sgn = true) {ds : List Nat} (hd : ∀ d ∈ ds, d < b)
    (h0 : ∀ d, ds.head? = some d → d ≠ 0) (hne : ds ≠ []) (h64 : t.w ≠ .w64 ∨ value b ds < 2 ^ 64 + minSafe b) (p : List Nat) :
    intStore t b negative ds.length (value b ds % 2 ^ 64) p =
      if Fits t (if negative then -(value b ds : Int) else value b ds) then ⟨.ok, p, some (if negative then -(value b ds : Int) else value b ds)⟩
      else ⟨.resultOutOfRange, p, none⟩ := by
  obtain ⟨t1, t2, t3, t4, t5⟩ := tables b hb hb2
  obtain ⟨m0, m1, m2, m3, m4, m5⟩ := max_bounds t
  have hge := value_ge (b := b) h0 hne
  have hlt := value_lt hd
  rw [t1] at h64
  generalize hv : value b ds = n at *
  have hbig : 2 ^ 64 ≤ n → ¬ Fits t (if negative then -(n : Int) else n) := by
    rintro hn2 ⟨f1, f2⟩
    cases negative with
    | true =>
      have := m3 (hn rfl)
      simp only [if_true] at f1 f2
      omega
    | false => simp only [Bool.false_eq_true, if_false] at f1 f2; omega
  have hl : 1 ≤ ds.length := by
    cases ds with
    | nil => exact absurd rfl hne
    | cons _ _ => simp
  unfold intStore
  by_cases c1 : ds.length > maxDigitsU64 b
  · rw [if_pos c1, if_neg]
    apply hbig
    exact Nat.le_trans t4 (Nat.le_trans (Nat.pow_le_pow_right (by omega) (by omega)) hge)
  · rw [if_neg c1, t1]
    by_cases c2 : ds.length = maxDigitsU64 b ∧ n % 2 ^ 64 < b ^ (maxDigitsU64 b - 1)
    · rw [if_pos c2, if_neg]
      apply hbig
      obtain ⟨c2, c3⟩ := c2
      rw [c2] at hge
      by_contra hc
      rw [Nat.mod_eq_of_lt (by omega)] at c3
      omega
    · rw [if_neg c2]
      have hcases : n < 2 ^ 64 ∨ (2 ^ 64 ≤ n ∧ t.w ≠ .w64 ∧ 2 ^ 32 < n % 2 ^ 64) := by
        by_cases hn2 : n < 2 ^ 64
        · exact .inl hn2
        · by_cases c4 : ds.length = maxDigitsU64 b
          · rcases h64 with h64 | h64
            · exact .inr ⟨by omega, h64, by omega⟩
            · exfalso
              have e : n % 2 ^ 64 = n - 2 ^ 64 := by
                rw [Nat.mod_eq_sub_mod (by omega), Nat.mod_eq_of_lt (by omega)]
              omega
          · exfalso
            have : b ^ ds.length ≤ b ^ (maxDigitsU64 b - 1) := Nat.pow_le_pow_right (by omega) (by omega)
            omega
      have hmod : (t.max.toNat + (if negative = true then 1 else 0)) % 2 ^ 64 = t.max.toNat + (if negative = true then 1 else 0) := by
        apply Nat.mod_eq_of_lt
        split
        · have := m3 (hn (by assumption))
          omega
        · omega
      rw [hmod]
      by_cases c3 : ¬ (t.w = .w64 ∧ t.sgn = false) ∧ n % 2 ^ 64 > t.max.toNat + (if negative = true then 1 else 0)
      · rw [if_pos c3, if_neg]
        rintro ⟨f1, f2⟩
        obtain ⟨_, c3⟩ := c3
        rcases hcases with hc | ⟨hc, _⟩
        · rw [Nat.mod_eq_of_lt hc] at c3
          cases negative with
          | true =>
            have := m3 (hn rfl)
            simp only [if_true] at f1 f2 c3
            omega
          | false => simp only [Bool.false_eq_true, if_false] at f1 f2 c3; omega
        · exact hbig hc ⟨f1, f2⟩
      · rw [if_neg c3]
        have hn2 : n < 2 ^ 64 := by
          rcases hcases with hc | ⟨_, hw, hc⟩
          · exact hc
          · exfalso
            apply c3
            refine ⟨fun h => hw h.1, ?_⟩
            have := m2 hw
            split <;> omega
        rw [Nat.mod_eq_of_lt hn2] at c3 ⊢
        have hle : n ≤ t.max.toNat + (if negative = true then 1 else 0) := by
          by_contra hc
          apply c3
          refine ⟨fun h => ?_, by omega⟩
          have := m5 h.1 h.2
          split at hc <;> omega
        cases negative with
        | true =>
          have hm := m3 (hn rfl)
          have hsg := hn rfl
          simp only [if_true] at hle ⊢
          have hf : Fits t (-(n : Int)) := ⟨by omega, by omega⟩
          rw [if_pos hf]
          congr 2
          have hw : t.wrap (((n : Int) - t.max) % 2 ^ 64) = (n : Int) - t.max := by
            have h1 : t.wrap ((n : Int) - t.max) = (n : Int) - t.max := wrap_of_fits (by omega) (by omega)
            have h2 : t.wrap (((n : Int) - t.max) % 2 ^ 64) = t.wrap ((n : Int) - t.max) := by
              unfold ITy.wrap
              rw [if_pos hsg, if_pos hsg]
              obtain ⟨w, s⟩ := t
              have : ((2 ^ w.bits : Nat) : Int) ∣ 2 ^ 64 := by cases w <;> decide
              rw [← Int.emod_bmod, Int.emod_emod_of_dvd _ this, Int.emod_bmod]
            rw [h2, h1]
          rw [hw]
          rw [wrap_of_fits (by omega) (by omega)]
          omega
        | false =>
          simp only [Bool.false_eq_true, if_false] at hle ⊢
          have hf : Fits t (n : Int) := ⟨by
            cases hs : t.sgn with
            | true => have := m3 hs; omega
            | false => have := m4 hs; omega, by omega⟩
          rw [if_pos hf, wrap_of_fits hf.1 hf.2]

end FF

open Spec FF in
/-- Reading a number: zeros before it are skipped, and what is stored depends on the number and the number of its digits. -/
theorem intFromChars_number (t : ITy) {b : Nat} (hb : 2 ≤ b) (hb2 : b ≤ 36) (negative : Bool) (hn : negative = true → t.sgn = true) {s ds rest : List Nat}
    (hd : Digits36 b s ds) (hne : s ≠ []) (hr : NoDigit b rest) (hs : ∀ c ∈ s ++ rest, c < 256) :
    ∃ ds', value b ds' = value b ds ∧ (∀ d ∈ ds', d < b) ∧ (∀ d, ds'.head? = some d → d ≠ 0) ∧
      intFromChars t b ((if negative then [45] else []) ++ (s ++ rest)) =
        .ok (if ds' = [] then ⟨.ok, rest, some 0⟩ else intStore t b negative ds'.length (value b ds' % 2 ^ 64) rest) := by
  obtain ⟨z, s', ds', rfl, rfl, hd', hz, hh⟩ := skipZeroDigits_eq s ds rest b hb hd hr
  refine ⟨ds', by rw [value_append_list, value_replicate_zero, Nat.zero_mul, Nat.zero_add], hd'.2, hh, ?_⟩
  have hbase : ¬ ((if negative then [45] else []) ++ (List.replicate z 48 ++ s' ++ rest) = [] ∨ (b : Int) < 2 ∨ (b : Int) > 36) := by
    intro h
    rcases h with h | h | h
    · simp only [List.append_eq_nil_iff] at h
      exact hne (by simp [h.2.1])
    · omega
    · omega
  unfold intFromChars
  rw [if_neg hbase]
  have hlen : (List.replicate z 48 ++ s' ++ rest).length = z + (s' ++ rest).length := by simp
  have hrun : ∀ first : List Nat,
      (if ((s' ++ rest).length - rest.length = 0) then
        (Res.ok (if (decide ((s' ++ rest).length < (List.replicate z 48 ++ s' ++ rest).length) : Bool) = true then (⟨.ok, rest, some 0⟩ : IntResult) else ⟨.invalidArgument, first, none⟩))
      else Res.ok (intStore t b negative ((s' ++ rest).length - rest.length) (value b ds' % 2 ^ 64) rest)) =
      Res.ok (if ds' = [] then ⟨.ok, rest, some 0⟩ else intStore t b negative ds'.length (value b ds' % 2 ^ 64) rest) := by
    intro first
    have e : (s' ++ rest).length - rest.length = ds'.length := by
      rw [List.length_append, digits36_length hd']; omega
    rw [e]
    by_cases h0 : ds' = []
    · subst h0
      have : s' = [] := List.length_eq_zero_iff.mp (digits36_length hd')
      subst this
      have hz0 : z ≠ 0 := by
        rintro rfl
        exact hne rfl
      rw [if_pos List.length_nil, if_pos (by rw [hlen]; simp; omega)]
      rw [if_pos rfl]
    · rw [if_neg (by rw [List.length_eq_zero_iff]; exact h0), if_neg h0]
  have hloops := loops_eq hb2 hr hd' (fun c hc => hs c (by
    simp only [List.mem_append] at hc ⊢
    tauto))
  obtain ⟨first, hf⟩ : ∃ first, first = (if negative then [45] else []) ++ (List.replicate z 48 ++ s' ++ rest) := ⟨_, rfl⟩
  rw [← hf]
  have hfirst : ∃ c tl, first = c :: tl ∧ (c == 45) = negative ∧ (if negative = true then tl else first) = List.replicate z 48 ++ s' ++ rest := by
    cases negative with
    | true => exact ⟨45, _, by rw [hf]; rfl, rfl, rfl⟩
    | false =>
      cases hs0 : List.replicate z 48 ++ s' with
      | nil => exact absurd hs0 hne
      | cons c tl =>
        rw [hs0] at hd hf
        obtain ⟨d, ds2, _, e, _⟩ := digits36_cons hd
        refine ⟨c, tl ++ rest, by rw [hf]; rfl, ?_, by rw [hf]; rfl⟩
        rw [beq_eq_false_iff_ne]
        rintro rfl
        revert e
        simp [digit36]
  obtain ⟨c, tl, hc, hneg, htl⟩ := hfirst
  have hkey := hrun first
  rw [hc] at htl hkey ⊢
  rw [show ((b : Int)).toNat = b from rfl, parseIntString]
  simp only [hneg, htl, hz]
  rw [if_neg (by
    rintro ⟨h1, h2⟩
    rw [hn h2] at h1
    cases h1)]
  rw [hloops]
  exact hkey

open Spec FF in
theorem fits_zero (t : ITy) : Fits t 0 := by
  have := max_bounds t
  refine ⟨?_, by omega⟩
  cases hs : t.sgn with
  | true => have := this.2.2.2.1 hs; omega
  | false => have := this.2.2.2.2.1 hs; omega

open Spec FF in
/-- **C144**, the part that holds: a text that begins with a number in the base, a minus sign before the digits being allowed for signed types,
is read up to the end of the digits.  The value is exact if the type has it, and otherwise this is reported and nothing is stored.  Missing:
64-bit types and numbers that exceed 2^64 by the largest power of the base below 2^64 or more (false, see `C144_refuted` and `C144_wraps`). -/
theorem C144_number_partial (t : ITy) {b : Nat} (hb : 2 ≤ b) (hb2 : b ≤ 36) (negative : Bool) (hn : negative = true → t.sgn = true) {s ds rest : List Nat}
    (hd : Digits36 b s ds) (hne : s ≠ []) (hr : NoDigit b rest) (hs : ∀ c ∈ s ++ rest, c < 256)
    (h64 : t.w ≠ .w64 ∨ ∃ k, b ^ k < 2 ^ 64 ∧ 2 ^ 64 ≤ b ^ (k + 1) ∧ value b ds < 2 ^ 64 + b ^ k) :
    intFromChars t b ((if negative then [45] else []) ++ (s ++ rest)) =
      .ok (if Fits t (if negative then -(value b ds : Int) else value b ds) then ⟨.ok, rest, some (if negative then -(value b ds : Int) else value b ds)⟩
        else ⟨.resultOutOfRange, rest, none⟩) := by
  obtain ⟨t1, t2, t3, t4, t5⟩ := tables b hb hb2
  have h64' : t.w ≠ .w64 ∨ value b ds < 2 ^ 64 + minSafe b := by
    rcases h64 with h | ⟨k, k1, k2, k3⟩
    · exact .inl h
    · right
      have a1 : k < maxDigitsU64 b := (Nat.pow_lt_pow_iff_right (by omega)).mp (Nat.lt_of_lt_of_le k1 t4)
      have a2 : maxDigitsU64 b - 1 < k + 1 := (Nat.pow_lt_pow_iff_right (by omega)).mp (Nat.lt_of_lt_of_le t3 k2)
      rw [t1, show maxDigitsU64 b - 1 = k by omega]
      exact k3
  obtain ⟨ds', hv, hd', hh, e⟩ := intFromChars_number t hb hb2 negative hn hd hne hr hs
  rw [← hv] at h64' ⊢
  rw [e]
  by_cases h0 : ds' = []
  · subst h0
    simp [value_nil, fits_zero]
  · rw [if_neg h0, intStore_eq t hb hb2 negative hn hd' hh h0 h64']

open Spec FF in
/-- **C144**, what happens to the other numbers: `b ^ k` being the largest power of the base below 2^64, every number from 2^64 on with more than `k + 1` digits is reported; one
with `k + 1` digits is reported exactly if its rest modulo 2^64 is less than `b ^ k` or, with its sign, not in the type; otherwise that rest is stored, without a report (this happens with 64-bit types only, since `b ^ k` is at least 2^32). -/
theorem C144_wraps (t : ITy) {b k : Nat} (hb : 2 ≤ b) (hb2 : b ≤ 36) (negative : Bool) (hn : negative = true → t.sgn = true) {s ds rest : List Nat}
    (hd : Digits36 b s ds) (hne : s ≠ []) (hr : NoDigit b rest) (hs : ∀ c ∈ s ++ rest, c < 256) (k1 : b ^ k < 2 ^ 64) (k2 : 2 ^ 64 ≤ b ^ (k + 1)) (hv : 2 ^ 64 ≤ value b ds) :
    intFromChars t b ((if negative then [45] else []) ++ (s ++ rest)) =
      .ok (if value b ds < b ^ (k + 1) ∧ b ^ k ≤ value b ds % 2 ^ 64 ∧ Fits t (if negative then -((value b ds % 2 ^ 64 : Nat) : Int) else (value b ds % 2 ^ 64 : Nat))
        then ⟨.ok, rest, some (if negative then -((value b ds % 2 ^ 64 : Nat) : Int) else (value b ds % 2 ^ 64 : Nat))⟩
        else ⟨.resultOutOfRange, rest, none⟩) := by
  obtain ⟨t1, t2, t3, t4, t5⟩ := tables b hb hb2
  have a1 : k < maxDigitsU64 b := (Nat.pow_lt_pow_iff_right (by omega)).mp (Nat.lt_of_lt_of_le k1 t4)
  have a2 : maxDigitsU64 b - 1 < k + 1 := (Nat.pow_lt_pow_iff_right (by omega)).mp (Nat.lt_of_lt_of_le t3 k2)
  have hk : maxDigitsU64 b = k + 1 := by omega
  rw [hk, Nat.add_sub_cancel] at t1
  obtain ⟨ds', hvv, hd', hh, e⟩ := intFromChars_number t hb hb2 negative hn hd hne hr hs
  rw [← hvv] at hv ⊢
  rw [e]
  have h0 : ds' ≠ [] := by rintro rfl; rw [value_nil] at hv; omega
  rw [if_neg h0]
  have hge := value_ge (b := b) hh h0
  have hlt := value_lt hd'
  have hl : k + 1 ≤ ds'.length := by
    have := (Nat.pow_lt_pow_iff_right (a := b) (by omega)).mp (Nat.lt_of_lt_of_le k1 (Nat.le_trans hv (Nat.le_of_lt hlt)))
    omega
  by_cases hc : value b ds' < b ^ (k + 1) ∧ b ^ k ≤ value b ds' % 2 ^ 64
  · obtain ⟨c1, c2⟩ := hc
    have hlen : ds'.length = k + 1 := by
      have := (Nat.pow_lt_pow_iff_right (a := b) (by omega)).mp (Nat.lt_of_le_of_lt hge c1)
      omega
    generalize hr' : value b ds' % 2 ^ 64 = r at c2 ⊢
    have hr64 : r < 2 ^ 64 := by rw [← hr']; exact Nat.mod_lt _ (by decide)
    have hnl : (numeral b r).length = k + 1 := numeral_length_of_bracket hb (Nat.lt_of_lt_of_le hr64 k2) (Or.inr c2)
    have hnz : ∀ d, (numeral b r).head? = some d → d ≠ 0 := by
      have hpos : 0 < b ^ k := Nat.pow_pos (by omega)
      intro d hd
      rcases (numeral_isNumeral hb r).canonical with h | ⟨d', l, h, hz⟩
      · have := value_numeral hb (v := r)
        rw [h] at this
        simp [value] at this
        omega
      · rw [h, List.head?_cons] at hd
        cases hd
        omega
    have key := intStore_eq t hb hb2 negative hn (ds := numeral b r) (numeral_digits hb) hnz (numeral_ne_nil hb r) (by right; rw [value_numeral hb]; omega) rest
    rw [value_numeral hb, hnl, Nat.mod_eq_of_lt hr64] at key
    rw [hlen, key]
    generalize (if negative then -(r : Int) else r) = w
    by_cases hf : Fits t w
    · rw [if_pos hf, if_pos ⟨c1, c2, hf⟩]
    · rw [if_neg hf, if_neg (fun h => hf h.2.2)]
  · rw [if_neg (fun h => hc ⟨h.1, h.2.1⟩)]
    unfold intStore
    rw [hk]
    by_cases hg : ds'.length > k + 1
    · rw [if_pos hg]
    · rw [if_neg hg]
      have hlen : ds'.length = k + 1 := by omega
      have : value b ds' < b ^ (k + 1) := by rw [← hlen]; exact hlt
      rw [if_pos ⟨hlen, by rw [t1]; by_contra hcc; exact hc ⟨this, by omega⟩⟩]

open Spec FF in
/-- Cases of `C144_wraps`. -/
example : 10 ^ 19 < 2 ^ 64 ∧ 2 ^ 64 ≤ 10 ^ (19 + 1) ∧ intFromChars ⟨.w64, false⟩ 10 (S "99999999999999999999x") = .ok ⟨.resultOutOfRange, S "x", none⟩ ∧
    intFromChars ⟨.w64, false⟩ 10 (S "30000000000000000000x") = .ok ⟨.ok, S "x", some 11553255926290448384⟩ ∧
    intFromChars ⟨.w64, true⟩ 10 (S "-30000000000000000000x") = .ok ⟨.resultOutOfRange, S "x", none⟩ := by decide +kernel

open Spec FF in
/-- A case of `C144_number_partial`: a negative hexadecimal number with zeros before it and more text after it, and one that does not fit. -/
example : Digits36 16 (S "007F") [0, 0, 7, 15] ∧ NoDigit 16 (S "g") ∧
    intFromChars ⟨.w8, true⟩ 16 (S "-007Fg") = .ok ⟨.ok, S "g", some (-127)⟩ ∧
    intFromChars ⟨.w8, true⟩ 16 (S "-0081g") = .ok ⟨.resultOutOfRange, S "g", none⟩ ∧
    intFromChars ⟨.w64, false⟩ 10 (S "18446744073709551615") = .ok ⟨.ok, [], some 18446744073709551615⟩ ∧
    intFromChars ⟨.w64, false⟩ 10 (S "18446744073709551616") = .ok ⟨.resultOutOfRange, [], none⟩ := by
  refine ⟨⟨by decide, by decide⟩, ?_, by decide +kernel, by decide +kernel, by decide +kernel, by decide +kernel⟩
  intro c d h1 h2
  cases h1
  cases h2
  decide

open Spec FF in
/-- **C144**: a text that does not begin with a number is reported as such and nothing is stored; so is a base that is not from 2 to 36. -/
theorem C144_none (t : ITy) (b : Int) (s : List Nat) (hs : ∀ c ∈ s, c < 256)
    (h : b < 2 ∨ 36 < b ∨ (NoDigit b.toNat s ∧ (t.sgn = true → ∀ r, s = 45 :: r → NoDigit b.toNat r))) :
    intFromChars t b s = .ok ⟨.invalidArgument, s, none⟩ := by
  unfold intFromChars
  by_cases hbase : s = [] ∨ b < 2 ∨ b > 36
  · rw [if_pos hbase]
  · rw [if_neg hbase]
    rcases h with h | h | ⟨h1, h2⟩
    · omega
    · omega
    · have hb : 2 ≤ b.toNat := by omega
      have hb2 : b.toNat ≤ 36 := by omega
      generalize b.toNat = n at *
      cases s with
      | nil => exact absurd (.inl rfl) hbase
      | cons c r =>
        -- where the digits would have to begin
        have run : ∀ r : List Nat, NoDigit n r → (∀ c ∈ r, c < 256) → skipZeroDigits r = r ∧
            baseLoop n (if n = 10 then loopParseIfEightDigits r 0 else (r, 0)).1 (if n = 10 then loopParseIfEightDigits r 0 else (r, 0)).2 = (r, 0) := by
          intro r hr hs
          have d0 : Digits36 n [] [] := ⟨rfl, by simp⟩
          obtain ⟨z, s', ds', g1, g2, g3, g4, g5⟩ := skipZeroDigits_eq [] [] r n hb d0 hr
          have hs' : s' = [] := (List.append_eq_nil_iff.mp g1.symm).2
          subst hs'
          have := loops_eq hb2 hr d0 hs
          exact ⟨g4, this⟩
        rw [parseIntString]
        by_cases hc : c = 45
        · subst hc
          cases hsg : t.sgn with
          | false => rfl
          | true =>
            obtain ⟨g1, g2⟩ := run r (h2 hsg r rfl) (fun c hc => hs c (by simp [hc]))
            simp only [beq_self_eq_true, if_true, g1, g2, Nat.sub_self, Nat.lt_irrefl, decide_false, Bool.false_eq_true, if_false, Bool.true_eq_false, false_and]
        · have e : (c == 45) = false := by simpa using hc
          obtain ⟨g1, g2⟩ := run (c :: r) h1 hs
          simp only [e, Bool.false_eq_true, if_false, and_false, g1, g2, Nat.sub_self, if_true, Nat.lt_irrefl, decide_false]

open FF in
/-- A case of `C144_none`: a sign before no digit, a sign for an unsigned type, a digit beyond the base, and a base that is too large. -/
example : intFromChars ⟨.w32, true⟩ 10 (S "-x") = .ok ⟨.invalidArgument, S "-x", none⟩ ∧
    intFromChars ⟨.w32, false⟩ 10 (S "-1") = .ok ⟨.invalidArgument, S "-1", none⟩ ∧
    intFromChars ⟨.w32, true⟩ 8 (S "9") = .ok ⟨.invalidArgument, S "9", none⟩ ∧
    intFromChars ⟨.w32, true⟩ 37 (S "1") = .ok ⟨.invalidArgument, S "1", none⟩ := by decide +kernel

open FF in
/-- **C144 is false** for 64-bit types: numbers beyond 2^64 that wrap around to a number with as many digits as 2^64 - 1 are not reported, and
the value stored is wrong. -/
theorem C144_refuted :
    intFromChars ⟨.w64, false⟩ 10 (S "28446744073709551616") = .ok ⟨.ok, [], some 10000000000000000000⟩ ∧
    intFromChars ⟨.w64, true⟩ 5 (S "3214220303114400424121122431") = .ok ⟨.ok, [], some 7450580596923828125⟩ := by decide +kernel

end C4
