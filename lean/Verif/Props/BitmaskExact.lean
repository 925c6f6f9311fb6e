import Verif.Props.BitmaskRead
/-
What bm2str, bm2stream and str2bm do where properties C94 to C97 fail.
-/
namespace C4
open Spec

/-! ### Which symbols are written -/

/-- The symbols written for the bits: beginning at the end of the table, each symbol that has bits, all of them among the given ones and none of them in a symbol taken before. -/
def Spec.taken (bits : Nat) : List ESym → List ESym
  | [] => []
  | p :: later =>
    if p.value ≠ 0 ∧ (∀ i < p.value, p.value.testBit i = true → bits.testBit i = true ∧ ∀ q ∈ taken bits later, q.value.testBit i = false) then p :: taken bits later
    else taken bits later

theorem pick_append {w : Nat} (a c : List ESym) (b : Nat) :
    pick w (a ++ c) b = ((pick w c (pick w a b).1).1, (pick w a b).2 ++ (pick w c (pick w a b).1).2) := by
  induction a generalizing b with
  | nil => simp [pick]
  | cons p a ih =>
    rw [List.cons_append, pick, pick]
    split
    · rw [ih]; rfl
    · rw [ih]

theorem orAll_testBit (l : List ESym) (i : Nat) : (orAll l).testBit i = l.any fun q => q.value.testBit i := by
  induction l with
  | nil => simp [orAll]
  | cons p l ih =>
    have : orAll (p :: l) = p.value ||| orAll l := rfl
    rw [this, Nat.testBit_or, ih, List.any_cons]

theorem pick_fst {w : Nat} : ∀ (l : List ESym) {b : Nat}, b < 2 ^ w → ∀ i, (pick w l b).1.testBit i = (b.testBit i && !(orAll (pick w l b).2).testBit i) := by
  intro l
  induction l with
  | nil => intro b _ i; simp [pick, orAll]
  | cons p l ih =>
    intro b hb i
    rw [pick]
    split
    · next h =>
      show (pick w l (b &&& bitNot w p.value)).1.testBit i = (b.testBit i && !(orAll (p :: (pick w l (b &&& bitNot w p.value)).2)).testBit i)
      rw [ih (sub_lt (x := bitNot w p.value) hb), testBit_sub hb h.2, orAll_testBit, orAll_testBit, List.any_cons]
      cases b.testBit i <;> cases p.value.testBit i <;> simp
    · exact ih hb i

/-- The loop takes the symbols that the specification says. -/
theorem pick_taken {w bits : Nat} (hb : bits < 2 ^ w) (l : List ESym) : (pick w l.reverse bits).2.reverse = taken bits l := by
  induction l with
  | nil => rfl
  | cons p l ih =>
    have hmem : ∀ q, q ∈ taken bits l ↔ q ∈ (pick w l.reverse bits).2 := fun q => by rw [← ih, List.mem_reverse]
    have hf := pick_fst l.reverse hb
    rw [List.reverse_cons, pick_append, taken]
    show ((pick w l.reverse bits).2 ++ (pick w [p] (pick w l.reverse bits).1).2).reverse = _
    rw [pick]
    have hiff : (p.value ≠ 0 ∧ (pick w l.reverse bits).1 &&& p.value = p.value) ↔
        (p.value ≠ 0 ∧ (∀ i < p.value, p.value.testBit i = true → bits.testBit i = true ∧ ∀ q ∈ taken bits l, q.value.testBit i = false)) := by
      apply and_congr_right
      intro _
      rw [and_eq_right_iff]
      constructor
      · intro h i _ hi
        have := h i hi
        rw [hf, orAll_testBit] at this
        simp only [Bool.and_eq_true, Bool.not_eq_true', List.any_eq_false] at this
        refine ⟨this.1, fun q hq => ?_⟩
        have := this.2 q ((hmem q).mp hq)
        simpa using this
      · intro h i hi
        have hlt : i < p.value := by
          rcases Nat.lt_or_ge i p.value with h | h
          · exact h
          · rw [Nat.testBit_lt_two_pow (Nat.lt_of_le_of_lt h Nat.lt_two_pow_self)] at hi; cases hi
        have := h i hlt hi
        rw [hf, orAll_testBit]
        simp only [Bool.and_eq_true, Bool.not_eq_true', List.any_eq_false]
        exact ⟨this.1, fun q hq => by simp [this.2 q ((hmem q).mpr hq)]⟩
    by_cases hc : p.value ≠ 0 ∧ (pick w l.reverse bits).1 &&& p.value = p.value
    · rw [if_pos hc, if_pos (hiff.mp hc)]
      simp [pick, ih]
    · rw [if_neg hc, if_neg (fun h => hc (hiff.mpr h))]
      simp [pick, ih]

/-- **C94**, exactly: for bits other than zero `bm2stream` writes the names of the symbols taken from the end of the table on, whatever bits remain. -/
theorem C94_exact {t : ETab} (h : TabOk t) {w bits : Nat} (hb : bits < 2 ^ w) (h0 : bits ≠ 0) (ot : EOff) :
    bm2stream t w ot bits = .ok (separated [124] ((taken bits t.syms).reverse.map fun p => shown t ot p.name)) := by
  unfold bm2stream
  rw [if_pos h0, streamLoop_eq _ fun p hp => eoffs_le (h p (List.mem_reverse.mp hp)) ot, ← pick_taken hb, List.reverse_reverse]
  simp [shown_eq]

/-- **C95**, exactly: `bm2str` succeeds if and only if the symbols taken from the end of the table on have all the bits; otherwise it reports an error. -/
theorem C95_exact {t : ETab} (h : TabOk t) {w bits : Nat} (hb : bits < 2 ^ w) (ot : EOff) :
    bm2str t w ot bits none = (if orAll (taken bits t.syms) = bits then .ok ((maskText t ot (taken bits t.syms)).length + 1, none) else .abort) ∧
    ∀ buf, buf ≠ [] → bm2str t w ot bits (some buf) =
      if orAll (taken bits t.syms) = bits ∧ (maskText t ot (taken bits t.syms)).length + 1 ≤ buf.length then
        .ok ((maskText t ot (taken bits t.syms)).length + 1, some (maskText t ot (taken bits t.syms) ++ 0 :: buf.drop ((maskText t ot (taken bits t.syms)).length + 1)))
      else .abort := by
  have hz : (pick w t.syms.reverse bits).1 ≠ 0 ↔ ¬ orAll (taken bits t.syms) = bits := by
    rw [not_iff_not, ← pick_taken hb, orAll_reverse]
    have hf := pick_fst t.syms.reverse hb
    have hbits := (pick_ok t.syms.reverse hb).bits
    constructor
    · intro h0
      apply Nat.eq_of_testBit_eq
      intro i
      have := hbits i
      rw [h0] at this
      simp only [Nat.zero_testBit, Bool.false_eq_true, false_or] at this
      rw [Bool.eq_iff_iff]; exact this.symm
    · intro h0
      apply Nat.eq_of_testBit_eq
      intro i
      rw [hf, h0]; simp
  refine ⟨?_, fun buf hbuf => ?_⟩
  · rw [bm2str_eq h hb ot (by simp), pick_taken hb]
    by_cases hc : orAll (taken bits t.syms) = bits
    · rw [if_neg (fun e => hz.mp e hc), if_pos hc]
      simp [strAfter]
    · rw [if_pos (hz.mpr hc), if_neg hc]
  · rw [bm2str_eq h hb ot (by simpa using hbuf), pick_taken hb]
    by_cases hc : orAll (taken bits t.syms) = bits
    · rw [if_neg (fun e => hz.mp e hc)]
      unfold strAfter
      simp only [List.length_append, List.length_cons, List.length_nil, Nat.zero_add, hc, true_and]
      split <;> simp
    · rw [if_pos (hz.mpr hc), if_neg (fun e => hc e.1)]

/-- Two symbols with a bit in common: only the last is taken, so that the union of both cannot be written. -/
example : taken 7 [⟨3, S "a"⟩, ⟨6, S "b"⟩] = [⟨6, S "b"⟩] ∧ taken 7 exTab.syms ≠ [] ∧ orAll (taken 7 exTab.syms) = 7 ∧
    bm2stream ⟨[⟨3, S "a"⟩, ⟨6, S "b"⟩], 0, 0⟩ 8 .pfx 7 = .ok (S "b") := by decide +kernel

/-! ### Texts that are refused or undefined -/

/-- **C96**, exactly: `str2bm` is undefined if the first character that is not a blank or a colon is `|` or a terminator (`C96_safe_partial` is the other case). -/
theorem C96_undefined (t : ETab) (ty : ITy) (skip rest : List Nat) {c : Nat} (hs : ∀ c ∈ skip, BmSkip c) (hc : c = 124 ∨ c = 0) :
    str2bm t ty (skip ++ c :: rest) = .ub := by
  have key : ∀ (s skip : List Nat) (pc : Nat), (∀ c ∈ skip, BmSkip c) → str2bmLoop t ty s (skip ++ c :: rest) pc {} = .ub := by
    intro s skip
    induction skip with
    | nil =>
      intro pc _
      rw [List.nil_append, str2bmLoop, if_neg (by omega), if_neg (by omega), if_neg (by omega), if_pos hc]
      rfl
    | cons d skip ih =>
      intro pc hs
      have hd : d = 58 ∨ d = 32 := hs d (.head _)
      rw [List.cons_append, str2bmLoop, if_neg (by omega), if_neg (by omega), if_pos hd]
      exact ih _ (fun d hd => hs d (.tail _ hd))
  exact key _ skip 0 hs

example : str2bm letTab ⟨.w8, false⟩ (S ": |red") = .ub := by decide +kernel

theorem digits_then_letter (t : ETab) (ty : ITy) (s : List Nat) (rest : List Nat) {l : Nat} (hl : BmLetter l) {f : Nat} {st : BmState} (hf : st.f = some f) (hst : st.started = true)
    (hn : st.num = true) (ha : st.alnum = false) : ∀ (ds : List Nat) (pc : Nat), (∀ c ∈ ds, BmDigit c) → (pc + ds.length ≠ f + 1 ∨ (l ≠ 120 ∧ l ≠ 88)) → f < pc →
    str2bmLoop t ty s (ds ++ l :: rest) pc st = .abort := by
  intro ds
  induction ds with
  | nil =>
    intro pc _ hx hpc
    have hl' : (97 ≤ l ∧ l ≤ 122) ∨ (65 ≤ l ∧ l ≤ 90) ∨ l = 95 := hl
    rw [List.nil_append, str2bmLoop, if_pos hl', if_neg]
    rintro (h | ⟨h1, h2⟩)
    · rw [hn] at h; cases h
    · unfold bmAtOne at h1
      rw [hf] at h1
      simp only [decide_eq_true_eq] at h1
      simp only [List.length_nil] at hx
      omega
  | cons d ds ih =>
    intro pc hd hx hpc
    have h1 : 48 ≤ d ∧ d ≤ 57 := hd d (.head _)
    have h2 : ¬ ((97 ≤ d ∧ d ≤ 122) ∨ (65 ≤ d ∧ d ≤ 90) ∨ d = 95) := by omega
    rw [List.cons_append, str2bmLoop, if_neg h2, if_pos h1, ha, if_neg (by simp), hst, if_pos rfl]
    exact ih (pc + 1) (fun c hc => hd c (.tail _ hc)) (by simp only [List.length_cons] at hx; omega) (by omega)

/-- **C97**, why hexadecimal numbers fail: a number with a letter after its first digits is refused, whatever follows; the exception is a letter `x` after a single digit, and after this `x` the same holds. -/
theorem C97_letters (t : ETab) (ty : ITy) (d : Nat) (ds rest : List Nat) {l : Nat} (hd : BmDigit d) (hds : ∀ c ∈ ds, BmDigit c) (hl : BmLetter l) :
    ((ds ≠ [] ∨ (l ≠ 120 ∧ l ≠ 88)) → str2bm t ty (d :: ds ++ l :: rest) = .abort) ∧
    (∀ x, x = 120 ∨ x = 88 → str2bm t ty (d :: x :: ds ++ l :: rest) = .abort) := by
  have hd : 48 ≤ d ∧ d ≤ 57 := hd
  have h2 : ¬ ((97 ≤ d ∧ d ≤ 122) ∨ (65 ≤ d ∧ d ≤ 90) ∨ d = 95) := by omega
  constructor
  · intro hx
    unfold str2bm
    rw [List.cons_append, str2bmLoop, if_neg h2, if_pos hd]
    refine digits_then_letter t ty _ rest hl (f := 0) rfl rfl rfl rfl ds 1 hds ?_ (by omega)
    rcases hx with hx | hx
    · left
      cases ds with
      | nil => exact absurd rfl hx
      | cons a b => simp only [List.length_cons]; omega
    · exact .inr hx
  · intro x hx
    unfold str2bm
    have hx' : (97 ≤ x ∧ x ≤ 122) ∨ (65 ≤ x ∧ x ≤ 90) ∨ x = 95 := by omega
    rw [List.cons_append, List.cons_append, str2bmLoop, if_neg h2, if_pos hd, if_neg (by simp), str2bmLoop, if_pos hx', if_pos (.inr ⟨rfl, hx⟩)]
    exact digits_then_letter t ty _ rest hl (f := 0) rfl rfl rfl rfl ds 2 hds (by omega) (by omega)

example : str2bm letTab ⟨.w8, false⟩ (S "0x1f|red") = .abort ∧ str2bm letTab ⟨.w8, false⟩ (S "0xf") = .abort ∧ str2bm letTab ⟨.w8, false⟩ (S "12ab") = .abort ∧
    str2bm letTab ⟨.w8, false⟩ (S "0x12") = .ok 18 := by decide +kernel

end C4
