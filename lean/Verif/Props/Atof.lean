import Verif.Charconv.Atof
import Verif.Props.FastFloatChars
import Verif.Props.SubstrSpans
import Verif.Props.Rhex
/-
Properties C116 and C117: `atof`, `atod`, `atof_first`, `atod_first`.
-/
namespace C4
open Spec FF

/-- A decimal number does not begin with 0x. -/
theorem atofHex_decimal (t : Decimal) (ht : t.WF) (r : List Nat) (v : Rat) : (∀ x, r.head? = some x → x ≠ 120 ∧ x ≠ 88) → atofHex (t.text ++ r) v = .ok none := by
  intro hr
  have hhead : ∃ d s, t.int ++ (Decimal.fracText t.frac ++ Decimal.expText t.exp) ++ r = d :: s ∧ (IsDigit d ∨ d = 46) ∧ (∀ x s', s = x :: s' → x ≠ 120 ∧ x ≠ 88) := by
    have hne := ht.nonempty
    have hdg := ht.digits
    have hex := ht.exp
    have hr' : ∀ x s', r = x :: s' → x ≠ 120 ∧ x ≠ 88 := fun x s' h => hr x (by rw [h]; rfl)
    have hE : ∀ x s', Decimal.expText t.exp ++ r = x :: s' → x ≠ 120 ∧ x ≠ 88 := by
      intro x s' h
      cases he : t.exp with
      | none => rw [he] at h; exact hr' x s' h
      | some w =>
        obtain ⟨e, sg, ds⟩ := w
        rw [he] at h
        simp only [Decimal.expText, List.cons_append, List.cons.injEq] at h
        have := (hex e sg ds he).1
        omega
    have hF : ∀ x s', Decimal.fracText t.frac ++ Decimal.expText t.exp ++ r = x :: s' → x ≠ 120 ∧ x ≠ 88 := by
      intro x s' h
      cases hf : t.frac with
      | none => rw [hf, List.append_assoc] at h; exact hE x s' h
      | some w =>
        rw [hf] at h
        simp only [Decimal.fracText, List.cons_append, List.cons.injEq] at h
        omega
    unfold Decimal.digits at hne hdg
    cases hi : t.int with
    | cons d s =>
      rw [hi] at hdg
      refine ⟨d, s ++ (Decimal.fracText t.frac ++ Decimal.expText t.exp) ++ r, rfl, Or.inl (hdg d (by simp)), ?_⟩
      intro x s' h
      cases s with
      | nil => exact hF x s' h
      | cons y s =>
        simp only [List.cons_append, List.cons.injEq] at h
        have := hdg y (by simp)
        unfold IsDigit at this
        omega
    | nil =>
      cases hf : t.frac with
      | none => rw [hi, hf] at hne; exact absurd rfl hne
      | some w =>
        refine ⟨46, w ++ Decimal.expText t.exp ++ r, rfl, Or.inr rfl, ?_⟩
        intro x s' h
        cases w with
        | nil => exact hE x s' h
        | cons y w =>
          simp only [List.cons_append, List.cons.injEq] at h
          have := hdg y (by rw [hi, hf]; simp)
          unfold IsDigit at this
          omega
  obtain ⟨d, s, h1, h2, h3⟩ := hhead
  unfold IsDigit at h2
  unfold Decimal.text
  rw [List.append_assoc, h1]
  have key : ∀ neg : Bool, (match d :: s with
      | 48 :: x :: t =>
        if x = 120 ∨ x = 88 then do
          let (ok, r) ← scanRhex t v
          .ok (some (if ok then (true, r * (if neg then -1 else 1)) else (false, r)))
        else .ok none
      | _ => .ok none) = (.ok none : Res (Option (Bool × Rat))) := by
    intro neg
    split
    · rename_i x t' heq
      simp only [List.cons.injEq] at heq
      have := h3 x t' heq.2
      rw [if_neg (by omega)]
    · rfl
  cases t.neg
  · have hd : ¬ (d = 45 ∨ d = 43) := by omega
    simp only [Bool.false_eq_true, if_false, List.nil_append, atofHex, rd, List.getElem?_cons_zero, Res.ok_bind, if_neg hd]
    exact key _
  · simp only [if_true, List.cons_append, List.nil_append, atofHex, rd, List.getElem?_cons_zero, Res.ok_bind, true_or, List.drop_succ_cons, List.drop_zero]
    exact key _

/-- The result of `atof` for a text that is a number. -/
theorem atof_decimal {f : Fmt} {F : Ieee} (hf : (f = dbl ∧ F = binary64) ∨ (f = flt ∧ F = binary32)) (fpu : Fpu) (t : Decimal) (v : Rat) (ht : t.WF)
    (hl : t.digits.length + 400 ≤ 2 ^ 28 ∨ |t.expVal| < 2 ^ 28) :
    ∃ ok b, atof f fpu t.text v = .ok (ok, .dec (some (.bits (b + (if t.neg then F.signBit else 0))))) ∧ F.Nearest t.mag b ∧
      (ok = true ↔ b ≠ F.infBits ∧ (b = 0 → t.mag = 0)) := by
  have hL : Longest t.text t [] := ⟨ht, (List.append_nil _).symm, fun _ _ _ _ => Nat.zero_le _⟩
  have hb : ∀ c ∈ t.text, c < 256 := by
    intro c hc
    have hd := ht.digits
    unfold Decimal.digits at hd
    unfold Decimal.text at hc
    rw [List.mem_append, List.mem_append, List.mem_append] at hc
    rcases hc with hc | hc | hc | hc
    · cases hn : t.neg <;> rw [hn] at hc
      · cases hc
      · simp at hc; omega
    · have := hd c (List.mem_append_left _ hc)
      unfold IsDigit at this
      omega
    · cases hf : t.frac with
      | none => rw [hf] at hc; cases hc
      | some w =>
        rw [hf] at hc hd
        rcases List.mem_cons.1 hc with rfl | hc
        · decide
        · have := hd c (List.mem_append_right _ hc)
          unfold IsDigit at this
          omega
    · cases he : t.exp with
      | none => rw [he] at hc; cases hc
      | some w =>
        obtain ⟨e, sg, ds⟩ := w
        obtain ⟨h1, h2, -, h4⟩ := ht.exp e sg ds he
        rw [he] at hc
        simp only [Decimal.expText, List.mem_cons, List.mem_append, Option.mem_toList] at hc
        rcases hc with rfl | hc | hc
        · omega
        · rcases h2 with rfl | rfl | rfl <;> simp at hc <;> omega
        · have := h4 c hc
          unfold IsDigit at this
          omega
  obtain ⟨b, h1, h2⟩ := fromChars_read hf fpu hL hb
  have hx := atofHex_decimal t ht [] v (by simp)
  rw [List.append_nil] at hx
  have hm : t.mag = 0 ↔ digitsVal t.digits = 0 := mag_eq_zero t
  refine ⟨(if b = F.infBits ∨ b = 0 ∧ digitsVal t.digits ≠ 0 then Errc.resultOutOfRange else Errc.none) == .none, b, ?_, cap_nearest (IsFmt.ok hf) ht hl b h1, ?_⟩
  · unfold atof
    rw [hx, Res.ok_bind]
    dsimp only
    rw [h2, Res.ok_bind]
  · rw [hm]
    by_cases h : b = F.infBits ∨ b = 0 ∧ digitsVal t.digits ≠ 0
    · rw [if_pos h]
      simp only [beq_iff_eq, reduceCtorEq, false_iff]
      tauto
    · rw [if_neg h]
      simp only [beq_self_eq_true, true_iff]
      tauto

/-- C116, as far as it holds: a decimal number without plus sign is converted to the nearest float or double, and the conversion succeeds if and only if that
is neither infinite nor 0 for a number that is not.
Missing: other texts; see `C116_refuted`. -/
theorem C116_decimal_partial {f : Fmt} {F : Ieee} (hf : (f = dbl ∧ F = binary64) ∨ (f = flt ∧ F = binary32)) (fpu : Fpu) (t : Decimal) (v : Rat) (ht : t.WF)
    (hl : t.digits.length + 400 ≤ 2 ^ 28 ∨ |t.expVal| < 2 ^ 28) :
    ∃ ok b, atof f fpu t.text v = .ok (ok, .dec (some (.bits (b + (if t.neg then F.signBit else 0))))) ∧ F.Nearest t.mag b ∧
      (ok = true ↔ b ≠ F.infBits ∧ (b = 0 → t.mag = 0)) :=
  atof_decimal hf fpu t v ht hl

/-- -2.5e3 is -2500. -/
example : (⟨true, S "2", some (S "5"), some (101, none, S "3")⟩ : Decimal).WF ∧
    (⟨true, S "2", some (S "5"), some (101, none, S "3")⟩ : Decimal).text = S "-2.5e3" ∧
    (⟨true, S "2", some (S "5"), some (101, none, S "3")⟩ : Decimal).mag = 2500 := by
  refine ⟨⟨by decide, by decide, ?_⟩, by decide, by decide +kernel⟩
  intro e sg ds h
  cases h
  exact ⟨Or.inl rfl, Or.inl rfl, by decide, by decide⟩

/-- Words are not hexadecimal numbers. -/
theorem atofHex_word (neg : Bool) (c : Nat) (r : List Nat) (v : Rat) (hc : 65 ≤ c) : atofHex (minus neg ++ c :: r) v = .ok none := by
  have key : ∀ neg : Bool, (match c :: r with
      | 48 :: x :: t =>
        if x = 120 ∨ x = 88 then do
          let (ok, r) ← scanRhex t v
          .ok (some (if ok then (true, r * (if neg then -1 else 1)) else (false, r)))
        else .ok none
      | _ => .ok none) = (.ok none : Res (Option (Bool × Rat))) := by
    intro neg
    split
    · rename_i x t' heq
      simp only [List.cons.injEq] at heq
      omega
    · rfl
  cases neg
  · have hd : ¬ (c = 45 ∨ c = 43) := by omega
    simp only [minus, Bool.false_eq_true, if_false, List.nil_append, atofHex, rd, List.getElem?_cons_zero, Res.ok_bind, if_neg hd]
    exact key _
  · simp only [minus, if_true, List.cons_append, List.nil_append, atofHex, rd, List.getElem?_cons_zero, Res.ok_bind, true_or, List.drop_succ_cons, List.drop_zero]
    exact key _

/-- C116: "inf", "infinity" and "nan", in any case and with an optional minus sign, are converted. -/
theorem C116_words {f : Fmt} {F : Ieee} (hf : (f = dbl ∧ F = binary64) ∨ (f = flt ∧ F = binary32)) (fpu : Fpu) (neg : Bool) (w : List Nat) (v : Rat) :
    (SameWord w wordInf ∨ SameWord w (wordInf ++ wordInity) → atof f fpu (minus neg ++ w) v = .ok (true, .dec (some (.bits (F.infBits + (if neg then F.signBit else 0)))))) ∧
    (SameWord w wordNan → atof f fpu (minus neg ++ w) v = .ok (true, .dec (some (.nan neg)))) := by
  have bytes : ∀ {w word : List Nat}, SameWord w word → (∀ l ∈ word, l < 256) → ∀ c ∈ minus neg ++ w, c < 256 := by
    intro w word hw hl c hc
    rcases List.mem_append.1 hc with hc | hc
    · unfold minus at hc
      cases neg
      · cases hc
      · simp at hc; omega
    · induction hw with
      | nil => cases hc
      | cons h1 h2 ih =>
        rcases List.mem_cons.1 hc with rfl | hc
        · have := hl _ List.mem_cons_self
          omega
        · exact ih (fun l hl' => hl l (List.mem_cons_of_mem _ hl')) (List.mem_append_right _ hc) hc
  have head : ∀ {w word : List Nat} {l : Nat}, SameWord w (l :: word) → 97 ≤ l → ∃ c r, w = c :: r ∧ 65 ≤ c := by
    intro w word l hw hl
    cases hw with
    | cons h1 h2 => exact ⟨_, _, rfl, by omega⟩
  constructor
  · intro h
    have hex : atofHex (minus neg ++ w) v = .ok none := by
      obtain ⟨c, r, rfl, hc⟩ : ∃ c r, w = c :: r ∧ 65 ≤ c := h.elim (fun h => head h (by decide)) (fun h => head h (by decide))
      exact atofHex_word neg c r v hc
    have main : ∃ ptr, fromChars f fpu (minus neg ++ w) = .ok ⟨ptr, .none, some (.bits (F.infBits + (if neg then F.signBit else 0)))⟩ := by
      rcases h with h | h
      · obtain ⟨ptr, h1, -⟩ := C115_inf hf fpu neg w [] h (by rw [List.append_nil]; exact bytes h (by decide))
        rw [List.append_nil] at h1
        exact ⟨ptr, h1⟩
      · have hlen := sameWord_length h
        have h3 : SameWord (w.take 3) wordInf := by
          have := List.forall₂_take 3 h
          exact this
        obtain ⟨ptr, h1, -⟩ := C115_inf hf fpu neg (w.take 3) (w.drop 3) h3 (by rw [List.take_append_drop]; exact bytes h (by decide))
        rw [List.take_append_drop] at h1
        exact ⟨ptr, h1⟩
    obtain ⟨ptr, h1⟩ := main
    unfold atof
    rw [hex, Res.ok_bind]
    dsimp only
    rw [h1, Res.ok_bind]
    rfl
  · intro h
    have hex : atofHex (minus neg ++ w) v = .ok none := by
      obtain ⟨c, r, rfl, hc⟩ : ∃ c r, w = c :: r ∧ 65 ≤ c := head h (by decide)
      exact atofHex_word neg c r v hc
    obtain ⟨ptr, h1, -⟩ := C115_nan f fpu neg w [] h (by rw [List.append_nil]; exact bytes h (by decide))
    rw [List.append_nil] at h1
    unfold atof
    rw [hex, Res.ok_bind]
    dsimp only
    rw [h1, Res.ok_bind]
    rfl

/-- A text without the prefix of hexadecimal numbers. -/
theorem atofHex_none {s : List Nat} (v : Rat) (hne : s ≠ [])
    (h3 : ¬ ∃ sg x r, s = sg ++ 48 :: x :: r ∧ (sg = [] ∨ sg = [43] ∨ sg = [45]) ∧ (x = 120 ∨ x = 88)) : atofHex s v = .ok none := by
  obtain ⟨c, r, rfl⟩ := List.exists_cons_of_ne_nil hne
  unfold atofHex
  simp only [rd, List.getElem?_cons_zero, Res.ok_bind]
  split
  · rename_i x t heq
    rw [if_neg]
    intro hx
    apply h3
    by_cases hc : c = 45 ∨ c = 43
    · rw [if_pos hc] at heq
      refine ⟨[c], x, t, by rw [← heq]; rfl, ?_, hx⟩
      rcases hc with rfl | rfl
      · exact Or.inr (Or.inr rfl)
      · exact Or.inr (Or.inl rfl)
    · rw [if_neg hc] at heq
      exact ⟨[], x, t, heq, Or.inl rfl, hx⟩
  · rfl

/-- C116 for a text that begins with a number and is not hexadecimal: the longest number that it begins with is converted as above, and the rest is ignored. -/
theorem C116_prefix {f : Fmt} {F : Ieee} (hf : (f = dbl ∧ F = binary64) ∨ (f = flt ∧ F = binary32)) (fpu : Fpu) (s : List Nat) (t : Decimal) (rest : List Nat) (v : Rat)
    (h : Longest s t rest) (hb : ∀ c ∈ s, c < 256) (h3 : ¬ ∃ sg x r, s = sg ++ 48 :: x :: r ∧ (sg = [] ∨ sg = [43] ∨ sg = [45]) ∧ (x = 120 ∨ x = 88))
    (hl : t.digits.length + 400 ≤ 2 ^ 28 ∨ |t.expVal| < 2 ^ 28) :
    ∃ ok b, atof f fpu s v = .ok (ok, .dec (some (.bits (b + (if t.neg then F.signBit else 0))))) ∧ F.Nearest t.mag b ∧
      (ok = true ↔ b ≠ F.infBits ∧ (b = 0 → t.mag = 0)) := by
  have hne : s ≠ [] := by
    intro h0
    have hs := h.split
    rw [h0] at hs
    have h1 := (List.append_eq_nil_iff.1 hs.symm).1
    have h2 := h.wf.nonempty
    unfold Decimal.text at h1
    unfold Decimal.digits at h2
    simp only [List.append_eq_nil_iff] at h1
    rw [h1.2.1] at h2
    cases hfr : t.frac with
    | none => rw [hfr] at h2; exact h2 rfl
    | some w => rw [hfr] at h1; exact absurd h1.2.2.1 (by simp [Decimal.fracText])
  obtain ⟨b, h1, h2⟩ := fromChars_read hf fpu h hb
  have hm : t.mag = 0 ↔ digitsVal t.digits = 0 := mag_eq_zero t
  refine ⟨(if b = F.infBits ∨ b = 0 ∧ digitsVal t.digits ≠ 0 then Errc.resultOutOfRange else Errc.none) == .none, b, ?_, cap_nearest (IsFmt.ok hf) h.wf hl b h1, ?_⟩
  · unfold atof
    rw [atofHex_none v hne h3, Res.ok_bind]
    dsimp only
    rw [h2, Res.ok_bind]
  · rw [hm]
    by_cases h : b = F.infBits ∨ b = 0 ∧ digitsVal t.digits ≠ 0
    · rw [if_pos h]
      simp only [beq_iff_eq, reduceCtorEq, false_iff]
      tauto
    · rw [if_neg h]
      simp only [beq_self_eq_true, true_iff]
      tauto

/-- C116: a text that begins neither with a number nor with one of the words, and is not hexadecimal, is refused and nothing is assigned. -/
theorem C116_others (f : Fmt) (fpu : Fpu) (s : List Nat) (v : Rat) (hne : s ≠ []) (hb : ∀ c ∈ s, c < 256) (h1 : NoNumber s)
    (h2 : ¬ ∃ neg w r, s = minus neg ++ (w ++ r) ∧ (SameWord w wordNan ∨ SameWord w wordInf))
    (h3 : ¬ ∃ sg x r, s = sg ++ 48 :: x :: r ∧ (sg = [] ∨ sg = [43] ∨ sg = [45]) ∧ (x = 120 ∨ x = 88)) : atof f fpu s v = .ok (false, .dec none) := by
  have hex := atofHex_none v hne h3
  unfold atof
  rw [hex, Res.ok_bind]
  dsimp only
  rw [C115_refused f fpu s hb h1 h2, Res.ok_bind]
  rfl

/-- C116 fails: characters after a number are ignored, and a plus sign is refused although `is_real()` and the hexadecimal numbers admit it. -/
theorem C116_refuted (fpu : Fpu) (v : Rat) :
    (∃ b, atof dbl fpu (S "1.5abc") v = .ok (true, .dec (some (.bits b)))) ∧ isReal (S "1.5abc") = .ok false ∧
    atof dbl fpu (S "+1.5") v = .ok (false, .dec none) ∧ isReal (S "+1.5") = .ok true := by
  refine ⟨?_, by decide +kernel, rfl, by decide +kernel⟩
  have hx : atofHex (S "1.5abc") v = .ok none := rfl
  have hp : parseNumberString (S "1.5abc") = .ok ⟨-1, 15, S "abc", false, true, false, S "1", some (S "5")⟩ := by decide +kernel
  have hh : Handed ⟨-1, 15, S "abc", false, true, false, S "1", some (S "5")⟩ (-1) := ⟨by decide, by decide +kernel⟩
  obtain ⟨b, h1, h2⟩ := fromCharsPns_spec (f := dbl) (F := binary64) (Or.inl ⟨rfl, rfl⟩) fpu hh
  have hno : ¬ (b = binary64.infBits ∨ (b = 0 ∧ digitsVal (S "1" ++ (some (S "5")).getD []) ≠ 0)) := by
    have hb : b = 0x3FF8000000000000 := by
      refine nearest_unique binary64 h1 ?_
      have hv : ((digitsVal (S "1" ++ (some (S "5")).getD []) : ℕ) : ℚ) * 10 ^ (-1 : ℤ) = binary64.val 0x3FF8000000000000 := by decide +kernel
      refine Eq.subst (motive := fun x => binary64.Nearest x _) hv.symm (nearest_self binary64 (by decide))
    rw [hb]
    decide
  refine ⟨b + 0, ?_⟩
  unfold atof
  rw [hx, Res.ok_bind]
  dsimp only
  unfold fromChars
  rw [if_neg (by decide), hp]
  dsimp only
  rw [if_pos rfl, h2, if_neg hno, Res.ok_bind]
  rfl

/-- A decimal number is a real token. -/
theorem realToken_decimal (t : Decimal) (ht : t.WF) : RealToken t.text := by
  refine ⟨if t.neg then [45] else [], t.int ++ (Decimal.fracText t.frac ++ Decimal.expText t.exp), rfl, ?_, .dec ⟨t.int, Decimal.fracText t.frac, Decimal.expText t.exp, ?_, ?_, ?_, ?_⟩⟩
  · cases t.neg
    · exact Or.inl rfl
    · exact Or.inr (Or.inr ⟨rfl, rfl⟩)
  · rw [List.append_assoc]
  · exact fun c hc => ht.digits c (List.mem_append_left _ hc)
  · have hne := ht.nonempty
    have hdg := ht.digits
    unfold Decimal.digits at hne hdg
    cases hf : t.frac with
    | none =>
      rw [hf] at hne
      exact Or.inl ⟨rfl, by simpa using hne⟩
    | some w =>
      rw [hf] at hne hdg
      refine Or.inr ⟨w, rfl, fun c hc => hdg c (List.mem_append_right _ hc), ?_⟩
      by_cases hi : t.int = []
      · right
        rw [hi] at hne
        exact hne
      · exact Or.inl hi
  · cases he : t.exp with
    | none => exact Or.inl rfl
    | some w =>
      obtain ⟨e, sg, ds⟩ := w
      obtain ⟨h1, h2, h3, h4⟩ := ht.exp e sg ds he
      refine Or.inr ⟨e, sg.toList, ds, rfl, h1, ?_, h3, h4⟩
      rcases h2 with rfl | rfl | rfl <;> simp

/-- C117, as far as it holds: for blanks, a decimal number without plus sign, and a delimiter or the end, the position after the number is returned and the nearest
float or double is assigned, unless that is infinite or 0 for a number that is not.
Missing: numbers with a plus sign, binary, octal and hexadecimal numbers; see `C117_refuted`. -/
theorem C117_decimal_partial {f : Fmt} {F : Ieee} (hf : (f = dbl ∧ F = binary64) ∨ (f = flt ∧ F = binary32)) (fpu : Fpu) (ws rest : List Nat) (t : Decimal) (v : Rat)
    (hws : ∀ c ∈ ws, Blank c) (ht : t.WF) (hrest : DelimEnd rest) (hl : t.digits.length + 400 ≤ 2 ^ 28 ∨ |t.expVal| < 2 ^ 28) :
    ∃ n b, atofFirst f fpu (ws ++ t.text ++ rest) v = .ok (n, .dec (some (.bits (b + (if t.neg then F.signBit else 0))))) ∧ F.Nearest t.mag b ∧
      (b ≠ F.infBits ∧ (b = 0 → t.mag = 0) → n = some (ws.length + t.text.length)) ∧ (b = F.infBits ∨ (b = 0 ∧ t.mag ≠ 0) → n = none) := by
  obtain ⟨r, h1, -, h3, -⟩ := C45_real_span (ws ++ t.text ++ rest)
  have hr := h3 ws.length t.text.length ⟨ws, t.text, rest, rfl, hws, realToken_decimal t ht, hrest, rfl, rfl⟩
  obtain ⟨ok, b, a1, a2, a3⟩ := atof_decimal hf fpu t v ht hl
  have hne : t.text.length ≠ 0 := by
    intro h
    have h0 : t.text = [] := List.length_eq_zero_iff.1 h
    have := ht.nonempty
    unfold Decimal.text at h0
    simp only [List.append_eq_nil_iff] at h0
    unfold Decimal.digits at this
    rw [h0.2.1] at this
    cases hfr : t.frac with
    | none => rw [hfr] at this; exact this rfl
    | some w => rw [hfr] at h0; exact absurd h0.2.2.1 (by simp [Decimal.fracText])
  have hof : Rng.of (ws ++ t.text ++ rest) (ws.length, t.text.length) = t.text := by
    unfold Rng.of
    simp [List.append_assoc]
  refine ⟨if ok then some (ws.length + t.text.length) else none, b, ?_, a2, ?_, ?_⟩
  · unfold atofFirst
    rw [h1, hr, Res.ok_bind]
    dsimp only
    rw [if_neg hne, hof, a1, Res.ok_bind]
  · intro h
    rw [a3.2 h]
    rfl
  · intro h
    have : ¬ ok = true := by rw [a3]; tauto
    rw [if_neg this]

/-- `atof_first` converts a token that stands first. -/
theorem atofFirst_token {f : Fmt} {fpu : Fpu} {ws tok rest : List Nat} {v : Rat} (hws : ∀ c ∈ ws, Blank c) (ht : RealToken tok) (hne : tok ≠ []) (hrest : DelimEnd rest) {ok : Bool}
    {out : RealOut} (ha : atof f fpu tok v = .ok (ok, out)) :
    atofFirst f fpu (ws ++ tok ++ rest) v = .ok (if ok then some (ws.length + tok.length) else none, out) := by
  obtain ⟨r, h1, -, h3, -⟩ := C45_real_span (ws ++ tok ++ rest)
  have hr := h3 ws.length tok.length ⟨ws, tok, rest, rfl, hws, ht, hrest, rfl, rfl⟩
  have hof : Rng.of (ws ++ tok ++ rest) (ws.length, tok.length) = tok := by
    unfold Rng.of
    simp [List.append_assoc]
  unfold atofFirst
  rw [h1, hr, Res.ok_bind]
  dsimp only
  rw [if_neg (by simpa using hne), hof, ha, Res.ok_bind]

/-- C116 for hexadecimal numbers without letter digits and with exponent zero or none, into a variable that holds zero: the value is exact (over the rationals; see C22).
Missing: other hexadecimal numbers, for which it is false (C22). -/
theorem C116_hex_partial (f : Fmt) (fpu : Fpu) (b : List Nat) (x : Rat) (h : HexReal b 0 x) (hdec : ∀ c ∈ b, ¬ (97 ≤ c ∧ c ≤ 102) ∧ ¬ (65 ≤ c ∧ c ≤ 70)) (p : Nat) (hp : p = 120 ∨ p = 88) :
    atof f fpu (48 :: p :: b) 0 = .ok (true, .hex x) ∧ atof f fpu (43 :: 48 :: p :: b) 0 = .ok (true, .hex x) ∧ atof f fpu (45 :: 48 :: p :: b) 0 = .ok (true, .hex (-x)) := by
  obtain ⟨h1, h2, h3⟩ := (C22_value_partial b x h hdec).2 p (by simpa using hp)
  unfold atof
  refine ⟨?_, ?_, ?_⟩
  · rw [h1, Res.ok_bind]
  · rw [h2, Res.ok_bind]
  · rw [h3, Res.ok_bind]

/-- C117 for hexadecimal numbers, as far as C116 holds for them. -/
theorem C117_hex_partial (f : Fmt) (fpu : Fpu) (ws rest b : List Nat) (x : Rat) (hws : ∀ c ∈ ws, Blank c) (hrest : DelimEnd rest) (h : HexReal b 0 x)
    (hdec : ∀ c ∈ b, ¬ (97 ≤ c ∧ c ≤ 102) ∧ ¬ (65 ≤ c ∧ c ≤ 70)) (hb : RealBody HexChar IsP [[43], [45]] b) (p : Nat) (hp : p = 120 ∨ p = 88) :
    atofFirst f fpu (ws ++ 48 :: p :: b ++ rest) 0 = .ok (some (ws.length + (b.length + 2)), .hex x) ∧
    atofFirst f fpu (ws ++ 43 :: 48 :: p :: b ++ rest) 0 = .ok (some (ws.length + (b.length + 3)), .hex x) ∧
    atofFirst f fpu (ws ++ 45 :: 48 :: p :: b ++ rest) 0 = .ok (some (ws.length + (b.length + 3)), .hex (-x)) := by
  obtain ⟨h1, h2, h3⟩ := C116_hex_partial f fpu b x h hdec p hp
  refine ⟨?_, ?_, ?_⟩
  · exact atofFirst_token hws ⟨[], _, rfl, Or.inl rfl, .hex hp hb⟩ (by simp) hrest h1
  · exact atofFirst_token hws ⟨[43], _, rfl, Or.inr (Or.inl rfl), .hex hp hb⟩ (by simp) hrest h2
  · exact atofFirst_token hws ⟨[45], _, rfl, Or.inr (Or.inr ⟨rfl, rfl⟩), .hex hp hb⟩ (by simp) hrest h3

/-- 0x12.8p+0 is 37/2. -/
example : HexReal (S "12.8p+0") 0 (37 / 2) ∧ RealBody HexChar IsP [[43], [45]] (S "12.8p+0") := by
  refine ⟨⟨S "12", S ".8", S "p+0", [1, 2], [8], rfl, ⟨rfl, by decide⟩, Or.inr ⟨S "8", rfl, ⟨rfl, by decide⟩, by decide⟩,
    Or.inr ⟨112, [43], S "0", 0, rfl, Or.inl rfl, ⟨by decide, [0], ⟨rfl, by decide⟩, rfl⟩, Or.inr (Or.inl ⟨rfl, rfl⟩)⟩, by decide +kernel⟩, ?_⟩
  refine ⟨S "12", S ".8", S "p+0", rfl, by unfold HexChar; decide, Or.inr ⟨S "8", rfl, by unfold HexChar; decide, Or.inl (by decide)⟩, Or.inr ⟨112, [43], S "0", rfl, Or.inl rfl, by simp, by decide, by unfold DecChar; decide⟩⟩

/-- C117 for the words that are tokens: `inf`, `infinity` and `nan` in lower case, with an optional minus sign. -/
theorem C117_words {f : Fmt} {F : Ieee} (hf : (f = dbl ∧ F = binary64) ∨ (f = flt ∧ F = binary32)) (fpu : Fpu) (ws rest : List Nat) (neg : Bool) (v : Rat)
    (hws : ∀ c ∈ ws, Blank c) (hrest : DelimEnd rest) :
    (∀ w, w = S "inf" ∨ w = S "infinity" → atofFirst f fpu (ws ++ (minus neg ++ w) ++ rest) v =
      .ok (some (ws.length + (minus neg ++ w).length), .dec (some (.bits (F.infBits + (if neg then F.signBit else 0)))))) ∧
    atofFirst f fpu (ws ++ (minus neg ++ S "nan") ++ rest) v = .ok (some (ws.length + (minus neg ++ S "nan").length), .dec (some (.nan neg))) := by
  have hsg : SignText true (minus neg) := by
    cases neg
    · exact Or.inl rfl
    · exact Or.inr (Or.inr ⟨rfl, rfl⟩)
  have same : ∀ w : List Nat, SameWord w w := fun w => by
    induction w with
    | nil => exact .nil
    | cons c w ih => exact .cons (Or.inl rfl) ih
  have hc := C116_words hf fpu neg
  refine ⟨?_, ?_⟩
  · rintro w (rfl | rfl)
    · exact atofFirst_token hws ⟨_, _, rfl, hsg, .inf⟩ (by cases neg <;> simp [minus]) hrest ((hc _ v).1 (Or.inl (same _)))
    · exact atofFirst_token hws ⟨_, _, rfl, hsg, .infinity⟩ (by cases neg <;> simp [minus]) hrest ((hc _ v).1 (Or.inr (same _)))
  · exact atofFirst_token hws ⟨_, _, rfl, hsg, .nan⟩ (by cases neg <;> simp [minus]) hrest ((hc _ v).2 (same _))

/-- C117: if no real number stands first, nothing is converted. -/
theorem C117_none (f : Fmt) (fpu : Fpu) (s : List Nat) (v : Rat) (h : ¬ ∃ off n, TokenAt RealToken s off n) : atofFirst f fpu s v = .ok (none, .dec none) := by
  obtain ⟨r, h1, -, -, h4⟩ := C45_real_span s
  unfold atofFirst
  rw [h1, Res.ok_bind]
  by_cases h0 : r.2 = 0
  · exact if_pos h0
  · exact absurd ⟨_, _, h4 h0⟩ h

/-- C116 and C117 for texts with a plus sign: nothing that begins with one is converted, except hexadecimal numbers. -/
theorem C117_plus (f : Fmt) (fpu : Fpu) (ws rest s : List Nat) (v : Rat) (hb : ∀ c ∈ s, c < 256) (hx : ¬ ∃ x r, s = 48 :: x :: r ∧ (x = 120 ∨ x = 88)) :
    atof f fpu (43 :: s) v = .ok (false, .dec none) ∧
    ((∀ c ∈ ws, Blank c) → RealToken (43 :: s) → DelimEnd rest → atofFirst f fpu (ws ++ 43 :: s ++ rest) v = .ok (none, .dec none)) := by
  have h1 : NoNumber (43 :: s) := by
    intro t r ht hs
    have hhead : ∃ d s', t.int ++ (Decimal.fracText t.frac ++ Decimal.expText t.exp) = d :: s' ∧ (IsDigit d ∨ d = 46) := by
      have hne := ht.nonempty
      have hdg := ht.digits
      unfold Decimal.digits at hne hdg
      cases hi : t.int with
      | cons d l => exact ⟨d, _, rfl, Or.inl (hdg d (by rw [hi]; simp))⟩
      | nil =>
        cases hfr : t.frac with
        | none => rw [hi, hfr] at hne; exact absurd rfl hne
        | some w => exact ⟨46, _, rfl, Or.inr rfl⟩
    obtain ⟨d, s', hd, hd'⟩ := hhead
    unfold Decimal.text at hs
    rw [hd] at hs
    unfold IsDigit at hd'
    cases ht : t.neg <;> rw [ht] at hs <;> simp at hs <;> omega
  have h2 : ¬ ∃ neg w r, 43 :: s = minus neg ++ (w ++ r) ∧ (SameWord w wordNan ∨ SameWord w wordInf) := by
    rintro ⟨neg, w, r, hs, hw⟩
    have hh : ∃ c w', w = c :: w' ∧ c ≠ 43 := by
      rcases hw with hw | hw
      · cases hw with | cons h _ => exact ⟨_, _, rfl, by omega⟩
      · cases hw with | cons h _ => exact ⟨_, _, rfl, by omega⟩
    obtain ⟨c, w', rfl, hc⟩ := hh
    cases neg <;> simp [minus] at hs <;> omega
  have h3 : ¬ ∃ sg x r, 43 :: s = sg ++ 48 :: x :: r ∧ (sg = [] ∨ sg = [43] ∨ sg = [45]) ∧ (x = 120 ∨ x = 88) := by
    rintro ⟨sg, x, r, hs, rfl | rfl | rfl, h⟩
    · simp at hs
    · simp at hs; exact hx ⟨x, r, hs, h⟩
    · simp at hs
  have hb' : ∀ c ∈ 43 :: s, c < 256 := by
    intro c hc
    rcases List.mem_cons.1 hc with rfl | hc
    · omega
    · exact hb c hc
  have ha := C116_others f fpu (43 :: s) v (by simp) hb' h1 h2 h3
  exact ⟨ha, fun hws ht hr => atofFirst_token hws ht (by simp) hr ha⟩

/-- A letter that is neither e nor E does not occur in a decimal number. -/
theorem decimal_noLetter {t : Decimal} (ht : t.WF) {x : Nat} (hx : 58 ≤ x) (he : x ≠ 101 ∧ x ≠ 69) : x ∉ t.text := by
  intro hc
  have hd := ht.digits
  unfold Decimal.digits at hd
  unfold Decimal.text at hc
  rw [List.mem_append, List.mem_append, List.mem_append] at hc
  rcases hc with hc | hc | hc | hc
  · cases hn : t.neg <;> rw [hn] at hc
    · cases hc
    · simp at hc; omega
  · have := hd x (List.mem_append_left _ hc)
    unfold IsDigit at this
    omega
  · cases hf : t.frac with
    | none => rw [hf] at hc; cases hc
    | some w =>
      rw [hf] at hc hd
      rcases List.mem_cons.1 hc with rfl | hc
      · omega
      · have := hd x (List.mem_append_right _ hc)
        unfold IsDigit at this
        omega
  · cases hex : t.exp with
    | none => rw [hex] at hc; cases hc
    | some w =>
      obtain ⟨e, sg, ds⟩ := w
      obtain ⟨h1, h2, -, h4⟩ := ht.exp e sg ds hex
      rw [hex] at hc
      simp only [Decimal.expText, List.mem_cons, List.mem_append, Option.mem_toList] at hc
      rcases hc with rfl | hc | hc
      · omega
      · rcases h2 with rfl | rfl | rfl <;> simp at hc <;> omega
      · have := h4 x hc
        unfold IsDigit at this
        omega

/-- C116 and C117 for texts that begin like binary or octal numbers: `atof` reads the zero before the letter and succeeds, and so `atof_first` takes every binary and octal number for 0. -/
theorem C117_binary_octal {f : Fmt} {F : Ieee} (hf : (f = dbl ∧ F = binary64) ∨ (f = flt ∧ F = binary32)) (fpu : Fpu) (ws rest r : List Nat) (neg : Bool) (x : Nat) (v : Rat)
    (hx : x = 98 ∨ x = 66 ∨ x = 111 ∨ x = 79) (hb : ∀ c ∈ r, c < 256) :
    ∃ b, F.val b = 0 ∧ atof f fpu (minus neg ++ 48 :: x :: r) v = .ok (true, .dec (some (.bits (b + (if neg then F.signBit else 0))))) ∧
      ((∀ c ∈ ws, Blank c) → RealToken (minus neg ++ 48 :: x :: r) → DelimEnd rest →
        atofFirst f fpu (ws ++ (minus neg ++ 48 :: x :: r) ++ rest) v =
          .ok (some (ws.length + (minus neg ++ 48 :: x :: r).length), .dec (some (.bits (b + (if neg then F.signBit else 0)))))) := by
  let t : Decimal := ⟨neg, [48], none, none⟩
  have ht : t.WF := by
    refine ⟨?_, by simp [t, Decimal.digits], ?_⟩
    · intro c hc
      have : c = 48 := by simpa [t, Decimal.digits] using hc
      subst this
      decide
    · intro e sg ds h
      cases h
  have hL : Longest (minus neg ++ 48 :: x :: r) t (x :: r) := by
    refine ⟨ht, ?_, ?_⟩
    · cases neg <;> rfl
    · intro u r' hu hs
      by_contra hlt
      have hlt' : r'.length ≤ r.length := by simp at hlt; omega
      have hpre : x ∉ u.text := decimal_noLetter hu (by omega) (by omega)
      have e1 : minus neg ++ 48 :: x :: r = (minus neg ++ [48, x]) ++ r := by simp
      rw [e1] at hs
      rcases List.append_eq_append_iff.1 hs with ⟨a, h1, h2⟩ | ⟨a, h1, h2⟩
      · exact hpre (by rw [h1]; simp)
      · rw [h2] at hlt'
        have : a = [] := by
          rw [List.length_append] at hlt'
          exact List.length_eq_zero_iff.1 (by omega)
        rw [this, List.append_nil] at h1
        exact hpre (by rw [← h1]; simp)
  have hbytes : ∀ c ∈ minus neg ++ 48 :: x :: r, c < 256 := by
    intro c hc
    rcases List.mem_append.1 hc with hc | hc
    · cases neg
      · cases hc
      · simp [minus] at hc; omega
    · rcases List.mem_cons.1 hc with rfl | hc
      · omega
      · rcases List.mem_cons.1 hc with rfl | hc
        · omega
        · exact hb c hc
  have h3 : ¬ ∃ sg y r', minus neg ++ 48 :: x :: r = sg ++ 48 :: y :: r' ∧ (sg = [] ∨ sg = [43] ∨ sg = [45]) ∧ (y = 120 ∨ y = 88) := by
    rintro ⟨sg, y, r', hs, rfl | rfl | rfl, h⟩ <;> cases neg <;> simp [minus] at hs <;> omega
  obtain ⟨ok, b, h1, h2, h4⟩ := C116_prefix hf fpu _ t (x :: r) v hL hbytes h3 (Or.inr (by show |(0 : Int)| < 2 ^ 28; simp))
  have hmag : t.mag = 0 := by
    rw [mag_eq_zero]
    show digitsVal [48] = 0
    decide
  rw [hmag] at h2 h4
  have hv0 : F.val 0 = 0 := by rcases hf with ⟨rfl, rfl⟩ | ⟨rfl, rfl⟩ <;> decide +kernel
  have hb0 : b = 0 := nearest_unique F h2 (by
    have := nearest_self F (b := 0) (by rcases hf with ⟨rfl, rfl⟩ | ⟨rfl, rfl⟩ <;> decide)
    rwa [hv0] at this)
  have hok : ok = true := h4.2 ⟨by rw [hb0]; rcases hf with ⟨rfl, rfl⟩ | ⟨rfl, rfl⟩ <;> decide, fun _ => rfl⟩
  rw [hok] at h1
  refine ⟨b, by rw [hb0, hv0], h1, fun hws htok hrest => ?_⟩
  have := atofFirst_token hws htok (by simp) hrest h1
  simpa using this

/-- C117 fails: a number with a plus sign is not converted, and of a binary or octal number, which is a real token, only the 0 is read. -/
theorem C117_refuted (fpu : Fpu) (v : Rat) :
    atofFirst dbl fpu (S "+1.5") v = .ok (none, .dec none) ∧ RealToken (S "+1.5") ∧
    (∃ b, binary64.val b = 0 ∧ atofFirst dbl fpu (S "0b11") v = .ok (some 4, .dec (some (.bits b)))) ∧ RealToken (S "0b11") := by
  refine ⟨rfl, ?_, ?_, ?_⟩
  · exact ⟨[43], S "1.5", rfl, Or.inr (Or.inl rfl), .dec ⟨S "1", S ".5", [], rfl, by unfold DecChar; decide, Or.inr ⟨S "5", rfl, by unfold DecChar; decide, Or.inl (by decide)⟩, Or.inl rfl⟩⟩
  · have hsp : firstRealSpan (S "0b11") = .ok (0, 4) := by decide +kernel
    have hx : atofHex (S "0b11") v = .ok none := rfl
    have hp : parseNumberString (S "0b11") = .ok ⟨0, 0, S "b11", false, true, false, S "0", none⟩ := by decide +kernel
    have hh : Handed ⟨0, 0, S "b11", false, true, false, S "0", none⟩ 0 := ⟨by decide, by decide +kernel⟩
    obtain ⟨b, h1, h2⟩ := fromCharsPns_spec (f := dbl) (F := binary64) (Or.inl ⟨rfl, rfl⟩) fpu hh
    have hb : b = 0 := by
      refine nearest_unique binary64 h1 ?_
      have hv : ((digitsVal (S "0" ++ (none : Option (List Nat)).getD []) : ℕ) : ℚ) * 10 ^ (0 : ℤ) = binary64.val 0 := by decide +kernel
      refine Eq.subst (motive := fun x => binary64.Nearest x _) hv.symm (nearest_self binary64 (by decide))
    have hno : ¬ (b = binary64.infBits ∨ (b = 0 ∧ digitsVal (S "0" ++ (none : Option (List Nat)).getD []) ≠ 0)) := by
      rw [hb]
      decide
    refine ⟨b + 0, by rw [hb]; decide +kernel, ?_⟩
    unfold atofFirst
    rw [hsp, Res.ok_bind]
    dsimp only
    rw [if_neg (by decide), show Rng.of (S "0b11") (0, 4) = S "0b11" by decide]
    unfold atof
    rw [hx, Res.ok_bind]
    dsimp only
    unfold fromChars
    rw [if_neg (by decide), hp]
    dsimp only
    rw [if_pos rfl, h2, if_neg hno]
    rfl
  · exact ⟨[], S "0b11", rfl, Or.inl rfl, .bin (Or.inl rfl) ⟨S "11", [], [], rfl, by unfold BinChar; decide, Or.inl ⟨rfl, by decide⟩, Or.inl rfl⟩⟩

/-- " -2.5e3," -/
example : (∀ c ∈ S " ", Blank c) ∧ DelimEnd (S ",") := by
  refine ⟨by unfold Blank; decide, ?_⟩
  intro c hc
  have : 44 = c := by simpa [S] using hc
  unfold DelimChar
  omega

end C4
