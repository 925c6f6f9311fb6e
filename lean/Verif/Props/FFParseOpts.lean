import Verif.Props.FastFloatChars
import Verif.FastFloat.ParseOpts
import Verif.Spec.NumFormat
/-
Properties of `fast_float::from_chars_advanced` with its options.
-/
namespace C4.FF
open Spec

/-- The format that options stand for. -/
def fmtOf (o : ParseOptions) : NumFormat :=
  ⟨o.decimalPoint, hasFlag o.format fmtScientific, hasFlag o.format fmtFixed, hasFlag o.format fmtFortranBit⟩

/-- The exponent part as it is written in the general format. -/
def plainExp (ex : Option (Option Nat × Option Nat × List Nat)) : Option (Nat × Option Nat × List Nat) := ex.map fun x => (101, x.2.1, x.2.2)

/-- What is done with the digits of an exponent part, after its letter and its sign. -/
def ReadExp (F : NumFormat) (p r : List Nat) (e : Int) : Prop :=
  ∃ (l sg : Option Nat) (q : List Nat), p = l.toList ++ (sg.toList ++ q) ∧ Num.IsLetter F l sg ∧ (sg = none ∨ sg = some 43 ∨ sg = some 45) ∧
    (if q.head?.any isInteger then some ((expLoop q 0).1, if sg = some 45 then -((expLoop q 0).2 : Int) else (expLoop q 0).2)
      else if !F.fixed then none else some (p, 0)) = some (r, e)

theorem exponentPartO_spec (o : ParseOptions) (p r : List Nat) (e : Int) (h : exponentPartO o.format p = some (r, e)) :
    ∃ ex, p = Num.expText ex ++ r ∧ Num.ExpWF (fmtOf o) ex ∧ e = capExp (plainExp ex) ∧
      ((fmtOf o).scientific = true → (fmtOf o).fixed = false → ex ≠ none) := by
  unfold exponentPartO at h
  unfold fmtOf
  dsimp only at h ⊢
  generalize hasFlag o.format fmtScientific = sci at h ⊢
  generalize hasFlag o.format fmtFixed = fix at h ⊢
  generalize hasFlag o.format fmtFortranBit = fort at h ⊢
  have hnone : fix = true ∨ sci = false → some (p, (0 : Int)) = some (r, e) → ∃ ex, p = Num.expText ex ++ r ∧
      Num.ExpWF ⟨o.decimalPoint, sci, fix, fort⟩ ex ∧ e = capExp (plainExp ex) ∧ (sci = true → fix = false → ex ≠ none) := by
    intro hf h
    cases h
    have hw : Num.ExpWF ⟨o.decimalPoint, sci, fix, fort⟩ none := fun _ _ _ h => by cases h
    have hr : sci = true → fix = false → (none : Option (Option Nat × Option Nat × List Nat)) ≠ none := by
      intro h1 h2
      rw [h1, h2] at hf
      simp at hf
    exact ⟨none, rfl, hw, rfl, hr⟩
  split at h
  · rename_i hc
    obtain ⟨l, sg, q, hp, hl, hsg, hq⟩ : ReadExp ⟨o.decimalPoint, sci, fix, fort⟩ p r e := by
      cases p with
      | nil => simp at hc
      | cons c s =>
        have sign : ∀ l, (∀ sg, Num.IsLetter ⟨o.decimalPoint, sci, fix, fort⟩ (some l) sg) → c = l →
            (if ((if (s.head? == some 45 || s.head? == some 43) = true then s.drop 1 else s).head?.any isInteger) = true then
              some ((expLoop (if (s.head? == some 45 || s.head? == some 43) = true then s.drop 1 else s) 0).1,
                if (s.head? == some 45) = true then -((expLoop (if (s.head? == some 45 || s.head? == some 43) = true then s.drop 1 else s) 0).2 : Int)
                else (expLoop (if (s.head? == some 45 || s.head? == some 43) = true then s.drop 1 else s) 0).2)
            else if (!fix) = true then none else some (c :: s, 0)) = some (r, e) → ReadExp ⟨o.decimalPoint, sci, fix, fort⟩ (c :: s) r e := by
          intro l hl hcl h
          cases s with
          | nil => exact ⟨some l, none, [], by simp [hcl], hl _, by simp, by simpa using h⟩
          | cons d s =>
            by_cases h1 : d = 45
            · exact ⟨some l, some 45, s, by simp [hcl, h1], hl _, by simp, by simpa [h1] using h⟩
            · by_cases h2 : d = 43
              · exact ⟨some l, some 43, s, by simp [hcl, h2], hl _, by simp, by simpa [h2] using h⟩
              · exact ⟨some l, none, d :: s, by simp [hcl], hl _, by simp, by simpa [h1, h2] using h⟩
        simp only [List.head?_cons, Option.some_beq_some, Bool.or_eq_true, Bool.and_eq_true, beq_iff_eq] at hc
        by_cases hle : c = 101 ∨ c = 69
        · have hs : sci = true ∨ fort = true := by
            rcases hc with hc | hc
            · exact Or.inl hc.1
            · exact Or.inr hc.1
          have hs : sci = true := by
            rcases hc with hc | hc
            · exact hc.1
            · omega
          refine sign c (fun sg => Or.inl ⟨hs, by simpa using hle⟩) rfl ?_
          rcases hle with rfl | rfl <;> simpa using h
        · by_cases hld : c = 100 ∨ c = 68
          · have hs : fort = true := by
              rcases hc with hc | hc
              · omega
              · exact hc.1
            refine sign c (fun sg => Or.inr ⟨hs, by rcases hld with rfl | rfl <;> simp⟩) rfl ?_
            rcases hld with rfl | rfl <;> simpa using h
          · have hs : fort = true ∧ (c = 43 ∨ c = 45) := by
              rcases hc with hc | hc
              · omega
              · exact ⟨hc.1, by omega⟩
            have hz : Num.IsLetter ⟨o.decimalPoint, sci, fix, fort⟩ none (some c) := Or.inr ⟨hs.1, by simp⟩
            rcases hs.2 with rfl | rfl
            · exact ⟨none, some 43, s, rfl, hz, by simp, by simpa using h⟩
            · exact ⟨none, some 45, s, rfl, hz, by simp, by simpa using h⟩
    split at hq
    · rename_i hd
      cases q with
      | nil => simp at hd
      | cons d q =>
        simp only [List.head?_cons, Option.any_some] at hd
        rw [expLoop_eq] at hq
        simp only [Option.some.injEq, Prod.mk.injEq] at hq
        obtain ⟨rfl, rfl⟩ := hq
        refine ⟨some (l, sg, (d :: q).takeWhile isInteger), ?_, ?_, rfl, by simp⟩
        · simp only [Num.expText, List.append_assoc, List.takeWhile_append_dropWhile]
          exact hp
        · intro l' sg' ds' h'
          cases h'
          refine ⟨hl, hsg, ?_, takeWhile_digits _⟩
          rw [List.takeWhile_cons_of_pos hd]
          simp
    · split at hq
      · cases hq
      · rename_i hf
        exact hnone (Or.inl (by simpa using hf)) hq
  · split at h
    · cases h
    · rename_i hf
      refine hnone ?_ h
      simp only [Bool.and_eq_true, Bool.not_eq_true', not_and, Bool.not_eq_false] at hf
      cases sci
      · exact Or.inr rfl
      · exact Or.inl (hf rfl)

theorem exponentPartO_length (o : ParseOptions) (p r : List Nat) (e : Int) (h : exponentPartO o.format p = some (r, e)) : r.length ≤ p.length := by
  obtain ⟨ex, h, -⟩ := exponentPartO_spec o p r e h
  have := congrArg List.length h
  rw [List.length_append] at this
  omega

/-- Whether an exponent part is refused. -/
theorem exponentPartO_fixed (o : ParseOptions) (hfo : (fmtOf o).scientific = true ∨ (fmtOf o).fixed = true ∨ (fmtOf o).fortran = false) (p : List Nat)
    (h : (fmtOf o).scientific = true → (fmtOf o).fixed = false → False) : ∃ r e, exponentPartO o.format p = some (r, e) := by
  unfold fmtOf at hfo h
  unfold exponentPartO
  dsimp only at hfo h ⊢
  generalize hasFlag o.format fmtScientific = sci at h hfo ⊢
  generalize hasFlag o.format fmtFixed = fix at h hfo ⊢
  generalize hasFlag o.format fmtFortranBit = fort at h hfo ⊢
  cases fix
  · have hs : sci = false := by
      cases sci
      · rfl
      · exact (h rfl rfl).elim
    rw [hs] at hfo ⊢
    have hf : fort = false := by simpa using hfo
    rw [hf]
    simp
  · simp only [Bool.not_true, Bool.false_eq_true, if_false, Bool.and_false]
    have hs : ∀ x : Option (List Nat × Int), x ≠ none → ∃ r e, x = some (r, e) := by
      intro x hx
      obtain ⟨⟨r, e⟩, h⟩ := Option.ne_none_iff_exists'.1 hx
      exact ⟨r, e, h⟩
    apply hs
    split_ifs <;> simp

/-- Nothing that can be read is left. -/
theorem exponentPartO_most (o : ParseOptions) (hfo : (fmtOf o).scientific = true ∨ (fmtOf o).fixed = true ∨ (fmtOf o).fortran = false)
    (ex : Option (Option Nat × Option Nat × List Nat)) (rest : List Nat) (h : Num.ExpWF (fmtOf o) ex)
    (hreq : (fmtOf o).scientific = true → (fmtOf o).fixed = false → ex ≠ none) :
    ∃ r e, exponentPartO o.format ((Num.expText ex ++ rest).dropWhile isInteger) = some (r, e) ∧ r.length ≤ rest.length := by
  match ex with
  | none =>
    obtain ⟨r, e, he⟩ := exponentPartO_fixed o hfo (rest.dropWhile isInteger) (fun h1 h2 => hreq h1 h2 rfl)
    refine ⟨r, e, he, ?_⟩
    have := exponentPartO_length o _ _ _ he
    have := dropWhile_length isInteger rest
    omega
  | some (l, sg, ds) =>
    obtain ⟨hl, hsg, hne, hd⟩ := h l sg ds rfl
    obtain ⟨d, ds', rfl⟩ := List.exists_cons_of_ne_nil hne
    have hdi : isInteger d = true := (isInteger_iff d).mpr (hd d (by simp))
    have hall : ((d :: (ds' ++ rest)).dropWhile isInteger).length ≤ rest.length := by
      have := (takeWhile_append_all isInteger (d :: ds') rest (fun c hc => (isInteger_iff c).mpr (hd c hc))).2
      rw [List.cons_append] at this
      rw [this]
      exact dropWhile_length _ _
    have hd' := hd d (by simp)
    unfold IsDigit at hd'
    have hd45 : d ≠ 45 := by omega
    have hd43 : d ≠ 43 := by omega
    refine ⟨((d :: (ds' ++ rest)).dropWhile isInteger), if sg = some 45 then -((expLoop (d :: (ds' ++ rest)) 0).2 : Int) else (expLoop (d :: (ds' ++ rest)) 0).2, ?_, hall⟩
    have e1 : (expLoop (d :: (ds' ++ rest)) 0).1 = (d :: (ds' ++ rest)).dropWhile isInteger := by rw [expLoop_eq]
    rw [← e1]
    unfold Num.IsLetter fmtOf at hl
    dsimp only at hl
    have i1 : isInteger 101 = false := by decide
    have i2 : isInteger 69 = false := by decide
    have i3 : isInteger 100 = false := by decide
    have i4 : isInteger 68 = false := by decide
    have i5 : isInteger 43 = false := by decide
    have i6 : isInteger 45 = false := by decide
    rcases hl with ⟨hs, rfl | rfl⟩ | ⟨hs, rfl | rfl | ⟨rfl, hsn⟩⟩ <;> rcases hsg with rfl | rfl | rfl <;>
      first
      | exact absurd rfl hsn
      | simp [Num.expText, exponentPartO, hs, hdi, hd45, hd43, i1, i2, i3, i4, i5, i6]

/-- Exchanging the decimal point and '.'. -/
def swapDot (dp c : Nat) : Nat := if c = dp then 46 else if c = 46 then dp else c

theorem zeroLoopO_eq {dp : Nat} (hdp : ¬ IsDigit dp) : ∀ (s : List Nat) (n : Int), zeroLoopO dp s n = zeroLoop (s.map (swapDot dp)) n := by
  unfold IsDigit at hdp
  intro s
  induction s with
  | nil => intro n; rfl
  | cons c s ih =>
    intro n
    rw [List.map_cons, zeroLoopO, zeroLoop, ih, ih]
    unfold swapDot
    by_cases h0 : c = 48
    · rw [if_pos h0, if_pos (by rw [if_neg (by omega), if_neg (by omega)]; exact h0)]
    · rw [if_neg h0]
      by_cases h1 : c = dp
      · rw [if_pos h1, if_neg (by rw [if_pos h1]; omega), if_pos (by rw [if_pos h1])]
      · rw [if_neg h1, if_neg h1]
        by_cases h2 : c = 46
        · rw [if_pos h2, if_neg (by omega), if_neg (by omega)]
        · rw [if_neg h2, if_neg h0, if_neg h2]

theorem swapDot_digits {dp : Nat} (hdp : ¬ IsDigit dp) (s : List Nat) (h : ∀ c ∈ s, IsDigit c) : s.map (swapDot dp) = s := by
  unfold IsDigit at hdp h
  induction s with
  | nil => rfl
  | cons c s ih =>
    have hc := h c (by simp)
    rw [List.map_cons, ih (fun x hx => h x (List.mem_cons_of_mem _ hx)), swapDot, if_neg (by omega), if_neg (by omega)]

theorem fixDigitsO_eq {dp : Nat} (hdp : ¬ IsDigit dp) (int : List Nat) (frac : Option (List Nat)) (rest : List Nat) (en : Int)
    (hD : ∀ c ∈ int ++ frac.getD [], IsDigit c) (s : List Nat) (hs : s = int ++ (Num.fracText dp frac ++ rest)) :
    fixDigitsO dp s int frac ((int ++ frac.getD []).length : Int) (digitsVal (int ++ frac.getD []) % 2 ^ 64) (-((frac.getD []).length : Int) + en) en =
      trunc (int ++ frac.getD []) (en - ((frac.getD []).length : Int)) := by
  have := fixDigits_eq int frac (rest.map (swapDot dp)) en hD (s.map (swapDot dp)) (by
    rw [hs, List.map_append, List.map_append, swapDot_digits hdp int (fun c hc => hD c (List.mem_append_left _ hc))]
    cases frac with
    | none => rfl
    | some f =>
      rw [Num.fracText, Decimal.fracText, List.map_cons, swapDot_digits hdp f (fun c hc => hD c (List.mem_append_right _ hc)), swapDot, if_pos rfl])
  rw [← this]
  unfold fixDigitsO fixDigits
  rw [zeroLoopO_eq hdp]

/-- The digits after the point, if there is one. -/
def fracOfO (dp : Nat) : List Nat → Option (List Nat)
  | [] => none
  | c :: b => if c = dp then some (b.takeWhile isInteger) else none

/-- The text after the point and the digits after it. -/
def afterFracO (dp : Nat) : List Nat → List Nat
  | [] => []
  | c :: b => if c = dp then b.dropWhile isInteger else c :: b

theorem fracO_split (dp : Nat) (p : List Nat) : p = Num.fracText dp (fracOfO dp p) ++ afterFracO dp p := by
  cases p with
  | nil => rfl
  | cons c b =>
    by_cases h : c = dp
    · simp [fracOfO, afterFracO, Num.fracText, h]
    · simp [fracOfO, afterFracO, Num.fracText, h]

theorem fracO_digits (dp : Nat) (p : List Nat) : ∀ c ∈ (fracOfO dp p).getD [], IsDigit c := by
  cases p with
  | nil => simp [fracOfO]
  | cons c b =>
    by_cases h : c = dp
    · simp only [fracOfO, h, if_true, Option.getD_some]
      exact takeWhile_digits b
    · simp [fracOfO, h]

/-- Whether the digits before and after the point are refused. -/
def refusedO (json : Bool) (int : List Nat) (frac : Option (List Nat)) : Bool :=
  if json then int == [] || (int.head? == some 48 && int.length > 1) || frac == some [] else int ++ frac.getD [] == []

theorem parseUnsignedO_eq (o : ParseOptions) (hdp : ¬ IsDigit o.decimalPoint) (neg : Bool) (s : List Nat) (hb : ∀ c ∈ s, c < 256) :
    parseUnsignedO o neg s =
      (let int := s.takeWhile isInteger
       let p := s.dropWhile isInteger
       let frac := fracOfO o.decimalPoint p
       let D := int ++ frac.getD []
       if refusedO (hasFlag o.format fmtJsonBit) int frac then invalidPNS
       else
         match exponentPartO o.format (afterFracO o.decimalPoint p) with
         | none => invalidPNS
         | some q =>
           let t := trunc D (q.2 - (frac.getD []).length)
           ⟨t.2.1, t.1, q.1, neg, true, t.2.2, int, frac⟩) := by
  have hsplit : s = s.takeWhile isInteger ++ s.dropWhile isInteger := (List.takeWhile_append_dropWhile).symm
  have hint := takeWhile_digits s
  obtain ⟨e1, e2⟩ := take_sub_dropWhile s
  unfold parseUnsignedO
  rw [digitLoop_eq s 0 (by omega)]
  dsimp only
  rw [e1, e2]
  have hhead : (s.head? == some 48) = ((s.takeWhile isInteger).head? == some 48) := by
    cases s with
    | nil => rfl
    | cons c s =>
      by_cases hc : isInteger c = true
      · rw [List.takeWhile_cons_of_pos hc]; rfl
      · rw [List.takeWhile_cons_of_neg hc]
        have : c ≠ 48 := by rintro rfl; exact hc (by decide)
        simp [this]
  rw [hhead]
  obtain ⟨int, hi⟩ : ∃ a, s.takeWhile isInteger = a := ⟨_, rfl⟩
  obtain ⟨p, hp⟩ : ∃ b, s.dropWhile isInteger = b := ⟨_, rfl⟩
  rw [hi, hp] at hsplit
  rw [hi] at hint
  rw [hi, hp, Nat.zero_mul, Nat.zero_add]
  have hfd := fracO_digits o.decimalPoint p
  have hfs := fracO_split o.decimalPoint p
  have fix := fun en => fixDigitsO_eq hdp int (fracOfO o.decimalPoint p) (afterFracO o.decimalPoint p) en (by
    intro c hc
    rw [List.mem_append] at hc
    exact hc.elim (hint c) (hfd c)) s (by rw [← hfs]; exact hsplit)
  generalize hasFlag o.format fmtJsonBit = json
  have hil : ((int.length : Int) == 0) = (int == []) := by
    cases int <;> simp; omega
  have hil2 : decide ((int.length : Int) > 1) = decide (int.length > 1) := by
    rw [decide_eq_decide]; omega
  by_cases hdot : ∃ b, p = o.decimalPoint :: b
  · obtain ⟨b, rfl⟩ := hdot
    have hbb : ∀ c ∈ b, c < 256 := fun c hc => hb c (by rw [hsplit]; simp [hc])
    have hf1 : fracOfO o.decimalPoint (o.decimalPoint :: b) = some (b.takeWhile isInteger) := by simp [fracOfO]
    have hf2 : afterFracO o.decimalPoint (o.decimalPoint :: b) = b.dropWhile isInteger := by simp [afterFracO]
    obtain ⟨e3, e4⟩ := take_sub_dropWhile b
    simp only [List.head?_cons, beq_self_eq_true, if_true, List.drop_succ_cons, List.drop_zero]
    rw [fraction_loops b _ hbb (Nat.mod_lt _ (by omega))]
    dsimp only
    have e5 : ((b.dropWhile isInteger).length : Int) - b.length = -((b.takeWhile isInteger).length : Int) := by
      have := dropWhile_length isInteger b
      omega
    have e6 : (digitsVal int % 2 ^ 64 * 10 ^ (b.takeWhile isInteger).length + digitsVal (b.takeWhile isInteger)) % 2 ^ 64 =
        digitsVal (int ++ b.takeWhile isInteger) % 2 ^ 64 := by
      rw [digitsVal_append, Nat.add_mod, Nat.mod_mul_mod, ← Nat.add_mod]
    rw [e3, e5, e6, hf1, hf2, Option.getD_some]
    rw [hf1, Option.getD_some] at fix
    have e7 : (int.length : Int) - -((b.takeWhile isInteger).length : Int) = ((int ++ b.takeWhile isInteger).length : Int) := by
      rw [List.length_append]; push_cast; omega
    rw [e7, hil, hil2]
    have e8 : (-((b.takeWhile isInteger).length : Int) == 0) = (some (b.takeWhile isInteger) == some []) := by
      cases b.takeWhile isInteger <;> simp; omega
    have e9 : (((int ++ b.takeWhile isInteger).length : Int) == 0) = (int ++ b.takeWhile isInteger == []) := by
      cases int ++ b.takeWhile isInteger <;> simp; omega
    rw [e8, e9]
    unfold refusedO
    rw [Option.getD_some]
    have : ∀ q : List Nat × Int, fixDigitsO o.decimalPoint s int (some (b.takeWhile isInteger)) ((int ++ b.takeWhile isInteger).length : Int)
        (digitsVal (int ++ b.takeWhile isInteger) % 2 ^ 64) (-((b.takeWhile isInteger).length : Int) + q.2) q.2 = _ := fun q => fix q.2
    cases json
    · simp only [Bool.false_and, Bool.false_eq_true, if_false]
      split
      · rfl
      · cases exponentPartO o.format (b.dropWhile isInteger) with
        | none => rfl
        | some q => simp only [fix]
    · simp only [Bool.true_and, if_true]
      by_cases h1 : (int == [] || (int.head? == some 48 && decide (int.length > 1))) = true
      · rw [if_pos h1, if_pos (by rw [h1, Bool.true_or])]
      · rw [if_neg h1]
        simp only [h1, Bool.false_or]
        split
        · rfl
        · cases exponentPartO o.format (b.dropWhile isInteger) with
          | none => rfl
          | some q => simp only [fix]
  · have hne : ∀ c b, p = c :: b → c ≠ o.decimalPoint := fun c b h hc => hdot ⟨b, by rw [h, hc]⟩
    have hf1 : fracOfO o.decimalPoint p = none := by
      cases p with
      | nil => rfl
      | cons c b => simp [fracOfO, hne c b rfl]
    have hf2 : afterFracO o.decimalPoint p = p := by
      cases p with
      | nil => rfl
      | cons c b => simp [afterFracO, hne c b rfl]
    have hf3 : (p.head? == some o.decimalPoint) = false := by
      cases p with
      | nil => rfl
      | cons c b => simp [hne c b rfl]
    rw [hf3, hf1, hf2]
    rw [hf1] at fix
    simp only [Option.getD_none, List.append_nil, List.length_nil] at fix ⊢
    simp only [Bool.false_eq_true, if_false, Int.sub_zero, Bool.false_and, hil, hil2]
    unfold refusedO
    simp only [Option.getD_none, List.append_nil]
    have fix' : ∀ en, fixDigitsO o.decimalPoint s int none int.length (digitsVal int % 2 ^ 64) (0 + en) en = trunc int (en - (0 : Nat)) := by
      intro en
      have := fix en
      simp only [Nat.cast_zero, neg_zero] at this ⊢
      exact this
    cases json
    · simp only [Bool.false_and, Bool.false_eq_true, if_false]
      split
      · rfl
      · cases exponentPartO o.format p with
        | none => rfl
        | some q => simp only [fix']
    · simp only [Bool.true_and, if_true, Bool.false_eq_true, if_false]
      by_cases h1 : (int == [] || (int.head? == some 48 && decide (int.length > 1))) = true
      · rw [if_pos h1, if_pos (by rw [h1, Bool.true_or])]
      · rw [if_neg h1]
        simp only [h1, Bool.false_or]
        rw [if_neg (by simp)]
        cases exponentPartO o.format p with
        | none => rfl
        | some q => simp only [fix']

theorem refusedO_false (t : Num) : refusedO true t.int t.frac = false ↔ t.Json := by
  unfold refusedO
  simp only [if_true, Bool.or_eq_false_iff, Bool.and_eq_false_iff, beq_eq_false_iff_ne, decide_eq_false_iff_not, ne_eq]
  constructor
  · rintro ⟨⟨h1, h2⟩, h3⟩
    refine ⟨h1, ?_, h3⟩
    intro h
    rcases h2 with h2 | h2
    · exact absurd h h2
    · cases hi : t.int with
      | nil => exact absurd hi h1
      | cons c s =>
        rw [hi] at h h2
        cases s with
        | nil => simpa using h
        | cons d s => simp at h2
  · rintro ⟨h1, h2, h3⟩
    refine ⟨⟨h1, ?_⟩, h3⟩
    by_cases h : t.int.head? = some 48
    · right
      rw [h2 h]
      decide
    · exact Or.inl h

/-- What is read, if there are digits and the exponent part is not refused. -/
theorem parseUnsignedO_some (o : ParseOptions) (hdp : ¬ IsDigit o.decimalPoint) (neg : Bool) (s : List Nat) (hb : ∀ c ∈ s, c < 256) (r : List Nat) (e : Int)
    (hD : s.takeWhile isInteger ++ (fracOfO o.decimalPoint (s.dropWhile isInteger)).getD [] ≠ [])
    (he : exponentPartO o.format (afterFracO o.decimalPoint (s.dropWhile isInteger)) = some (r, e)) :
    ∃ u : Num, u.WF (fmtOf o) ∧ u.neg = neg ∧ s = u.int ++ (Num.fracText o.decimalPoint u.frac ++ (Num.expText u.exp ++ r)) ∧
      u.int = s.takeWhile isInteger ∧
      ((hasFlag o.format fmtJsonBit = true ∧ ¬ u.Json ∧ (parseUnsignedO o neg s).valid = false) ∨
       ((hasFlag o.format fmtJsonBit = true → u.Json) ∧ Parsed (parseUnsignedO o neg s) u.plain r)) := by
  have hsplit : s = s.takeWhile isInteger ++ s.dropWhile isInteger := (List.takeWhile_append_dropWhile).symm
  have hfs := fracO_split o.decimalPoint (s.dropWhile isInteger)
  obtain ⟨ex, h1, h2, h3, h4⟩ := exponentPartO_spec o _ r e he
  rw [parseUnsignedO_eq o hdp neg s hb]
  dsimp only
  rw [he]
  dsimp only
  obtain ⟨u, hu⟩ : ∃ u : Num, u = ⟨neg, s.takeWhile isInteger, fracOfO o.decimalPoint (s.dropWhile isInteger), ex⟩ := ⟨_, rfl⟩
  have hui : s.takeWhile isInteger = u.int := by rw [hu]
  have huf : fracOfO o.decimalPoint (s.dropWhile isInteger) = u.frac := by rw [hu]
  have hue : ex = u.exp := by rw [hu]
  have hun : neg = u.neg := by rw [hu]
  refine ⟨u, ⟨?_, ?_, ?_, ?_⟩, hun.symm, ?_, hui.symm, ?_⟩
  · intro c hc
    rw [hu] at hc
    unfold Num.digits at hc
    rw [List.mem_append] at hc
    exact hc.elim (takeWhile_digits s c) (fracO_digits _ _ c)
  · unfold Num.digits
    rw [← hui, ← huf]
    exact hD
  · rw [← hue]; exact h2
  · rw [← hue]; exact h4
  · rw [← hue, ← h1, ← huf, ← hfs, ← hui]
    exact hsplit
  · rw [hui, huf]
    have hrf := refusedO_false u
    cases hr : refusedO (hasFlag o.format fmtJsonBit) u.int u.frac with
    | true =>
      left
      rw [if_pos rfl]
      cases hj : hasFlag o.format fmtJsonBit with
      | false =>
        rw [hj] at hr
        unfold refusedO at hr
        simp only [Bool.false_eq_true, if_false, beq_iff_eq] at hr
        rw [hui, huf] at hD
        exact absurd hr hD
      | true =>
        rw [hj] at hr
        refine ⟨rfl, ?_, rfl⟩
        rw [← hrf, hr]
        decide
    | false =>
      right
      rw [if_neg (by decide)]
      refine ⟨?_, ⟨rfl, rfl, hun, rfl, rfl, ?_⟩⟩
      · intro hj
        rw [hj] at hr
        exact hrf.1 hr
      · rw [h3]
        have hplain : u.plain.exp = plainExp ex := by rw [hue]; rfl
        rw [hplain]
        rfl

theorem parseUnsignedO_valid (o : ParseOptions) (hdp : ¬ IsDigit o.decimalPoint) (neg : Bool) (s : List Nat) (hb : ∀ c ∈ s, c < 256)
    (hv : (parseUnsignedO o neg s).valid = true) :
    ∃ u : Num, u.WF (fmtOf o) ∧ ∃ r, minus neg ++ s = u.text o.decimalPoint ++ r := by
  have hv' := hv
  rw [parseUnsignedO_eq o hdp neg s hb] at hv
  dsimp only at hv
  split at hv
  · cases hv
  · rename_i hr
    split at hv
    · cases hv
    · rename_i q hq
      have hD : s.takeWhile isInteger ++ (fracOfO o.decimalPoint (s.dropWhile isInteger)).getD [] ≠ [] := by
        intro h
        apply hr
        unfold refusedO
        rw [List.append_eq_nil_iff] at h
        split
        · rw [h.1]; rfl
        · rw [h.1, h.2]; rfl
      obtain ⟨u, h1, h2, h3, -⟩ := parseUnsignedO_some o hdp neg s hb q.1 q.2 hD hq
      refine ⟨u, h1, q.1, ?_⟩
      unfold Num.text
      rw [h2, List.append_assoc, List.append_assoc, List.append_assoc, ← h3]

theorem parseO_valid (o : ParseOptions) (hdp : ¬ IsDigit o.decimalPoint) (s : List Nat) (hb : ∀ c ∈ s, c < 256) (a : PNS)
    (h : parseNumberStringO o s = .ok a) (hv : a.valid = true) : ∃ u : Num, u.WF (fmtOf o) ∧ ∃ r, s = u.text o.decimalPoint ++ r := by
  cases s with
  | nil => cases h
  | cons c s =>
    unfold parseNumberStringO at h
    dsimp only at h
    split at h
    · rename_i hc
      cases s with
      | nil => cases h; cases hv
      | cons d s' =>
        have key : a = parseUnsignedO o true (d :: s') := by
          dsimp only at h
          split_ifs at h <;> cases h
          · cases hv
          · rfl
          · cases hv
          · rfl
        rw [key] at hv
        obtain ⟨u, h1, r, h2⟩ := parseUnsignedO_valid o hdp true (d :: s') (fun x hx => hb x (List.mem_cons_of_mem _ hx)) hv
        exact ⟨u, h1, r, by rw [← h2, hc]; rfl⟩
    · cases h
      obtain ⟨u, h1, r, h2⟩ := parseUnsignedO_valid o hdp false (c :: s) hb hv
      exact ⟨u, h1, r, h2⟩

theorem letter_not_digit {F : NumFormat} {ex : Option (Option Nat × Option Nat × List Nat)} (h : Num.ExpWF F ex) {c : Nat} {s : List Nat}
    (he : Num.expText ex = c :: s) : ¬ IsDigit c ∧ (c = 43 ∨ c = 45 ∨ c = 101 ∨ c = 69 ∨ c = 100 ∨ c = 68) := by
  have : c = 43 ∨ c = 45 ∨ c = 101 ∨ c = 69 ∨ c = 100 ∨ c = 68 := by
    cases ex with
    | none => cases he
    | some v =>
      obtain ⟨l, sg, ds⟩ := v
      obtain ⟨hl, hsg, -, -⟩ := h _ _ _ rfl
      unfold Num.expText at he
      rcases hl with ⟨-, rfl | rfl⟩ | ⟨-, rfl | rfl | ⟨rfl, hsn⟩⟩
      · simp at he; omega
      · simp at he; omega
      · simp at he; omega
      · simp at he; omega
      · rcases hsg with rfl | rfl | rfl
        · exact absurd rfl hsn
        · simp at he; omega
        · simp at he; omega
  refine ⟨?_, this⟩
  unfold IsDigit
  omega

/-- The number at the beginning of a text is read, or a longer one. -/
theorem parseUnsignedO_read (o : ParseOptions) (hdp : IsPoint o.decimalPoint)
    (hfo : (fmtOf o).scientific = true ∨ (fmtOf o).fixed = true ∨ (fmtOf o).fortran = false) (t : Num) (ht : t.WF (fmtOf o)) (rest : List Nat) (neg : Bool)
    (s : List Nat) (hs : s = t.int ++ (Num.fracText o.decimalPoint t.frac ++ (Num.expText t.exp ++ rest))) (hb : ∀ c ∈ s, c < 256) :
    ∃ (u : Num) (r : List Nat), u.WF (fmtOf o) ∧ u.neg = neg ∧ s = u.int ++ (Num.fracText o.decimalPoint u.frac ++ (Num.expText u.exp ++ r)) ∧
      r.length ≤ rest.length ∧ u.int = s.takeWhile isInteger ∧
      ((hasFlag o.format fmtJsonBit = true ∧ ¬ u.Json ∧ (parseUnsignedO o neg s).valid = false) ∨
       ((hasFlag o.format fmtJsonBit = true → u.Json) ∧ Parsed (parseUnsignedO o neg s) u.plain r)) := by
  have hint : ∀ c ∈ t.int, isInteger c = true := fun c hc => (isInteger_iff c).mpr (ht.digits c (by simp [Num.digits, hc]))
  have hne := ht.nonempty
  unfold Num.digits at hne
  obtain ⟨w1, w2⟩ := takeWhile_append_all isInteger t.int (Num.fracText o.decimalPoint t.frac ++ (Num.expText t.exp ++ rest)) hint
  rw [← hs] at w1 w2
  have most := exponentPartO_most o hfo t.exp rest ht.exp ht.required
  suffices h : s.takeWhile isInteger ++ (fracOfO o.decimalPoint (s.dropWhile isInteger)).getD [] ≠ [] ∧
      ∃ r e, exponentPartO o.format (afterFracO o.decimalPoint (s.dropWhile isInteger)) = some (r, e) ∧ r.length ≤ rest.length by
    obtain ⟨hD, r, e, he, hr⟩ := h
    obtain ⟨u, h1, h2, h3, h4, h5⟩ := parseUnsignedO_some o hdp.1 neg s hb r e hD he
    exact ⟨u, r, h1, h2, h3, hr, h4, h5⟩
  rw [w1, w2]
  cases hf : t.frac with
  | none =>
    rw [hf] at hne
    simp only [Option.getD_none, List.append_nil] at hne
    refine ⟨by simp [hne], ?_⟩
    rw [show Num.fracText o.decimalPoint none = [] from rfl, List.nil_append]
    cases hx : Num.expText t.exp with
    | nil =>
      have hxn : t.exp = none := by
        cases hxe : t.exp with
        | none => rfl
        | some v =>
          obtain ⟨l, sg, ds⟩ := v
          obtain ⟨-, -, hds, -⟩ := ht.exp _ _ _ hxe
          rw [hxe] at hx
          unfold Num.expText at hx
          rw [List.append_eq_nil_iff, List.append_eq_nil_iff] at hx
          exact absurd hx.2.2 hds
      obtain ⟨r, e, he⟩ := exponentPartO_fixed o hfo (afterFracO o.decimalPoint (rest.dropWhile isInteger)) (fun h1 h2 => ht.required h1 h2 hxn)
      refine ⟨r, e, he, ?_⟩
      have h1 := exponentPartO_length o _ _ _ he
      have h2 := congrArg List.length (fracO_split o.decimalPoint (rest.dropWhile isInteger))
      rw [List.length_append] at h2
      have h3 := dropWhile_length isInteger rest
      omega
    | cons c x =>
      obtain ⟨hc1, hc2⟩ := letter_not_digit ht.exp hx
      have hni : ¬ isInteger c = true := fun h => hc1 ((isInteger_iff c).1 h)
      have hnd : c ≠ o.decimalPoint := by
        have := hdp
        unfold IsPoint IsDigit at this
        omega
      rw [hx] at most
      simp only [List.cons_append, List.dropWhile_cons_of_neg hni] at most ⊢
      simp only [afterFracO, if_neg hnd]
      exact most
  | some f =>
    have hfi : ∀ c ∈ f, isInteger c = true := fun c hc => (isInteger_iff c).mpr (ht.digits c (by simp [Num.digits, hf, hc]))
    obtain ⟨v1, v2⟩ := takeWhile_append_all isInteger f (Num.expText t.exp ++ rest) hfi
    have hnp : ¬ isInteger o.decimalPoint = true := fun h => hdp.1 ((isInteger_iff _).1 h)
    rw [hf] at hne
    simp only [Option.getD_some] at hne
    simp only [Num.fracText, List.cons_append, List.dropWhile_cons_of_neg hnp, List.takeWhile_cons_of_neg hnp, List.append_nil, fracOfO, afterFracO, if_true,
      Option.getD_some, v1, v2]
    refine ⟨?_, most⟩
    intro h
    rw [List.append_eq_nil_iff, List.append_eq_nil_iff] at h
    exact hne (by rw [h.1, h.2.1]; rfl)

/-- The first character of a number after the sign. -/
theorem num_head {F : NumFormat} {t : Num} (ht : t.WF F) (pt : Nat) (rest : List Nat) :
    ∃ d s, t.int ++ (Num.fracText pt t.frac ++ rest) = d :: s ∧ (IsDigit d ∨ (d = pt ∧ t.int = [])) := by
  have hne := ht.nonempty
  unfold Num.digits at hne
  cases hi : t.int with
  | cons d s => exact ⟨d, _, rfl, Or.inl (ht.digits d (by simp [Num.digits, hi]))⟩
  | nil =>
    cases hf : t.frac with
    | none => rw [hi, hf] at hne; exact absurd rfl hne
    | some f => exact ⟨pt, _, rfl, Or.inr ⟨rfl, rfl⟩⟩

theorem parseO_read (o : ParseOptions) (hdp : IsPoint o.decimalPoint)
    (hfo : (fmtOf o).scientific = true ∨ (fmtOf o).fixed = true ∨ (fmtOf o).fortran = false) (t : Num) (ht : t.WF (fmtOf o)) (rest : List Nat)
    (s : List Nat) (hs : s = t.text o.decimalPoint ++ rest) (hb : ∀ c ∈ s, c < 256) :
    ∃ (u : Num) (r : List Nat), u.WF (fmtOf o) ∧ s = u.text o.decimalPoint ++ r ∧ r.length ≤ rest.length ∧
      ∃ a, parseNumberStringO o s = .ok a ∧
        ((hasFlag o.format fmtJsonBit = true ∧ ¬ u.Json ∧ a.valid = false) ∨ ((hasFlag o.format fmtJsonBit = true → u.Json) ∧ Parsed a u.plain r)) := by
  obtain ⟨s', hs'⟩ : ∃ s', t.int ++ (Num.fracText o.decimalPoint t.frac ++ (Num.expText t.exp ++ rest)) = s' := ⟨_, rfl⟩
  have hss : s = minus t.neg ++ s' := by
    rw [hs, ← hs']
    simp [Num.text, List.append_assoc]
  have hb' : ∀ c ∈ s', c < 256 := fun c hc => hb c (by rw [hss]; exact List.mem_append_right _ hc)
  obtain ⟨u, r, h1, h2, h3, h4, h5, h6⟩ := parseUnsignedO_read o hdp hfo t ht rest t.neg s' hs'.symm hb'
  have htext : s = u.text o.decimalPoint ++ r := by
    rw [hss]
    unfold Num.text
    rw [h2, List.append_assoc, List.append_assoc, List.append_assoc, ← h3]
  obtain ⟨d, q, hds, hd⟩ := num_head ht o.decimalPoint (Num.expText t.exp ++ rest)
  rw [hs'] at hds
  have hd45 : d ≠ 45 := by
    have := hdp
    unfold IsPoint at this
    unfold IsDigit at hd
    omega
  refine ⟨u, r, h1, htext, h4, ?_⟩
  rw [hss, hds]
  rw [hds] at h6 h5
  cases hn : t.neg with
  | true =>
    rw [hn] at h6
    by_cases hj : hasFlag o.format fmtJsonBit = true ∧ ¬ isInteger d = true
    · refine ⟨invalidPNS, ?_, Or.inl ⟨hj.1, ?_, rfl⟩⟩
      · simp [minus, parseNumberStringO, hj.1, hj.2]
      · intro hu
        apply hu.int
        rw [h5, List.takeWhile_cons_of_neg hj.2]
    · refine ⟨_, ?_, h6⟩
      by_cases hjj : hasFlag o.format fmtJsonBit = true
      · have hdi : isInteger d = true := by
          by_contra h
          exact hj ⟨hjj, h⟩
        simp [minus, parseNumberStringO, hjj, hdi]
      · have : (!isInteger d && decide (d ≠ o.decimalPoint)) = false := by
          rcases hd with hd | hd
          · rw [(isInteger_iff d).2 hd]; rfl
          · simp [hd.1]
        simp only [minus, if_true, List.cons_append, List.nil_append, parseNumberStringO, hjj]
        rw [if_neg (by simp)]
        rw [this]
        simp
  | false =>
    rw [hn] at h6
    refine ⟨_, ?_, h6⟩
    simp [minus, parseNumberStringO, hd45]

end C4.FF
