import Verif.Charconv.ScanOne
import Verif.Props.Rtoa
import Verif.Props.Atof
/-
Property C131: `atof` and `atod` with `sscanf`.
-/
namespace C4
open Spec Scan

namespace Scan

/-- Reading characters one after the other. -/
def go : St → List Nat → Option St
  | st, [] => some st
  | st, c :: s => (step st c).bind fun st' => go st' s

theorem go_append (st : St) (a b : List Nat) : go st (a ++ b) = (go st a).bind fun e => go e b := by
  induction a generalizing st with
  | nil => rfl
  | cons c a ih =>
    simp only [List.cons_append, go]
    cases step st c with
    | none => rfl
    | some e => exact ih e

theorem item_of_go {st e : St} {s : List Nat} (h : go st s = some e) : item s.length s st = (s.length, e) := by
  induction s generalizing st with
  | nil => cases h; rfl
  | cons c s ih =>
    simp only [go] at h
    cases hs : step st c with
    | none => rw [hs] at h; cases h
    | some e' =>
      rw [hs] at h
      simp only [List.length_cons, item, hs, ih h]

/-- The item does not depend on what follows the field. -/
theorem item_append (w : Nat) (a b : List Nat) (st : St) (h : w ≤ a.length) : item w (a ++ b) st = item w a st := by
  induction a generalizing w st with
  | nil =>
    obtain rfl : w = 0 := by simpa using h
    simp [item]
  | cons c a ih =>
    cases w with
    | zero => rfl
    | succ w =>
      simp only [List.cons_append, item]
      cases step st c with
      | none => rfl
      | some e => simp only [ih w e (by simpa using h)]

theorem item_le (w : Nat) (a : List Nat) (st : St) : (item w a st).1 ≤ w ∧ (item w a st).1 ≤ a.length := by
  induction a generalizing w st with
  | nil => cases w <;> simp [item]
  | cons c a ih =>
    cases w with
    | zero => simp [item]
    | succ w =>
      simp only [item]
      cases step st c with
      | none => simp
      | some e =>
        have := ih w e
        simp only [List.length_cons]
        omega

theorem digit_of {c : Nat} (h : IsDigit c) : digit c = true := decide_eq_true h

theorem go_int {ds : List Nat} (hd : ∀ c ∈ ds, IsDigit c) {st : St} (hs : st = .zero ∨ st = .int) : ∃ e, go st ds = some e ∧ (e = .zero ∨ e = .int) := by
  induction ds generalizing st with
  | nil => exact ⟨st, rfl, hs⟩
  | cons c ds ih =>
    have hc := hd c (List.mem_cons_self ..)
    obtain ⟨e, h1, h2⟩ := ih (fun x hx => hd x (List.mem_cons_of_mem _ hx)) (st := .int) (Or.inr rfl)
    have hst : step st c = some .int := by
      unfold IsDigit at hc
      rcases hs with rfl | rfl
      · simp only [step, digit_of hc]
        rw [if_neg (by omega), if_pos trivial]
      · simp only [step, digit_of hc, if_true]
    exact ⟨e, by simp only [go, hst, Option.bind_some, h1], h2⟩

theorem begin_digit {c : Nat} (h : IsDigit c) : ∃ e, begin c = some e ∧ (e = .zero ∨ e = .int) := by
  unfold begin
  by_cases h0 : c = 48
  · exact ⟨.zero, if_pos h0, Or.inl rfl⟩
  · exact ⟨.int, by rw [if_neg h0, digit_of h, if_pos rfl], Or.inr rfl⟩

theorem go_frac {ds : List Nat} (hd : ∀ c ∈ ds, IsDigit c) : go .frac ds = some .frac := by
  induction ds with
  | nil => rfl
  | cons c ds ih => simp only [go, step, digit_of (hd c (List.mem_cons_self ..)), if_true, Option.bind_some, ih fun x hx => hd x (List.mem_cons_of_mem _ hx)]

theorem go_exp {ds : List Nat} (hd : ∀ c ∈ ds, IsDigit c) : go .expDigit ds = some .expDigit := by
  induction ds with
  | nil => rfl
  | cons c ds ih => simp only [go, step, digit_of (hd c (List.mem_cons_self ..)), if_true, Option.bind_some, ih fun x hx => hd x (List.mem_cons_of_mem _ hx)]

/-- The state after the significand of a decimal number. -/
def Signif (st : St) : Prop := st = .zero ∨ st = .int ∨ st = .intDot ∨ st = .frac

theorem go_significand (st : St) (hst : ∀ c, IsDigit c ∨ c = 46 → step st c = begin c) (int : List Nat) (frac : Option (List Nat))
    (hd : ∀ c ∈ int ++ frac.getD [], IsDigit c) (hne : int ++ frac.getD [] ≠ []) : ∃ e, go st (int ++ Decimal.fracText frac) = some e ∧ Signif e := by
  have hdi : ∀ c ∈ int, IsDigit c := fun c hc => hd c (List.mem_append_left _ hc)
  have hdf : ∀ c ∈ frac.getD [], IsDigit c := fun c hc => hd c (List.mem_append_right _ hc)
  cases int with
  | nil =>
    cases frac with
    | none => exact absurd rfl hne
    | some f =>
      simp only [Option.getD_some] at hdf hne
      obtain ⟨c, r, rfl⟩ := List.exists_cons_of_ne_nil (show f ≠ [] by simpa using hne)
      refine ⟨.frac, ?_, Or.inr (Or.inr (Or.inr rfl))⟩
      have hb : begin 46 = some .dot := rfl
      have h2 : step .dot c = some .frac := by simp only [step, digit_of (hdf c (List.mem_cons_self ..)), if_true]
      simp only [List.nil_append, Decimal.fracText, go, hst 46 (Or.inr rfl), hb, Option.bind_some, h2]
      exact go_frac fun x hx => hdf x (List.mem_cons_of_mem _ hx)
  | cons c r =>
    obtain ⟨e, h1, h2⟩ := begin_digit (hdi c (List.mem_cons_self ..))
    obtain ⟨e', h3, h4⟩ := go_int (fun x hx => hdi x (List.mem_cons_of_mem _ hx)) h2
    have hgo : go st (c :: r) = some e' := by
      simp only [go, hst c (Or.inl (hdi c (List.mem_cons_self ..))), h1, Option.bind_some, h3]
    rw [go_append, hgo, Option.bind_some]
    cases frac with
    | none => exact ⟨e', rfl, h4.elim Or.inl fun h => Or.inr (Or.inl h)⟩
    | some f =>
      have hs : step e' 46 = some .intDot := by rcases h4 with rfl | rfl <;> rfl
      simp only [Decimal.fracText, go, hs, Option.bind_some]
      simp only [Option.getD_some] at hdf
      cases f with
      | nil => exact ⟨.intDot, rfl, Or.inr (Or.inr (Or.inl rfl))⟩
      | cons x f =>
        refine ⟨.frac, ?_, Or.inr (Or.inr (Or.inr rfl))⟩
        simp only [go, step, digit_of (hdf x (List.mem_cons_self ..)), if_true, Option.bind_some]
        exact go_frac fun y hy => hdf y (List.mem_cons_of_mem _ hy)

theorem go_decimal (st : St) (hst : ∀ c, IsDigit c ∨ c = 46 → step st c = begin c) (t : Decimal) (ht : t.WF) :
    ∃ e, go st (t.int ++ (Decimal.fracText t.frac ++ Decimal.expText t.exp)) = some e ∧ e.accepts = true := by
  obtain ⟨e, h1, h2⟩ := go_significand st hst t.int t.frac ht.digits ht.nonempty
  rw [← List.append_assoc, go_append, h1, Option.bind_some]
  cases he : t.exp with
  | none => exact ⟨e, rfl, by rcases h2 with rfl | rfl | rfl | rfl <;> rfl⟩
  | some w =>
    obtain ⟨c, sg, ds⟩ := w
    obtain ⟨g1, g2, g3, g4⟩ := ht.exp c sg ds he
    refine ⟨.expDigit, ?_, rfl⟩
    have hs : step e c = some .exp := by
      rcases h2 with rfl | rfl | rfl | rfl <;> rcases g1 with rfl | rfl <;> rfl
    obtain ⟨d, r, rfl⟩ := List.exists_cons_of_ne_nil g3
    have hd := digit_of (g4 d (List.mem_cons_self ..))
    have hd' := g4 d (List.mem_cons_self ..)
    have hr := go_exp fun x hx => g4 x (List.mem_cons_of_mem _ hx)
    unfold IsDigit at hd'
    simp only [Decimal.expText, go, hs, Option.bind_some]
    rcases g2 with rfl | rfl | rfl
    · simp only [Option.toList_none, List.nil_append, go, step, hd, if_true]
      rw [if_neg (by omega), Option.bind_some, hr]
    · simp only [Option.toList_some, List.cons_append, List.nil_append, go, step, hd, true_or, if_true, Option.bind_some, hr]
    · simp only [Option.toList_some, List.cons_append, List.nil_append, go, step, hd, or_true, if_true, Option.bind_some, hr]

end Scan

/-- The text of a decimal number, with an optional plus sign if it has no minus sign. -/
def signedText (plus : Bool) (t : Decimal) : List Nat := (if plus then [43] else []) ++ t.text

theorem go_signed (plus : Bool) (t : Decimal) (ht : t.WF) (hp : plus = true → t.neg = false) : ∃ e, Scan.go .start (signedText plus t) = some e ∧ e.accepts = true := by
  have h0 : ∀ c, IsDigit c ∨ c = 46 → step .start c = begin c := by
    intro c hc
    unfold IsDigit at hc
    exact if_neg (by omega)
  have h1 : ∀ c, IsDigit c ∨ c = 46 → step .sign c = begin c := fun _ _ => rfl
  unfold signedText Decimal.text
  cases plus with
  | true =>
    rw [hp rfl]
    exact go_decimal .sign h1 t ht
  | false =>
    cases t.neg with
    | true => exact go_decimal .sign h1 t ht
    | false => exact go_decimal .start h0 t ht

theorem numeral_len {v k : Nat} (h : v < 10 ^ k) (hk : 0 < k) : (numeralText 10 v).length ≤ k := by
  rw [numeralText_length]
  obtain ⟨-, h' | h'⟩ := numeral_length_spec (b := 10) (v := v) (by decide)
  · rw [h']
    exact hk
  · by_contra hc
    have : 10 ^ k ≤ 10 ^ ((numeral 10 v).length - 1) := Nat.pow_le_pow_right (by decide) (by omega)
    exact absurd (Nat.lt_of_lt_of_le h (this.trans h')) (Nat.lt_irrefl _)

/-- The format string gives the length of the view as field width. -/
theorem parse_width (len : Nat) (h0 : 0 < len) (h : len < 10 ^ 10) (ty : List Nat) (hty : ty = S "f" ∨ ty = S "lf" ∨ ty = S "a" ∨ ty = S "la") :
    parseFormat (([37] ++ numeralText 10 len ++ ty ++ [37, 110]).take 15) = some len := by
  have hn := numeral_len h (by decide)
  have htl : ty.length ≤ 2 := by rcases hty with rfl | rfl | rfl | rfl <;> decide
  rw [List.take_of_length_le (by simp only [List.length_append, List.length_cons, List.length_nil]; omega)]
  have hd : ∀ c ∈ numeralText 10 len, digit c = true := fun c hc => decide_eq_true (numeralText_digit hc)
  have hv := digitsVal_numeralText len
  generalize numeralText 10 len = N at hn hd hv
  have hne : ¬ (N = [] ∨ digitsVal N = 0) := by
    rintro (rfl | h)
    · have : digitsVal [] = 0 := rfl
      omega
    · omega
  obtain ⟨x, r, hx, hxd, hxr⟩ : ∃ x r, ty ++ [37, 110] = x :: r ∧ digit x = false ∧ (x :: r = S "f%n" ∨ x :: r = S "lf%n" ∨ x :: r = S "a%n" ∨ x :: r = S "la%n") := by
    rcases hty with rfl | rfl | rfl | rfl
    · exact ⟨_, _, rfl, by decide, by decide⟩
    · exact ⟨_, _, rfl, by decide, by decide⟩
    · exact ⟨_, _, rfl, by decide, by decide⟩
    · exact ⟨_, _, rfl, by decide, by decide⟩
  have e : [37] ++ N ++ ty ++ [37, 110] = 37 :: (N ++ x :: r) := by rw [← hx]; simp
  rw [e]
  simp only [parseFormat]
  rw [List.takeWhile_append_of_pos hd, List.takeWhile_cons_of_neg (by rw [hxd]; decide), List.append_nil, List.dropWhile_append_of_pos hd, List.dropWhile_cons_of_neg (by rw [hxd]; decide),
    if_neg hne, if_pos hxr, hv]

/-- `sscanf` on a view that does not begin with a blank, within a terminated string: the same for everything that follows. -/
theorem sscanf_view (s after fmt : List Nat) (hs : 0 ∉ s) (hne : s ≠ []) (hb : ∀ c ∈ s.head?, blank c = false) (ha : 0 ∈ after) (hf : parseFormat fmt = some s.length) :
    sscanf (s ++ after) fmt = .ok (if (item s.length s .start).2.accepts then (1, some (s.take (item s.length s .start).1, (item s.length s .start).1)) else (0, none)) := by
  obtain ⟨c, r, rfl⟩ := List.exists_cons_of_ne_nil hne
  have hb' : blank c = false := hb c rfl
  unfold sscanf
  rw [hf]
  dsimp only
  rw [if_pos (List.mem_append_right _ ha)]
  have htw : (c :: r ++ after).takeWhile (fun x => decide (x ≠ 0)) = c :: r ++ after.takeWhile (fun x => decide (x ≠ 0)) := by
    rw [List.takeWhile_append_of_pos]
    intro x hx
    exact decide_eq_true fun h => hs (h ▸ hx)
  rw [htw]
  generalize after.takeWhile (fun x => decide (x ≠ 0)) = A
  rw [List.cons_append, List.takeWhile_cons_of_neg (by rw [hb']; decide), List.dropWhile_cons_of_neg (by rw [hb']; decide), if_neg (by simp)]
  have hi := item_append (c :: r).length (c :: r) A .start (Nat.le_refl _)
  rw [List.cons_append] at hi
  have hle := (item_le (c :: r).length (c :: r) .start).2
  rw [hi]
  generalize item (c :: r).length (c :: r) .start = I at hle ⊢
  have htk : (c :: (r ++ A)).take I.1 = (c :: r).take I.1 := by
    rw [← List.cons_append, List.take_append_of_le_length hle]
  rw [htk]
  cases I.2.accepts <;> simp

theorem atof_view (long : Bool) (s after : List Nat) (hs : 0 ∉ s) (hne : s ≠ []) (hl : s.length < 10 ^ 10) (hb : ∀ c ∈ s.head?, blank c = false) (ha : 0 ∈ after) :
    Scan.atof long (s ++ after) s.length = .ok (if (item s.length s .start).2.accepts then (true, some (s.take (item s.length s .start).1)) else (false, none)) := by
  have hlen : 0 < s.length := List.length_pos_iff.2 hne
  unfold Scan.atof
  rw [List.take_left]
  have hr : rd s 0 = .ok (s[0]'hlen) := by unfold rd; rw [List.getElem?_eq_getElem hlen]
  simp only [hr, Res.ok_bind]
  generalize hexPrefix (s.drop (if s[0] = 45 ∨ s[0] = 43 then 1 else 0)) = hex
  have hf := parse_width s.length hlen hl ((if long then [108] else []) ++ (if hex then [97] else [102])) (by cases long <;> cases hex <;> decide)
  unfold scanOne
  rw [sscanf_view s after _ hs hne hb ha hf]
  cases (item s.length s .start).2.accepts <;> simp [numChars]

/-- C131, as far as it holds: if the view does not begin with a blank, and there is a zero somewhere after it, then only its characters matter.
Missing: memory that is not terminated, and the blanks which the assertion does not know; see `C131_refuted`. -/
theorem C131_partial (long : Bool) (s : List Nat) (hs : 0 ∉ s) (hne : s ≠ []) (hl : s.length < 10 ^ 10) (hb : ∀ c ∈ s.head?, ¬ (c = 32 ∨ (9 ≤ c ∧ c ≤ 13))) :
    ∃ ok text, (∀ after, 0 ∈ after → Scan.atof long (s ++ after) s.length = .ok (ok, text)) ∧ (ok = true ↔ text.isSome) ∧ ∀ t, text = some t → t <+: s := by
  have hb' : ∀ c ∈ s.head?, blank c = false := by
    intro c hc
    have := hb c hc
    unfold blank
    simpa using this
  by_cases h : (item s.length s .start).2.accepts = true
  · refine ⟨true, some (s.take (item s.length s .start).1), fun after ha => ?_, by simp, ?_⟩
    · rw [atof_view long s after hs hne hl hb' ha, if_pos h]
    · rintro t ⟨rfl⟩
      exact List.take_prefix _ _
  · refine ⟨false, none, fun after ha => ?_, by simp, by simp⟩
    rw [atof_view long s after hs hne hl hb' ha, if_neg h]

theorem signedText_facts (plus : Bool) (t : Decimal) (ht : t.WF) : 0 ∉ signedText plus t ∧ signedText plus t ≠ [] ∧ ∀ c ∈ (signedText plus t).head?, blank c = false := by
  have hall : ∀ c ∈ signedText plus t, 43 ≤ c := by
    intro c hc
    simp only [signedText, Decimal.text, List.mem_append] at hc
    have hdg := ht.digits
    unfold Decimal.digits IsDigit at hdg
    rcases hc with hc | hc | hc | hc | hc
    · cases plus <;> simp at hc; omega
    · split at hc <;> simp at hc; omega
    · have := hdg c (List.mem_append_left _ hc); omega
    · cases hf : t.frac with
      | none => rw [hf] at hc; simp [Decimal.fracText] at hc
      | some f =>
        rw [hf] at hc hdg
        simp only [Decimal.fracText, List.mem_cons] at hc
        rcases hc with rfl | hc
        · omega
        · have := hdg c (List.mem_append_right _ hc); omega
    · cases he : t.exp with
      | none => rw [he] at hc; simp [Decimal.expText] at hc
      | some w =>
        obtain ⟨e, sg, ds⟩ := w
        obtain ⟨g1, g2, g3, g4⟩ := ht.exp e sg ds he
        rw [he] at hc
        simp only [Decimal.expText, List.mem_cons, List.mem_append] at hc
        rcases hc with rfl | hc | hc
        · omega
        · rcases g2 with rfl | rfl | rfl <;> simp at hc <;> omega
        · have := g4 c hc; unfold IsDigit at this; omega
  have hne : signedText plus t ≠ [] := by
    intro h
    simp only [signedText, Decimal.text, List.append_eq_nil_iff] at h
    have := ht.nonempty
    unfold Decimal.digits at this
    rw [h.2.2.1, List.nil_append] at this
    cases hf : t.frac with
    | none => rw [hf] at this; exact this rfl
    | some f => rw [hf] at h; exact absurd h.2.2.2.1 (by simp [Decimal.fracText])
  refine ⟨fun h => ?_, hne, fun c hc => ?_⟩
  · have := hall 0 h; omega
  · have h43 := hall c (List.mem_of_mem_head? hc)
    -- a character from '+' on is no blank
    unfold blank
    simp; omega

theorem atof_decimal_scan (long plus : Bool) (t : Decimal) (ht : t.WF) (hp : plus = true → t.neg = false) (hl : (signedText plus t).length < 10 ^ 10) (after : List Nat) (ha : 0 ∈ after) :
    Scan.atof long (signedText plus t ++ after) (signedText plus t).length = .ok (true, some (signedText plus t)) := by
  obtain ⟨h1, h2, h3⟩ := signedText_facts plus t ht
  obtain ⟨e, h4, h5⟩ := go_signed plus t ht hp
  rw [atof_view long _ after h1 h2 hl h3 ha, item_of_go h4]
  dsimp only
  rw [if_pos h5, List.take_length]

/-- C131 for decimal numbers: the whole view is converted, whatever follows it in the string; a plus sign is accepted. -/
theorem C131_decimal_partial (long plus : Bool) (t : Decimal) (ht : t.WF) (hp : plus = true → t.neg = false) (hl : (signedText plus t).length < 10 ^ 10) (after : List Nat) (ha : 0 ∈ after) :
    Scan.atof long (signedText plus t ++ after) (signedText plus t).length = .ok (true, some (signedText plus t)) := atof_decimal_scan long plus t ht hp hl after ha

theorem realToken_signed (plus : Bool) (t : Decimal) (ht : t.WF) (hp : plus = true → t.neg = false) : RealToken (signedText plus t) := by
  cases plus with
  | false => exact realToken_decimal t ht
  | true =>
    obtain ⟨sg, lit, h1, h2, h3⟩ := realToken_decimal t ht
    have hn := hp rfl
    obtain ⟨⟩ : sg = [] := by
      rcases h2 with h | h | h
      · exact h
      · exfalso
        subst h
        obtain ⟨a, b, c⟩ := signedText_facts false t ht
        obtain ⟨e, g, -⟩ := go_decimal .sign (fun _ _ => rfl) t ht
        have ht' : t.text = t.int ++ (Decimal.fracText t.frac ++ Decimal.expText t.exp) := by unfold Decimal.text; rw [hn]; rfl
        rw [← ht', h1] at g
        exact absurd g (by simp [Scan.go, step, begin, digit, letterAt, S])
      · exfalso
        obtain ⟨-, h⟩ := h
        subst h
        obtain ⟨e, g, -⟩ := go_decimal .sign (fun _ _ => rfl) t ht
        have ht' : t.text = t.int ++ (Decimal.fracText t.frac ++ Decimal.expText t.exp) := by unfold Decimal.text; rw [hn]; rfl
        rw [← ht', h1] at g
        exact absurd g (by simp [Scan.go, step, begin, digit, letterAt, S])
    exact ⟨[43], lit, by unfold signedText; rw [h1]; rfl, Or.inr (Or.inl rfl), h3⟩

/-- C131 for the first number of a view: it is found after blanks, and converted without the character after it, wherever the view ends. -/
theorem C131_first_partial (long plus : Bool) (ws rest after : List Nat) (t : Decimal) (hws : ∀ c ∈ ws, Blank c) (ht : t.WF) (hp : plus = true → t.neg = false)
    (hrest : DelimEnd rest) (hl : (signedText plus t).length < 10 ^ 10) (ha : 0 ∈ after) :
    Scan.atofFirst long (ws ++ signedText plus t ++ rest ++ after) (ws ++ signedText plus t ++ rest).length = .ok (some (ws.length + (signedText plus t).length), some (signedText plus t)) := by
  obtain ⟨r, h1, -, h3, -⟩ := C45_real_span (ws ++ signedText plus t ++ rest)
  have hr := h3 ws.length (signedText plus t).length ⟨ws, signedText plus t, rest, rfl, hws, realToken_signed plus t ht hp, hrest, rfl, rfl⟩
  have hne : (signedText plus t).length ≠ 0 := fun h => (signedText_facts plus t ht).2.1 (List.length_eq_zero_iff.1 h)
  unfold Scan.atofFirst
  rw [List.take_left, h1, hr, Res.ok_bind]
  dsimp only
  rw [if_neg hne]
  have hd : (ws ++ signedText plus t ++ rest ++ after).drop ws.length = signedText plus t ++ (rest ++ after) := by
    simp only [List.append_assoc, List.drop_left]
  rw [hd, atof_decimal_scan long plus t ht hp hl _ (List.mem_append_right _ ha)]
  rfl

/-- C131 for a view that has no number at its first character that is not blank: this is reported, and nothing is assigned. -/
theorem C131_first_none (long : Bool) (s after : List Nat) (h : ∀ off n, ¬ TokenAt RealToken s off n) :
    Scan.atofFirst long (s ++ after) s.length = .ok (none, none) := by
  obtain ⟨r, h1, -, -, h4⟩ := C45_real_span s
  have hz : r.2 = 0 := Classical.byContradiction fun hz => h _ _ (h4 hz)
  unfold Scan.atofFirst
  rw [List.take_left, h1, Res.ok_bind, if_pos hz]

example : Scan.atofFirst true (S " abc 1.5" ++ [0]) 8 = .ok (none, none) := by decide +kernel
example (off n : Nat) : ¬ TokenAt RealToken (S " abc 1.5") off n := by
  intro h
  have hr : ∃ k, firstRealSpan (S " abc 1.5") = .ok (k, 0) := ⟨1, by decide +kernel⟩
  obtain ⟨k, hr⟩ := hr
  obtain ⟨r, h1, -, h3, -⟩ := C45_real_span (S " abc 1.5")
  have h0 := h3 off n h
  rw [hr] at h1
  obtain ⟨⟩ := h1
  obtain ⟨⟨⟩, ⟨⟩⟩ := Prod.mk.inj h0.symm
  obtain ⟨ws, tok, rest, -, -, ⟨sg, b, hb, -, hl⟩, -, -, hn⟩ := h
  have : b = [] := (List.append_eq_nil_iff.1 (hb ▸ List.length_eq_zero_iff.1 hn.symm)).2
  subst this
  cases hl with
  | dec h => obtain ⟨a, f, e, h1, h2, h3, h4⟩ := h; simp_all

example : Decimal.WF ⟨false, S "12", some (S "5"), some (101, some 45, S "3")⟩ ∧ signedText true ⟨false, S "12", some (S "5"), some (101, some 45, S "3")⟩ = S "+12.5e-3" := by
  refine ⟨⟨by unfold IsDigit; decide, by decide, ?_⟩, by decide⟩
  rintro e sg ds ⟨⟩
  refine ⟨by decide, by decide, by decide, by unfold IsDigit; decide⟩
example : Scan.atof true (S "+12.5e-3789" ++ [0]) 8 = .ok (true, some (S "+12.5e-3")) := by decide +kernel
example : Scan.atofFirst true (S " 1.5, 2" ++ [0]) 7 = .ok (some 4, some (S "1.5")) := by decide +kernel

/-- C131 for a text that does not begin like a number: it is refused, and nothing is assigned. -/
theorem C131_other_partial (long : Bool) (c : Nat) (s after : List Nat) (hs : 0 ∉ c :: s) (hl : (c :: s).length < 10 ^ 10) (ha : 0 ∈ after)
    (hc : ¬ (c = 32 ∨ (9 ≤ c ∧ c ≤ 13))) (hn : c ∉ S "+-.0123456789iInN") : Scan.atof long (c :: s ++ after) (c :: s).length = .ok (false, none) := by
  have hb : ∀ x ∈ (c :: s).head?, blank x = false := by
    rintro x ⟨⟩
    unfold blank
    simpa using hc
  have hst : step .start c = none := by
    have hn' : c ≠ 43 ∧ c ≠ 45 ∧ c ≠ 46 ∧ ¬ (48 ≤ c ∧ c ≤ 57) ∧ c ≠ 105 ∧ c ≠ 73 ∧ c ≠ 110 ∧ c ≠ 78 := by
      simp only [S, String.reduceToList, List.map_cons, List.map_nil, List.mem_cons, List.not_mem_nil, or_false, not_or, Char.reduceToNat] at hn
      omega
    obtain ⟨a1, a2, a3, a4, a5, a6, a7, a8⟩ := hn'
    simp only [step]
    rw [if_neg (by omega)]
    unfold begin
    have hd : digit c = false := decide_eq_false a4
    have l1 : letterAt (S "infinity") 0 c = false := by
      have : (S "infinity")[0]? = some 105 := rfl
      unfold letterAt
      rw [this]
      simp; omega
    have l2 : letterAt (S "nan") 0 c = false := by
      have : (S "nan")[0]? = some 110 := rfl
      unfold letterAt
      rw [this]
      simp; omega
    rw [if_neg (by omega), hd, l1, l2, if_neg a3]
    simp
  rw [atof_view long (c :: s) after hs (by simp) hl hb ha]
  have hi : item (c :: s).length (c :: s) .start = (0, .start) := by simp only [List.length_cons, item, hst]
  rw [hi]
  rfl

/-- C131 fails.  A view that is not followed by a zero is read beyond its end, wherever that is.  A vertical tab is allowed by the assertion and skipped by `sscanf`, without being counted: for the view
"\v1" in the string "\v12", the value is 12.  And a view of 10^10 characters or more gives an invalid format. -/
theorem C131_refuted :
    (∀ long s, s ≠ [] → 0 ∉ s → Scan.atof long s s.length = .ub) ∧
    Scan.atof true (11 :: S "12" ++ [0]) 2 = .ok (true, some (S "12")) ∧
    (∀ s after, 10 ^ 10 ≤ s.length → s.length < 2 ^ 64 → Scan.atof true (s ++ after) s.length = .ub) := by
  refine ⟨fun long s hne h0 => ?_, by decide +kernel, fun s after h1 h2 => ?_⟩
  · have hlen : 0 < s.length := List.length_pos_iff.2 hne
    unfold Scan.atof
    rw [List.take_length]
    have hr : rd s 0 = .ok (s[0]'hlen) := by unfold rd; rw [List.getElem?_eq_getElem hlen]
    simp only [hr, Res.ok_bind]
    generalize hexPrefix (s.drop (if s[0] = 45 ∨ s[0] = 43 then 1 else 0)) = hex
    unfold scanOne
    generalize List.take 15 _ = fmt
    have : sscanf s fmt = .ub := by
      unfold sscanf
      cases parseFormat fmt with
      | none => rfl
      | some w => dsimp only; rw [if_neg h0]
    rw [this]
    rfl
  · have hlen : 0 < s.length := by omega
    unfold Scan.atof
    rw [List.take_left]
    have hr : rd s 0 = .ok (s[0]'hlen) := by unfold rd; rw [List.getElem?_eq_getElem hlen]
    simp only [hr, Res.ok_bind]
    generalize hexPrefix (s.drop (if s[0] = 45 ∨ s[0] = 43 then 1 else 0)) = hex
    unfold scanOne
    have hp : ∀ ty : List Nat, (∃ x, ty = [108, x] ∧ digit x = false) → parseFormat (([37] ++ numeralText 10 s.length ++ ty ++ [37, 110]).take 15) = none := by
      rintro ty ⟨x, rfl, hx⟩
      have hn : 11 ≤ (numeralText 10 s.length).length := by
        rw [numeralText_length]
        obtain ⟨h3, -⟩ := numeral_length_spec (b := 10) (v := s.length) (by decide)
        by_contra hc
        have : 10 ^ (numeral 10 s.length).length ≤ 10 ^ 10 := Nat.pow_le_pow_right (by decide) (by omega)
        omega
      have hd : ∀ c ∈ numeralText 10 s.length, digit c = true := fun c hc => decide_eq_true (numeralText_digit hc)
      generalize numeralText 10 s.length = N at hn hd
      have e : ([37] ++ N ++ [108, x] ++ [37, 110]).take 15 = 37 :: (N.take 14 ++ ([108, x, 37, 110].take (14 - N.length))) := by
        simp only [List.cons_append, List.nil_append, List.append_assoc, List.take_succ_cons]
        rw [List.take_append]
      rw [e]
      have hd' : ∀ c ∈ N.take 14, digit c = true := fun c hc => hd c (List.take_subset _ _ hc)
      have htail : ∀ k, 14 - N.length = k → (([108, x, 37, 110].take k).dropWhile digit) ∉ [S "f%n", S "lf%n", S "a%n", S "la%n"] := by
        intro k hk
        have : k ≤ 3 := by omega
        have h108 : digit 108 = false := by decide
        interval_cases k <;> simp [S, h108]
      simp only [parseFormat]
      rw [List.dropWhile_append_of_pos hd']
      have := htail _ rfl
      simp only [List.mem_cons, List.not_mem_nil, or_false] at this
      rw [if_neg this]
      split <;> rfl
    have : parseFormat (([37] ++ numeralText 10 s.length ++ ((if True then [108] else []) ++ (if hex then [97] else [102])) ++ [37, 110]).take 15) = none := by
      cases hex
      · exact hp _ ⟨102, rfl, by decide⟩
      · exact hp _ ⟨97, rfl, by decide⟩
    unfold sscanf
    rw [this]
    rfl

end C4
