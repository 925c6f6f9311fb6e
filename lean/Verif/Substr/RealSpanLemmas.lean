import Verif.Substr.SpansLemmas
/-
Lemmas about the real number scanner.
-/
namespace C4
open Spec

/-- How the loop over the integral part ends in front of `rest`. -/
def intEnd (isPow : Nat → Bool) (pos : Nat) (seen : Bool) : List Nat → PartEnd
  | [] => .eos seen
  | c :: _ => if c = 46 then .dot (pos + 1) seen else if isPow c then .pow (pos + 1) seen
    else if isDelimChar c then .delim pos seen else .bad

/-- How the loop over the fractional part ends in front of `rest`. -/
def fracEnd (isPow : Nat → Bool) (pos : Nat) (seen : Bool) : List Nat → PartEnd
  | [] => .eos seen
  | c :: _ => if isPow c then .pow (pos + 1) seen else if isDelimChar c then .delim pos seen else .bad

/-- How the loop over the exponent ends in front of `rest`. -/
def powEnd (pos : Nat) (seen : Bool) : List Nat → Option Nat × Bool
  | [] => (none, seen)
  | c :: _ => (some (if seen && isDelimChar c then pos else 0), seen)

theorem intPart_eq {isDig isPow : Nat → Bool} (s rest : List Nat) (hr : HeadNot (fun c => isDig c = true) rest) :
    ∀ (ds pre : List Nat) (seen : Bool), s = pre ++ ds ++ rest → (∀ c ∈ ds, isDig c = true) →
    intPart s isDig isPow (ds.length + rest.length) pre.length seen =
      .ok (intEnd isPow (pre.length + ds.length) (seen || !ds.isEmpty) rest) := by
  intro ds
  induction ds with
  | nil =>
    intro pre seen hs _
    cases rest with
    | nil => simp [intPart, intEnd]
    | cons c t =>
      have hc : isDig c = false := by simpa using headNot_cons.mp hr
      simp only [List.length_nil, Nat.zero_add, List.length_cons, intPart, intEnd]
      rw [rd_some (c := c) (by rw [hs]; simp)]
      simp only [Res.ok_bind, hc, Bool.false_eq_true, if_false, List.isEmpty_nil, Bool.not_true, Bool.or_false, Nat.add_zero]
      split
      · rfl
      · split
        · rfl
        · split <;> rfl
  | cons d ds ih =>
    intro pre seen hs hd
    rw [show (d :: ds).length + rest.length = (ds.length + rest.length) + 1 by simp; omega, intPart]
    rw [rd_some (c := d) (by rw [hs]; simp)]
    simp only [Res.ok_bind, hd d (by simp), if_true]
    have := ih (pre ++ [d]) true (by rw [hs]; simp) (fun c hc => hd c (by simp [hc]))
    rw [show pre.length + 1 = (pre ++ [d]).length by simp, this]
    simp only [List.length_append, List.length_cons, List.length_nil, List.isEmpty_cons, Bool.not_false, Bool.or_true,
      Bool.true_or]
    congr 2; omega

theorem fracPart_eq {isDig isPow : Nat → Bool} (s rest : List Nat) (hr : HeadNot (fun c => isDig c = true) rest) :
    ∀ (ds pre : List Nat) (seen : Bool), s = pre ++ ds ++ rest → (∀ c ∈ ds, isDig c = true) →
    fracPart s isDig isPow (ds.length + rest.length) pre.length seen =
      .ok (fracEnd isPow (pre.length + ds.length) (seen || !ds.isEmpty) rest) := by
  intro ds
  induction ds with
  | nil =>
    intro pre seen hs _
    cases rest with
    | nil => simp [fracPart, fracEnd]
    | cons c t =>
      have hc : isDig c = false := by simpa using headNot_cons.mp hr
      simp only [List.length_nil, Nat.zero_add, List.length_cons, fracPart, fracEnd]
      rw [rd_some (c := c) (by rw [hs]; simp)]
      simp only [Res.ok_bind, hc, Bool.false_eq_true, if_false, List.isEmpty_nil, Bool.not_true, Bool.or_false, Nat.add_zero]
      split
      · rfl
      · split <;> rfl
  | cons d ds ih =>
    intro pre seen hs hd
    rw [show (d :: ds).length + rest.length = (ds.length + rest.length) + 1 by simp; omega, fracPart]
    rw [rd_some (c := d) (by rw [hs]; simp)]
    simp only [Res.ok_bind, hd d (by simp), if_true]
    have := ih (pre ++ [d]) true (by rw [hs]; simp) (fun c hc => hd c (by simp [hc]))
    rw [show pre.length + 1 = (pre ++ [d]).length by simp, this]
    simp only [List.length_append, List.length_cons, List.length_nil, List.isEmpty_cons, Bool.not_false, Bool.or_true,
      Bool.true_or]
    congr 2; omega

theorem powDigits_eq (s rest : List Nat) (hr : HeadNot (fun c => isDecC c = true) rest) :
    ∀ (ds pre : List Nat) (seen : Bool), s = pre ++ ds ++ rest → (∀ c ∈ ds, isDecC c = true) →
    powDigits s (ds.length + rest.length) pre.length seen =
      .ok (powEnd (pre.length + ds.length) (seen || !ds.isEmpty) rest) := by
  intro ds
  induction ds with
  | nil =>
    intro pre seen hs _
    cases rest with
    | nil => simp [powDigits, powEnd]
    | cons c t =>
      have hc : isDecC c = false := by simpa using headNot_cons.mp hr
      simp only [List.length_nil, Nat.zero_add, List.length_cons, powDigits, powEnd]
      rw [rd_some (c := c) (by rw [hs]; simp)]
      simp only [Res.ok_bind, hc, Bool.false_eq_true, if_false, List.isEmpty_nil, Bool.not_true, Bool.or_false, Nat.add_zero]
      split <;> rfl
  | cons d ds ih =>
    intro pre seen hs hd
    rw [show (d :: ds).length + rest.length = (ds.length + rest.length) + 1 by simp; omega, powDigits]
    rw [rd_some (c := d) (by rw [hs]; simp)]
    simp only [Res.ok_bind, hd d (by simp), if_true]
    have := ih (pre ++ [d]) true (by rw [hs]; simp) (fun c hc => hd c (by simp [hc]))
    rw [show pre.length + 1 = (pre ++ [d]).length by simp, this]
    simp only [List.length_append, List.length_cons, List.length_nil, List.isEmpty_cons, Bool.not_false, Bool.or_true,
      Bool.true_or]
    congr 2; omega

/-- The exponent digits: the value returned after the loop, with `fall` the value if it completes. -/
theorem powDigits_scans (pre w : List Nat) (fall : Bool → Nat) (hfall : fall true = (pre ++ w).length)
    (hw : w ≠ [] ∨ fall false = 0) :
    ∃ r, powDigits (pre ++ w) ((pre ++ w).length - pre.length) pre.length false = .ok r ∧
      ScansTo (Run DecChar) pre w (match r.1 with | some k => k | none => fall r.2) := by
  obtain ⟨ds, rest, rfl, h2, h3⟩ := exists_span (fun c => isDecC c = true) w
  have hcompl : ∀ b rest', ds ++ rest = b ++ rest' → Run DecChar b → DelimEnd rest' → b = ds ∧ rest' = rest := by
    intro b rest' e ⟨hb1, hb2⟩ hr
    obtain ⟨e1, e2⟩ := span_unique (P := fun c => isDecC c = true) ds b rest rest' h2
      (fun c hc => (isDecC_iff c).mpr (hb2 c hc)) h3
      (delimEnd_headNot (fun c hc h => dec_not_delim c hc ((isDecC_iff c).mp h)) hr) e
    exact ⟨e1.symm, e2.symm⟩
  have hrun : ds ≠ [] → Run DecChar ds := fun h => ⟨h, fun c hc => (isDecC_iff c).mp (h2 c hc)⟩
  have e := powDigits_eq (pre ++ (ds ++ rest)) rest h3 ds pre false (by simp) h2
  rw [show (pre ++ (ds ++ rest)).length - pre.length = ds.length + rest.length by simp, e]
  refine ⟨_, rfl, ?_, ?_⟩
  · intro b rest' e hb hr
    have hne := hb.1
    obtain ⟨rfl, rfl⟩ := hcompl b rest' e hb hr
    have hemp : b.isEmpty = false := by simpa using hne
    cases rest' with
    | nil =>
      simp only [powEnd, hemp, Bool.not_false, Bool.or_true, hfall]
      simp
    | cons c t =>
      have hdc : isDelimChar c = true := (isDelimChar_iff c).mpr (delimEnd_cons.mp hr)
      simp [powEnd, hemp, hdc]
  · intro hk
    cases rest with
    | nil =>
      by_cases hds : ds = []
      · subst hds
        simp [powEnd] at hk hw
        exact absurd hw hk
      · refine ⟨ds, [], rfl, hrun hds, delimEnd_nil, ?_⟩
        have hemp : ds.isEmpty = false := by simpa using hds
        simp only [powEnd, hemp, Bool.not_false, Bool.or_true, hfall]
        simp
    | cons c t =>
      simp only [powEnd, Bool.false_or] at hk ⊢
      split at hk
      · rename_i h
        simp only [Bool.and_eq_true, Bool.not_eq_true', List.isEmpty_eq_false_iff] at h
        refine ⟨ds, c :: t, rfl, hrun h.1, delimEnd_cons.mpr ((isDelimChar_iff c).mp h.2), ?_⟩
        rw [if_pos (by simpa using h)]
      · exact absurd rfl hk

/-- Sign and digits of an exponent. -/
def ExpTail (signs : List (List Nat)) (b : List Nat) : Prop := ∃ sg ds, b = sg ++ ds ∧ sg ∈ signs ∧ Run DecChar ds

theorem scansTo_zero_nil {L : List Nat → Prop} (pre : List Nat) (h : ¬ L []) : ScansTo L pre [] 0 := by
  refine ⟨fun b rest e hb _ => ?_, fun h => absurd rfl h⟩
  have : b = [] := by simp at e; exact e.1
  subst this; exact absurd hb h

theorem run_ne {P : Nat → Prop} : ¬ Run P [] := fun h => h.1 rfl

theorem powDec_scans (pre w : List Nat) :
    ∃ k, powDec (pre ++ w) pre.length true = .ok k ∧ ScansTo (ExpTail [[], [43], [45]]) pre w k := by
  unfold powDec
  cases w with
  | nil =>
    refine ⟨0, by simp, scansTo_zero_nil _ ?_⟩
    rintro ⟨sg, ds, e, _, h⟩
    simp at e
    exact run_ne (e.2 ▸ h)
  | cons c t =>
    rw [if_neg (by simp), rd_some (c := c) (by simp)]
    simp only [Res.ok_bind]
    by_cases hc : c = 45 ∨ c = 43
    · rw [if_pos hc]
      obtain ⟨r, h1, h2⟩ := powDigits_scans (pre ++ [c]) t (fun b => if b then (pre ++ c :: t).length else 0) (by simp) (Or.inr rfl)
      have e : (pre ++ [c]) ++ t = pre ++ c :: t := by simp
      rw [e] at h1
      rw [show pre.length + 1 = (pre ++ [c]).length by simp, h1]
      refine ⟨(match r.1 with | some k => k | none => if r.2 = true then (pre ++ c :: t).length else 0),
        by rcases r with ⟨_ | k, sn⟩ <;> rfl, ?_⟩
      have h3 : ScansTo (fun b => ∃ b', b = [c] ++ b' ∧ Run DecChar b') pre (c :: t)
        (match r.1 with | some k => k | none => if r.2 = true then (pre ++ c :: t).length else 0) := h2.shift
      exact h3.congr (L' := ExpTail [[], [43], [45]]) (fun b rest e hr => by
        constructor
        · rintro ⟨b', rfl, h⟩
          refine ⟨[c], b', rfl, ?_, h⟩
          rcases hc with rfl | rfl <;> simp
        · rintro ⟨sg, ds, rfl, hsg, h⟩
          simp at hsg
          rcases hsg with rfl | rfl | rfl
          · exfalso
            obtain ⟨d, ds', rfl⟩ := List.exists_cons_of_ne_nil h.1
            simp at e
            have := h.2 d (by simp)
            rw [← e.1] at this
            unfold DecChar at this; omega
          · simp at e; exact ⟨ds, by simp [e.1], h⟩
          · simp at e; exact ⟨ds, by simp [e.1], h⟩)
    · rw [if_neg hc]
      obtain ⟨r, h1, h2⟩ := powDigits_scans pre (c :: t) (fun b => if b then (pre ++ c :: t).length else 0) (by simp) (Or.inr rfl)
      rw [h1]
      refine ⟨(match r.1 with | some k => k | none => if r.2 = true then (pre ++ c :: t).length else 0),
        by rcases r with ⟨_ | k, sn⟩ <;> rfl, ?_⟩
      exact h2.congr (L' := ExpTail [[], [43], [45]]) (fun b rest e hr => by
        constructor
        · intro h; exact ⟨[], b, rfl, by simp, h⟩
        · rintro ⟨sg, ds, rfl, hsg, h⟩
          simp at hsg
          rcases hsg with rfl | rfl | rfl
          · exact h
          · simp at e; omega
          · simp at e; omega)

theorem powHex_scans (pre w : List Nat) :
    ∃ k, powHex (pre ++ w) pre.length true = .ok k ∧ ScansTo (ExpTail [[43], [45]]) pre w k := by
  have hlen2 : ∀ b, ExpTail [[43], [45]] b → 2 ≤ b.length := by
    rintro b ⟨sg, ds, rfl, hsg, h⟩
    have := List.length_pos_iff.mpr h.1
    simp at hsg
    rcases hsg with rfl | rfl <;> simp <;> omega
  unfold powHex
  by_cases hl : w.length ≤ 1
  · rw [if_pos (by simp; omega)]
    refine ⟨0, rfl, fun b rest e hb _ => ?_, fun h => absurd rfl h⟩
    have := hlen2 b hb
    have := congrArg List.length e
    simp at this; omega
  · obtain ⟨c, t, rfl⟩ := List.exists_cons_of_length_pos (l := w) (by omega)
    have ht : t ≠ [] := by rintro rfl; simp at hl
    rw [if_neg (by simp; exact ht), rd_some (c := c) (by simp)]
    simp only [Res.ok_bind]
    by_cases hc : c = 43 ∨ c = 45
    · rw [if_neg (by simp; omega)]
      obtain ⟨r, h1, h2⟩ := powDigits_scans (pre ++ [c]) t (fun _ => (pre ++ c :: t).length) (by simp) (Or.inl ht)
      have e : (pre ++ [c]) ++ t = pre ++ c :: t := by simp
      rw [e] at h1
      rw [show pre.length + 1 = (pre ++ [c]).length by simp, h1]
      refine ⟨(match r.1 with | some k => k | none => (pre ++ c :: t).length),
        by rcases r with ⟨_ | k, sn⟩ <;> rfl, ?_⟩
      have h3 : ScansTo (fun b => ∃ b', b = [c] ++ b' ∧ Run DecChar b') pre (c :: t)
        (match r.1 with | some k => k | none => (pre ++ c :: t).length) := h2.shift
      exact h3.congr (L' := ExpTail [[43], [45]]) (fun b rest e hr => by
        constructor
        · rintro ⟨b', rfl, h⟩
          refine ⟨[c], b', rfl, ?_, h⟩
          rcases hc with rfl | rfl <;> simp
        · rintro ⟨sg, ds, rfl, hsg, h⟩
          simp at hsg
          rcases hsg with rfl | rfl
          · simp at e; exact ⟨ds, by simp [e.1], h⟩
          · simp at e; exact ⟨ds, by simp [e.1], h⟩)
    · rw [if_pos (by left; omega)]
      refine ⟨0, rfl, fun b rest e hb _ => ?_, fun h => absurd rfl h⟩
      obtain ⟨sg, ds, rfl, hsg, h⟩ := hb
      simp at hsg
      rcases hsg with rfl | rfl <;> (simp at e; omega)

theorem powDec_false (s : List Nat) (pos : Nat) : powDec s pos false = .ok 0 := by simp [powDec]

theorem powHex_false (pre w : List Nat) : powHex (pre ++ w) pre.length false = .ok 0 := by
  unfold powHex
  split
  · rfl
  · rename_i h
    simp at h
    obtain ⟨c, t, rfl⟩ := List.exists_cons_of_length_pos (l := w) (by omega)
    rw [rd_some (c := c) (by simp)]
    simp

/-- What the scanner needs to know about its parameters. -/
structure RealParams (isDig isPow : Nat → Bool) (P Pw : Nat → Prop) (signs : List (List Nat))
    (pow : List Nat → Nat → Bool → Res Nat) : Prop where
  dig : ∀ c, isDig c = true ↔ P c
  pw : ∀ c, isPow c = true ↔ Pw c
  digDelim : ∀ c, DelimChar c → ¬ P c
  digDot : ¬ P 46
  digPow : ∀ c, Pw c → ¬ P c
  powDelim : ∀ c, DelimChar c → ¬ Pw c
  powDot : ¬ Pw 46
  scan : ∀ pre w, ∃ k, pow (pre ++ w) pre.length true = .ok k ∧ ScansTo (ExpTail signs) pre w k
  scanF : ∀ pre w, pow (pre ++ w) pre.length false = .ok 0

/-- An exponent. -/
def ExpText (Pw : Nat → Prop) (signs : List (List Nat)) (ep : List Nat) : Prop :=
  ∃ e sg ds, ep = e :: (sg ++ ds) ∧ Pw e ∧ sg ∈ signs ∧ Run DecChar ds

/-- What follows the point of a real literal. -/
def FracTail (P Pw : Nat → Prop) (signs : List (List Nat)) (ints : Bool) (b : List Nat) : Prop :=
  ∃ f ep, b = f ++ ep ∧ (∀ c ∈ f, P c) ∧ (ints = true ∨ f ≠ []) ∧ (ep = [] ∨ ExpText Pw signs ep)

theorem headNot_tail {P Pw : Nat → Prop} {signs : List (List Nat)} {ep rest : List Nat} (h1 : ∀ c, DelimChar c → ¬ P c)
    (h2 : ∀ c, Pw c → ¬ P c) (hep : ep = [] ∨ ExpText Pw signs ep) (hr : DelimEnd rest) : HeadNot P (ep ++ rest) := by
  rcases hep with rfl | ⟨e, sg, ds, rfl, he, _⟩
  · exact delimEnd_headNot h1 hr
  · exact headNot_cons.mpr (h2 e he)

theorem not_dot_delim : ¬ DelimChar 46 := by unfold DelimChar Blank; omega

/-- The scan of an exponent. -/
theorem exp_scans {isDig isPow : Nat → Bool} {P Pw : Nat → Prop} {signs : List (List Nat)}
    {pow : List Nat → Nat → Bool → Res Nat} (hp : RealParams isDig isPow P Pw signs pow) (pre : List Nat) (c : Nat) (t : List Nat)
    (hc : Pw c) : ∃ k, pow (pre ++ c :: t) (pre.length + 1) true = .ok k ∧
      (∀ b rest, c :: t = b ++ rest → ExpText Pw signs b → DelimEnd rest → k = pre.length + b.length) ∧
      (k ≠ 0 → ∃ b rest, c :: t = b ++ rest ∧ ExpText Pw signs b ∧ DelimEnd rest ∧ k = pre.length + b.length) := by
  obtain ⟨k, h1, h2⟩ := hp.scan (pre ++ [c]) t
  refine ⟨k, by simpa using h1, ?_⟩
  have h3 : ScansTo (fun b => ∃ b', b = [c] ++ b' ∧ ExpTail signs b') pre (c :: t) k := h2.shift
  exact h3.congr (fun b rest e hr => by
    constructor
    · rintro ⟨b', rfl, sg, ds, rfl, hsg, h⟩
      exact ⟨c, sg, ds, rfl, hc, hsg, h⟩
    · rintro ⟨e', sg, ds, rfl, he, hsg, h⟩
      simp at e
      exact ⟨sg ++ ds, by simp [e.1], sg, ds, rfl, hsg, h⟩)

theorem afterFrac_scans {isDig isPow : Nat → Bool} {P Pw : Nat → Prop} {signs : List (List Nat)}
    {pow : List Nat → Nat → Bool → Res Nat} (hp : RealParams isDig isPow P Pw signs pow) (pre w : List Nat) (ints : Bool) :
    ∃ k, afterFrac (pre ++ w) isDig isPow (pow (pre ++ w)) pre.length ints = .ok k ∧
      ScansTo (FracTail P Pw signs ints) pre w k := by
  obtain ⟨f, rest, rfl, h2, h3⟩ := exists_span (fun c => isDig c = true) w
  have hf : ∀ c ∈ f, P c := fun c hc => (hp.dig c).mp (h2 c hc)
  have hcompl : ∀ b rest', f ++ rest = b ++ rest' → FracTail P Pw signs ints b → DelimEnd rest' →
      ∃ ep, b = f ++ ep ∧ (ints = true ∨ f ≠ []) ∧ (ep = [] ∨ ExpText Pw signs ep) ∧ rest = ep ++ rest' := by
    rintro b rest' e ⟨f', ep, rfl, g1, g2, g3⟩ hr
    obtain ⟨e1, e2⟩ := span_unique (P := fun c => isDig c = true) f f' rest (ep ++ rest') h2
      (fun c hc => (hp.dig c).mpr (g1 c hc)) h3
      (fun c hc h => headNot_tail hp.digDelim hp.digPow g3 hr c hc ((hp.dig c).mp h)) (by rw [e]; simp)
    subst e1
    exact ⟨ep, rfl, g2, g3, e2⟩
  have e := fracPart_eq (isPow := isPow) (pre ++ (f ++ rest)) rest h3 f pre false (by simp) h2
  unfold afterFrac
  rw [show (pre ++ (f ++ rest)).length - pre.length = f.length + rest.length by simp, e, Res.ok_bind, Bool.false_or]
  have hdigs : (ints || !f.isEmpty) = true ↔ (ints = true ∨ f ≠ []) := by simp
  cases rest with
  | nil =>
    refine ⟨_, rfl, ?_, ?_⟩
    · intro b rest' e hb hr
      obtain ⟨ep, rfl, g2, g3, g4⟩ := hcompl b rest' e hb hr
      have hep : ep = [] := by simp at g4; exact g4.1
      subst hep
      rw [if_pos (hdigs.mpr g2)]; simp
    · intro hk
      split at hk
      · rename_i h
        exact ⟨f, [], rfl, ⟨f, [], by simp, hf, hdigs.mp h, Or.inl rfl⟩, delimEnd_nil, by rw [if_pos h]; simp⟩
      · exact absurd rfl hk
  | cons c t =>
    simp only [fracEnd]
    by_cases hc : isPow c = true
    · rw [if_pos hc]
      simp only
      cases hd : (ints || !f.isEmpty) with
      | false =>
        refine ⟨0, ?_, fun b rest' e hb hr => ?_, fun h => absurd rfl h⟩
        · have := hp.scanF (pre ++ f ++ [c]) t
          simpa [Nat.add_assoc] using this
        · obtain ⟨ep, _, g2, _⟩ := hcompl b rest' e hb hr
          rw [hdigs.mpr g2] at hd; cases hd
      | true =>
        obtain ⟨k, g1, g2, g3⟩ := exp_scans hp (pre ++ f) c t ((hp.pw c).mp hc)
        refine ⟨k, by simpa using g1, ?_, ?_⟩
        · intro b rest' e hb hr
          obtain ⟨ep, rfl, f2, f3, f4⟩ := hcompl b rest' e hb hr
          rcases f3 with rfl | f3
          · exfalso
            simp at f4
            rw [← f4] at hr
            exact hp.powDelim c (delimEnd_cons.mp hr) ((hp.pw c).mp hc)
          · rw [g2 ep rest' f4 f3 hr]; simp; omega
        · intro hk
          obtain ⟨b, rest', f1, f2, f3, f4⟩ := g3 hk
          exact ⟨f ++ b, rest', by rw [f1]; simp, ⟨f, b, rfl, hf, hdigs.mp hd, Or.inr f2⟩, f3, by rw [f4]; simp; omega⟩
    · rw [if_neg hc]
      have hnp : ¬ Pw c := fun h => hc ((hp.pw c).mpr h)
      by_cases hdl : isDelimChar c = true
      · rw [if_pos hdl]
        have hdc := (isDelimChar_iff c).mp hdl
        refine ⟨_, rfl, ?_, ?_⟩
        · intro b rest' e hb hr
          obtain ⟨ep, rfl, g2, g3, g4⟩ := hcompl b rest' e hb hr
          rcases g3 with rfl | ⟨e', sg, ds, rfl, he, _⟩
          · rw [if_pos (hdigs.mpr g2)]; simp
          · simp at g4
            exact absurd he (g4.1 ▸ hnp)
        · intro hk
          split at hk
          · rename_i h
            exact ⟨f, c :: t, rfl, ⟨f, [], by simp, hf, hdigs.mp h, Or.inl rfl⟩, delimEnd_cons.mpr hdc, by rw [if_pos h]⟩
          · exact absurd rfl hk
      · rw [if_neg hdl]
        refine ⟨0, rfl, ?_, fun h => absurd rfl h⟩
        intro b rest' e hb hr
        obtain ⟨ep, rfl, g2, g3, g4⟩ := hcompl b rest' e hb hr
        rcases g3 with rfl | ⟨e', sg, ds, rfl, he, _⟩
        · simp at g4
          rw [← g4] at hr
          exact absurd ((isDelimChar_iff c).mpr (delimEnd_cons.mp hr)) hdl
        · simp at g4
          exact absurd he (g4.1 ▸ hnp)

theorem realSpanGen_scans {isDig isPow : Nat → Bool} {P Pw : Nat → Prop} {signs : List (List Nat)}
    {pow : List Nat → Nat → Bool → Res Nat} (hp : RealParams isDig isPow P Pw signs pow) (pre w : List Nat) :
    ∃ k, realSpanGen (pre ++ w) isDig isPow (pow (pre ++ w)) pre.length = .ok k ∧
      ScansTo (RealBody P Pw signs) pre w k := by
  obtain ⟨ip, rest, rfl, h2, h3⟩ := exists_span (fun c => isDig c = true) w
  have hip : ∀ c ∈ ip, P c := fun c hc => (hp.dig c).mp (h2 c hc)
  have hcompl : ∀ b rest', ip ++ rest = b ++ rest' → RealBody P Pw signs b → DelimEnd rest' →
      ∃ fp ep, b = ip ++ fp ++ ep ∧
        ((fp = [] ∧ ip ≠ []) ∨ (∃ f, fp = 46 :: f ∧ (∀ c ∈ f, P c) ∧ (ip ≠ [] ∨ f ≠ []))) ∧
        (ep = [] ∨ ExpText Pw signs ep) ∧ rest = fp ++ ep ++ rest' := by
    rintro b rest' e ⟨ip', fp, ep, rfl, g1, g2, g3⟩ hr
    have hh : HeadNot P (fp ++ ep ++ rest') := by
      rcases g2 with ⟨rfl, _⟩ | ⟨f, rfl, _⟩
      · exact headNot_tail hp.digDelim hp.digPow g3 hr
      · exact headNot_cons.mpr hp.digDot
    obtain ⟨e1, e2⟩ := span_unique (P := fun c => isDig c = true) ip ip' rest (fp ++ ep ++ rest') h2
      (fun c hc => (hp.dig c).mpr (g1 c hc)) h3
      (fun c hc h => hh c hc ((hp.dig c).mp h)) (by rw [e]; simp)
    subst e1
    exact ⟨fp, ep, rfl, g2, g3, e2⟩
  have e := intPart_eq (isPow := isPow) (pre ++ (ip ++ rest)) rest h3 ip pre false (by simp) h2
  unfold realSpanGen
  rw [show (pre ++ (ip ++ rest)).length - pre.length = ip.length + rest.length by simp, e, Res.ok_bind, Bool.false_or]
  have hdigs : (!ip.isEmpty) = true ↔ ip ≠ [] := by simp
  cases rest with
  | nil =>
    refine ⟨_, rfl, ?_, ?_⟩
    · intro b rest' e hb hr
      obtain ⟨fp, ep, rfl, g2, g3, g4⟩ := hcompl b rest' e hb hr
      have hep : fp = [] ∧ ep = [] := by simp at g4; exact ⟨g4.1, g4.2.1⟩
      obtain ⟨rfl, rfl⟩ := hep
      rcases g2 with ⟨_, g2⟩ | ⟨f, g2, _⟩
      · rw [if_pos (hdigs.mpr g2)]; simp
      · simp at g2
    · intro hk
      split at hk
      · rename_i h
        exact ⟨ip, [], rfl, ⟨ip, [], [], by simp, hip, Or.inl ⟨rfl, hdigs.mp h⟩, Or.inl rfl⟩, delimEnd_nil, by rw [if_pos h]; simp⟩
      · exact absurd rfl hk
  | cons c t =>
    simp only [intEnd]
    by_cases hdot : c = 46
    · subst hdot
      rw [if_pos rfl]
      simp only
      obtain ⟨k, g1, g2, g3⟩ := afterFrac_scans hp (pre ++ ip ++ [46]) t (!ip.isEmpty)
      refine ⟨k, by simpa [Nat.add_assoc] using g1, ?_, ?_⟩
      · intro b rest' e hb hr
        obtain ⟨fp, ep, rfl, f2, f3, f4⟩ := hcompl b rest' e hb hr
        rcases f2 with ⟨rfl, _⟩ | ⟨f, rfl, f5, f6⟩
        · exfalso
          rcases f3 with rfl | ⟨e', sg, ds, rfl, he, _⟩
          · simp at f4
            rw [← f4] at hr
            exact not_dot_delim (delimEnd_cons.mp hr)
          · simp at f4
            exact hp.powDot (f4.1 ▸ he)
        · simp at f4
          rw [g2 (f ++ ep) rest' (by rw [f4]; simp) ⟨f, ep, rfl, f5, by rw [hdigs]; exact f6, f3⟩ hr]
          simp; omega
      · intro hk
        obtain ⟨b, rest', f1, ⟨f, ep, rfl, f2, f3, f4⟩, f5, f6⟩ := g3 hk
        refine ⟨ip ++ 46 :: (f ++ ep), rest', by rw [f1]; simp, ⟨ip, 46 :: f, ep, by simp, hip, Or.inr ⟨f, rfl, f2, ?_⟩, f4⟩, f5, ?_⟩
        · rw [hdigs] at f3; exact f3
        · rw [f6]; simp; omega
    · rw [if_neg hdot]
      by_cases hc : isPow c = true
      · rw [if_pos hc]
        simp only
        cases hd : (!ip.isEmpty) with
        | false =>
          refine ⟨0, ?_, fun b rest' e hb hr => ?_, fun h => absurd rfl h⟩
          · have := hp.scanF (pre ++ ip ++ [c]) t
            simpa [Nat.add_assoc] using this
          · obtain ⟨fp, ep, _, g2, g3, g4⟩ := hcompl b rest' e hb hr
            have : ¬ ip ≠ [] := by rw [← hdigs, hd]; simp
            rcases g2 with ⟨_, g2⟩ | ⟨f, rfl, _⟩
            · exact absurd g2 this
            · simp at g4; exact absurd g4.1 hdot
        | true =>
          obtain ⟨k, g1, g2, g3⟩ := exp_scans hp (pre ++ ip) c t ((hp.pw c).mp hc)
          refine ⟨k, by simpa using g1, ?_, ?_⟩
          · intro b rest' e hb hr
            obtain ⟨fp, ep, rfl, f2, f3, f4⟩ := hcompl b rest' e hb hr
            rcases f2 with ⟨rfl, _⟩ | ⟨f, rfl, _⟩
            · rcases f3 with rfl | f3
              · exfalso
                simp at f4
                rw [← f4] at hr
                exact hp.powDelim c (delimEnd_cons.mp hr) ((hp.pw c).mp hc)
              · rw [g2 ep rest' (by simpa using f4) f3 hr]; simp; omega
            · simp at f4; exact absurd f4.1 hdot
          · intro hk
            obtain ⟨b, rest', f1, f2, f3, f4⟩ := g3 hk
            exact ⟨ip ++ b, rest', by rw [f1]; simp, ⟨ip, [], b, by simp, hip, Or.inl ⟨rfl, hdigs.mp hd⟩, Or.inr f2⟩, f3,
              by rw [f4]; simp; omega⟩
      · rw [if_neg hc]
        have hnp : ¬ Pw c := fun h => hc ((hp.pw c).mpr h)
        have hcases : ∀ b rest', ip ++ c :: t = b ++ rest' → RealBody P Pw signs b → DelimEnd rest' →
            b = ip ∧ ip ≠ [] ∧ DelimChar c := by
          intro b rest' e hb hr
          obtain ⟨fp, ep, rfl, g2, g3, g4⟩ := hcompl b rest' e hb hr
          rcases g2 with ⟨rfl, g2⟩ | ⟨f, rfl, _⟩
          · rcases g3 with rfl | ⟨e', sg, ds, rfl, he, _⟩
            · simp at g4
              rw [← g4] at hr
              exact ⟨by simp, g2, delimEnd_cons.mp hr⟩
            · simp at g4
              exact absurd he (g4.1 ▸ hnp)
          · simp at g4; exact absurd g4.1 hdot
        by_cases hdl : isDelimChar c = true
        · rw [if_pos hdl]
          have hdc := (isDelimChar_iff c).mp hdl
          refine ⟨_, rfl, ?_, ?_⟩
          · intro b rest' e hb hr
            obtain ⟨rfl, g2, _⟩ := hcases b rest' e hb hr
            rw [if_pos (hdigs.mpr g2)]
          · intro hk
            split at hk
            · rename_i h
              exact ⟨ip, c :: t, rfl, ⟨ip, [], [], by simp, hip, Or.inl ⟨rfl, hdigs.mp h⟩, Or.inl rfl⟩, delimEnd_cons.mpr hdc,
                by rw [if_pos h]⟩
            · exact absurd rfl hk
        · rw [if_neg hdl]
          refine ⟨0, rfl, ?_, fun h => absurd rfl h⟩
          intro b rest' e hb hr
          obtain ⟨_, _, g3⟩ := hcases b rest' e hb hr
          exact absurd ((isDelimChar_iff c).mpr g3) hdl

theorem decParams : RealParams isDecC isEC DecChar IsE [[], [43], [45]] powDec where
  dig := isDecC_iff
  pw := isEC_iff
  digDelim := dec_not_delim
  digDot := by unfold DecChar; omega
  digPow c h := by unfold IsE at h; unfold DecChar; omega
  powDelim c h := by unfold DelimChar Blank at h; unfold IsE; omega
  powDot := by unfold IsE; omega
  scan := powDec_scans
  scanF _ _ := powDec_false _ _

theorem powHexParams {isDig : Nat → Bool} {P : Nat → Prop} (h1 : ∀ c, isDig c = true ↔ P c) (h2 : ∀ c, P c → HexChar c) :
    RealParams isDig isPC P IsP [[43], [45]] powHex where
  dig := h1
  pw := isPC_iff
  digDelim c h hP := hex_not_delim c h (h2 c hP)
  digDot h := by have := h2 _ h; unfold HexChar at this; omega
  digPow c h hP := by have := h2 _ hP; unfold HexChar at this; unfold IsP at h; omega
  powDelim c h := by unfold DelimChar Blank at h; unfold IsP; omega
  powDot := by unfold IsP; omega
  scan := powHex_scans
  scanF := powHex_false

theorem realSpanDec_scans (pre w : List Nat) : ∃ k, realSpanDec (pre ++ w) pre.length = .ok k ∧
    ScansTo (RealBody DecChar IsE [[], [43], [45]]) pre w k := realSpanGen_scans decParams pre w
theorem realSpanHex_scans (pre w : List Nat) : ∃ k, realSpanHex (pre ++ w) pre.length = .ok k ∧
    ScansTo (RealBody HexChar IsP [[43], [45]]) pre w k := realSpanGen_scans (powHexParams isHexC_iff (fun _ h => h)) pre w
theorem realSpanBin_scans (pre w : List Nat) : ∃ k, realSpanBin (pre ++ w) pre.length = .ok k ∧
    ScansTo (RealBody BinChar IsP [[43], [45]]) pre w k :=
  realSpanGen_scans (powHexParams isBinC_iff (fun c h => by unfold BinChar at h; unfold HexChar; omega)) pre w
theorem realSpanOct_scans (pre w : List Nat) : ∃ k, realSpanOct (pre ++ w) pre.length = .ok k ∧
    ScansTo (RealBody OctChar IsP [[43], [45]]) pre w k :=
  realSpanGen_scans (powHexParams isOctC_iff (fun c h => by unfold OctChar at h; unfold HexChar; omega)) pre w

/-- `_word_follows` scans exactly the word. -/
theorem wordFollows_scans (pre w word : List Nat) : ∃ k, wordFollows (pre ++ w) pre.length word = .ok k ∧
    ScansTo (fun b => b = word) pre w k := by
  unfold wordFollows
  by_cases h : ∃ rest, w = word ++ rest
  · obtain ⟨rest, rfl⟩ := h
    rw [if_pos ⟨by simp, by simp⟩]
    cases rest with
    | nil =>
      rw [if_pos (by simp)]
      refine ⟨_, rfl, ?_, fun _ => ⟨word, [], rfl, rfl, delimEnd_nil, rfl⟩⟩
      rintro b rest' e rfl hr; rfl
    | cons c t =>
      rw [if_neg (by simp), rd_some (c := c) (by simp), Res.ok_bind]
      refine ⟨_, rfl, ?_, ?_⟩
      · rintro b rest' e rfl hr
        simp at e
        rw [← e] at hr
        rw [if_pos ((isDelimChar_iff c).mpr (delimEnd_cons.mp hr))]
      · intro hk
        split at hk
        · rename_i hd
          exact ⟨word, c :: t, rfl, rfl, delimEnd_cons.mpr ((isDelimChar_iff c).mp hd), by rw [if_pos hd]⟩
        · exact absurd rfl hk
  · rw [if_neg]
    · refine ⟨0, rfl, ?_, fun h => absurd rfl h⟩
      rintro b rest' e rfl hr
      exact absurd ⟨rest', e⟩ h
    · rintro ⟨h1, h2⟩
      apply h
      rw [List.drop_left] at h2
      exact ⟨w.drop word.length, by conv => lhs; rw [← List.take_append_drop word.length w, h2]⟩


/-- The scan of a real literal after its sign. -/
def realAfterSign (ne : List Nat) (skip : Nat) : Res Nat :=
  if ne.length ≥ skip + 3 then do
    let c ← rd ne skip
    if c ≠ 48 then
      if c = 105 then do
        let n ← wordFollows ne (skip + 1) (S "nfinity")
        if n ≠ 0 then .ok n else wordFollows ne (skip + 1) (S "nf")
      else if c = 110 then wordFollows ne (skip + 1) (S "an")
      else realSpanDec ne skip
    else do
      let next ← rd ne (skip + 1)
      if next = 120 ∨ next = 88 then realSpanHex ne (skip + 2)
      else if next = 98 ∨ next = 66 then realSpanBin ne (skip + 2)
      else if next = 111 ∨ next = 79 then realSpanOct ne (skip + 2)
      else realSpanDec ne skip
  else realSpanDec ne skip

theorem realSpanNe_eq (c : Nat) (t : List Nat) :
    realSpanNe (c :: t) = realAfterSign (c :: t) (if c = 43 ∨ c = 45 then 1 else 0) := by
  unfold realSpanNe realAfterSign
  rw [rd_some (c := c) (by simp)]
  rfl

theorem realBody_ne {P Pw : Nat → Prop} {signs : List (List Nat)} {b : List Nat} (h : RealBody P Pw signs b) :
    0 < b.length := by
  obtain ⟨ip, fp, ep, rfl, _, h, _⟩ := h
  rcases h with ⟨_, h⟩ | ⟨f, rfl, _⟩
  · have := List.length_pos_iff.mpr h
    simp; omega
  · simp; omega

theorem realBody_head {P Pw : Nat → Prop} {signs : List (List Nat)} {c : Nat} {b : List Nat}
    (h : RealBody P Pw signs (c :: b)) : P c ∨ c = 46 := by
  obtain ⟨ip, fp, ep, e, h1, h2, _⟩ := h
  cases ip with
  | nil =>
    rcases h2 with ⟨_, h⟩ | ⟨f, rfl, _⟩
    · exact absurd rfl h
    · simp at e; right; exact e.1
  | cons d ip => simp at e; left; exact h1 c (by simp [e.1])

/-- A decimal literal cannot start with `0` and a character that is no digit, point, exponent or delimiter. -/
theorem no_dec_real {x : Nat} {t b rest : List Nat} (e : 48 :: x :: t = b ++ rest) (h1 : ¬ DecChar x) (h2 : x ≠ 46)
    (h3 : ¬ IsE x) (h4 : ¬ DelimChar x) (hr : DelimEnd rest) : ¬ RealBody DecChar IsE [[], [43], [45]] b := by
  rintro ⟨ip, fp, ep, rfl, g1, g2, g3⟩
  have hh : HeadNot DecChar (fp ++ ep ++ rest) := by
    rcases g2 with ⟨rfl, _⟩ | ⟨f, rfl, _⟩
    · exact headNot_tail decParams.digDelim decParams.digPow g3 hr
    · exact headNot_cons.mpr decParams.digDot
  obtain ⟨rfl, e2⟩ := span_unique (P := DecChar) [48] ip (x :: t) (fp ++ ep ++ rest) (by simp [DecChar]) g1
    (headNot_cons.mpr h1) hh (by simpa using e)
  rcases g2 with ⟨rfl, _⟩ | ⟨f, rfl, _⟩
  · rcases g3 with rfl | ⟨e', sg, ds, rfl, he, _⟩
    · simp at e2
      rw [← e2] at hr
      exact h4 (delimEnd_cons.mp hr)
    · simp at e2
      exact h3 (e2.1 ▸ he)
  · simp at e2
    exact h2 e2.1

theorem realLit_dec_of_head {c : Nat} {b : List Nat} (h1 : c ≠ 105) (h2 : c ≠ 110) (h3 : c ≠ 48) :
    RealLit (c :: b) ↔ RealBody DecChar IsE [[], [43], [45]] (c :: b) := by
  constructor
  · intro h
    cases h with
    | dec h => exact h
    | hex => exact absurd rfl h3
    | bin => exact absurd rfl h3
    | oct => exact absurd rfl h3
    | inf => exact absurd rfl h1
    | infinity => exact absurd rfl h1
    | nan => exact absurd rfl h2
  · exact .dec

theorem prefix_cons {c : Nat} {t b rest : List Nat} (e : c :: t = b ++ rest) (h : b ≠ []) : ∃ b', b = c :: b' ∧ t = b' ++ rest := by
  cases b with
  | nil => exact absurd rfl h
  | cons d b' => simp at e; exact ⟨b', by simp [e.1], e.2⟩

theorem realLit_ne {b : List Nat} (h : RealLit b) : b ≠ [] := by
  cases h with
  | dec h => have := realBody_ne h; exact List.length_pos_iff.mp this
  | _ => simp

theorem realAfterSign_scans (pre w : List Nat) : ∃ k, realAfterSign (pre ++ w) pre.length = .ok k ∧ ScansTo RealLit pre w k := by
  unfold realAfterSign
  by_cases hl : w.length < 3
  · rw [if_neg (by simp; omega)]
    obtain ⟨k, h1, h2⟩ := realSpanDec_scans pre w
    refine ⟨k, h1, h2.congr (fun b rest e hr => ⟨.dec, fun h => ?_⟩)⟩
    have hlb : b.length < 3 := by have := congrArg List.length e; simp at this; omega
    cases h with
    | dec h => exact h
    | hex _ h => have := realBody_ne h; simp at hlb; omega
    | bin _ h => have := realBody_ne h; simp at hlb; omega
    | oct _ h => have := realBody_ne h; simp at hlb; omega
    | inf => simp at hlb
    | infinity => simp at hlb
    | nan => simp at hlb
  · obtain ⟨c, x, m, t, rfl⟩ : ∃ c x m t, w = c :: x :: m :: t := by
      rcases w with _ | ⟨c, _ | ⟨x, _ | ⟨m, t⟩⟩⟩
      · exact absurd (by simp) hl
      · exact absurd (by simp) hl
      · exact absurd (by simp) hl
      · exact ⟨c, x, m, t, rfl⟩
    rw [if_pos (by simp), rd_some (c := c) (by simp), Res.ok_bind]
    by_cases h48 : c = 48
    · subst h48
      rw [if_neg (by simp), rd_some (c := x) (by simp), Res.ok_bind]
      have key : ∀ (x' : Nat) (L : List Nat → Prop) (k : Nat), ScansTo L (pre ++ [48, x]) (m :: t) k →
          (∀ b rest, 48 :: x :: m :: t = b ++ rest → DelimEnd rest → (RealLit b ↔ ∃ b', b = [48, x] ++ b' ∧ L b')) →
          ScansTo RealLit pre (48 :: x :: m :: t) k := by
        intro x' L k h1 h2
        have h3 : ScansTo (fun b => ∃ b', b = [48, x] ++ b' ∧ L b') pre (48 :: x :: m :: t) k := h1.shift
        exact h3.congr (fun b rest e hr => (h2 b rest e hr).symm)
      have e2 : pre ++ 48 :: x :: m :: t = (pre ++ [48, x]) ++ m :: t := by simp
      have e3 : pre.length + 2 = (pre ++ [48, x]).length := by simp
      have nodec : ∀ b rest, 48 :: x :: m :: t = b ++ rest → DelimEnd rest → x ∈ [120, 88, 98, 66, 111, 79] →
          ¬ RealBody DecChar IsE [[], [43], [45]] b := by
        intro b rest e hr hx
        simp at hx
        refine no_dec_real e ?_ ?_ ?_ ?_ hr
        · unfold DecChar; omega
        · omega
        · unfold IsE; omega
        · unfold DelimChar Blank; omega
      by_cases hx : x = 120 ∨ x = 88
      · rw [if_pos hx, e2, e3]
        obtain ⟨k, h1, h2⟩ := realSpanHex_scans (pre ++ [48, x]) (m :: t)
        refine ⟨k, h1, key x _ k h2 (fun b rest e hr => ⟨fun h => ?_, ?_⟩)⟩
        · cases h with
          | dec h => exact absurd h (nodec b rest e hr (by simp; omega))
          | hex _ h => simp at e; exact ⟨_, by simp [e.1], h⟩
          | bin g h => simp at e; omega
          | oct g h => simp at e; omega
          | inf => simp at e
          | infinity => simp at e
          | nan => simp at e
        · rintro ⟨b', rfl, h⟩; exact .hex hx h
      · rw [if_neg hx]
        by_cases hx2 : x = 98 ∨ x = 66
        · rw [if_pos hx2, e2, e3]
          obtain ⟨k, h1, h2⟩ := realSpanBin_scans (pre ++ [48, x]) (m :: t)
          refine ⟨k, h1, key x _ k h2 (fun b rest e hr => ⟨fun h => ?_, ?_⟩)⟩
          · cases h with
            | dec h => exact absurd h (nodec b rest e hr (by simp; omega))
            | bin _ h => simp at e; exact ⟨_, by simp [e.1], h⟩
            | hex g h => simp at e; omega
            | oct g h => simp at e; omega
            | inf => simp at e
            | infinity => simp at e
            | nan => simp at e
          · rintro ⟨b', rfl, h⟩; exact .bin hx2 h
        · rw [if_neg hx2]
          by_cases hx3 : x = 111 ∨ x = 79
          · rw [if_pos hx3, e2, e3]
            obtain ⟨k, h1, h2⟩ := realSpanOct_scans (pre ++ [48, x]) (m :: t)
            refine ⟨k, h1, key x _ k h2 (fun b rest e hr => ⟨fun h => ?_, ?_⟩)⟩
            · cases h with
              | dec h => exact absurd h (nodec b rest e hr (by simp; omega))
              | oct _ h => simp at e; exact ⟨_, by simp [e.1], h⟩
              | hex g h => simp at e; omega
              | bin g h => simp at e; omega
              | inf => simp at e
              | infinity => simp at e
              | nan => simp at e
            · rintro ⟨b', rfl, h⟩; exact .oct hx3 h
          · rw [if_neg hx3]
            obtain ⟨k, h1, h2⟩ := realSpanDec_scans pre (48 :: x :: m :: t)
            refine ⟨k, h1, h2.congr (fun b rest e hr => ⟨.dec, fun h => ?_⟩)⟩
            cases h with
            | dec h => exact h
            | hex g h => simp at e; omega
            | bin g h => simp at e; omega
            | oct g h => simp at e; omega
            | inf => simp at e
            | infinity => simp at e
            | nan => simp at e
    · rw [if_pos h48]
      have e2 : pre ++ c :: x :: m :: t = (pre ++ [c]) ++ x :: m :: t := by simp
      have e3 : pre.length + 1 = (pre ++ [c]).length := by simp
      by_cases hi : c = 105
      · subst hi
        rw [if_pos rfl, e2, e3]
        obtain ⟨k1, h1, h2⟩ := wordFollows_scans (pre ++ [105]) (x :: m :: t) (S "nfinity")
        obtain ⟨k2, h3, h4⟩ := wordFollows_scans (pre ++ [105]) (x :: m :: t) (S "nf")
        have s1 : ScansTo (fun b => ∃ b', b = [105] ++ b' ∧ b' = S "nfinity") pre (105 :: x :: m :: t) k1 := h2.shift
        have s2 : ScansTo (fun b => ∃ b', b = [105] ++ b' ∧ b' = S "nf") pre (105 :: x :: m :: t) k2 := h4.shift
        have n1 : [105] ++ S "nfinity" = [105, 110, 102, 105, 110, 105, 116, 121] := by decide +kernel
        have n2 : [105] ++ S "nf" = [105, 110, 102] := by decide +kernel
        rw [h1, Res.ok_bind]
        have lit : ∀ b rest, 105 :: x :: m :: t = b ++ rest → RealLit b →
            b = [105, 110, 102] ∨ b = [105, 110, 102, 105, 110, 105, 116, 121] := by
          intro b rest e h
          obtain ⟨b', rfl, _⟩ := prefix_cons e (realLit_ne h)
          cases h with
          | dec h => have := realBody_head h; unfold DecChar at this; omega
          | inf => simp
          | infinity => simp
        by_cases hk : k1 = 0
        · rw [if_neg (by simpa using hk), h3]
          refine ⟨k2, rfl, s2.congr (fun b rest e hr => ⟨?_, fun h => ?_⟩)⟩
          · rintro ⟨b', rfl, rfl⟩; rw [n2]; exact .inf
          · rcases lit b rest e h with rfl | rfl
            · exact ⟨_, n2.symm, rfl⟩
            · have := s1.1 _ rest e ⟨_, n1.symm, rfl⟩ hr
              simp at this; omega
        · rw [if_pos hk]
          refine ⟨k1, rfl, s1.congr (fun b rest e hr => ⟨?_, fun h => ?_⟩)⟩
          · rintro ⟨b', rfl, rfl⟩; rw [n1]; exact .infinity
          · rcases lit b rest e h with rfl | rfl
            · obtain ⟨b2, rest2, f1, ⟨b3, f2, f3⟩, _⟩ := s1.2 hk
              rw [f3, n1] at f2
              rw [f2] at f1
              rw [f1] at e
              simp at e
              rw [← e] at hr
              have := delimEnd_cons.mp hr
              unfold DelimChar Blank at this
              omega
            · exact ⟨_, n1.symm, rfl⟩
      · rw [if_neg hi]
        by_cases hn : c = 110
        · subst hn
          rw [if_pos rfl, e2, e3]
          obtain ⟨k1, h1, h2⟩ := wordFollows_scans (pre ++ [110]) (x :: m :: t) (S "an")
          have s1 : ScansTo (fun b => ∃ b', b = [110] ++ b' ∧ b' = S "an") pre (110 :: x :: m :: t) k1 := h2.shift
          have n1 : [110] ++ S "an" = [110, 97, 110] := by decide +kernel
          refine ⟨k1, h1, s1.congr (fun b rest e hr => ⟨?_, fun h => ?_⟩)⟩
          · rintro ⟨b', rfl, rfl⟩; rw [n1]; exact .nan
          · obtain ⟨b', rfl, _⟩ := prefix_cons e (realLit_ne h)
            cases h with
            | dec h => have := realBody_head h; unfold DecChar at this; omega
            | nan => exact ⟨_, n1.symm, rfl⟩
        · rw [if_neg hn]
          obtain ⟨k, h1, h2⟩ := realSpanDec_scans pre (c :: x :: m :: t)
          refine ⟨k, h1, h2.congr (fun b rest e hr => ⟨.dec, fun h => ?_⟩)⟩
          obtain ⟨b', rfl, _⟩ := prefix_cons e (realLit_ne h)
          exact (realLit_dec_of_head hi hn h48).mp h

end C4
